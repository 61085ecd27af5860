import Verif.Model.Py
/-!
# Model of the choice of a backend, a GPU and a GPU memory allocator

thinc/backends/__init__.py:38-116, thinc/backends/_cupy_allocators.py, thinc/util.py:60-75 and 190-240, thinc/compat.py:6-60
and 126.
-/
namespace Thinc.Backends

/-! ### Backends by name -/

/-- backends/__init__.py:102 `ops_by_name`: the registered classes by their `name`; of two with the same name the later one
stays.  `registered` is `registry.ops.get_all().values()`, of any classes. -/
def opsByName {C : Type} (name : C → String) (registered : List C) : PyDict String C :=
  registered.foldl (fun d c => d.set (name c) c) []

/-- `d.get(k, default)`. -/
def getDefault {C : Type} (d : PyDict String C) (k : String) (default : Option C) : Option C :=
  match d.get? k with
  | some c => some c
  | none => default

/-- backends/__init__.py:97-116 `get_ops`: the class whose instance is returned.  (`_import_extra_cpu_backends`, lines 90-94,
may register a class; it is among `registered` then.) -/
def getOps {C : Type} (name : C → String) (registered : List C) (n : String) : Except PyErr C :=
  let d := opsByName name registered
  let cls := if n = "cpu" then getDefault d "bigendian" (getDefault d "apple" (d.get? "numpy")) else d.get? n
  match cls with
  | none => .error .valueError
  | some c => .ok c

/-! ### GPUs -/

/-- What is installed (compat.py:6-60), and the numbers of GPUs CuPy and PyTorch find. -/
structure Platform where
  darwin : Bool
  hasCupy : Bool
  hasCupyGpu : Bool
  hasTorch : Bool
  hasTorchCudaGpu : Bool
  hasTorchMps : Bool
  hasTorchMpsGpu : Bool
  gpus : Nat

/-- compat.py:126 `has_gpu`. -/
def Platform.hasGpu (p : Platform) : Bool := p.hasCupyGpu || p.hasTorchMpsGpu

/-- The backends that matter here. -/
inductive Backend where
  | cpu
  | cupy
  | mps
  deriving DecidableEq

/-- The current backend and the active devices of CuPy and PyTorch. -/
structure Active where
  ops : Backend
  cupyDevice : Int
  torchDevice : Int
  deriving DecidableEq

/-- CUDA raises this for devices that do not exist. -/
def cudaError : PyErr := .userError 1

/-- util.py:190-202 `set_active_gpu`.  `Device(gpu_id).use()` and `torch.cuda.set_device(gpu_id)` raise if there is no such
device; PyTorch ignores negative numbers. -/
def setActiveGpu (p : Platform) (id : Int) (s : Active) : Active × Except PyErr Unit :=
  if !p.hasCupyGpu then (s, .error .valueError)
  else if id < 0 ∨ (p.gpus : Int) ≤ id then (s, .error cudaError)
  else if p.hasTorchCudaGpu then ({ s with cupyDevice := id, torchDevice := id }, .ok ())
  else ({ s with cupyDevice := id }, .ok ())

/-- util.py:234-240, the end of `require_gpu`. -/
def useGpu (p : Platform) (id : Int) (s : Active) : Active × Except PyErr Bool :=
  if p.hasCupyGpu then
    match setActiveGpu p id { s with ops := .cupy } with
    | (s, .ok ()) => (s, .ok true)
    | (s, .error e) => (s, .error e)
  else ({ s with ops := .mps }, .ok true)

/-- util.py:222-240 `require_gpu`. -/
def requireGpu (p : Platform) (id : Int) (s : Active) : Active × Except PyErr Bool :=
  if p.darwin && !p.hasTorchMps then (s, .error .valueError)
  else if !p.darwin && !p.hasCupy then (s, .error .valueError)
  else if !p.hasGpu then (s, .error .valueError)
  else useGpu p id s

/-- util.py:215-219 `prefer_gpu`. -/
def preferGpu (p : Platform) (id : Int) (s : Active) : Active × Except PyErr Bool :=
  if p.hasGpu then
    match requireGpu p id s with
    | (s, .error e) => (s, .error e)
    | (s, .ok _) => (s, .ok p.hasGpu)
  else (s, .ok p.hasGpu)

/-- util.py:205-212 `require_cpu` (with a CPU backend registered). -/
def requireCpu (s : Active) : Active × Except PyErr Bool := ({ s with ops := .cpu }, .ok true)

/-- PyTorch's name of a device. -/
inductive TorchDevice where
  | cpu
  | mps
  | cuda (id : Int)
  deriving DecidableEq

/-- util.py:60-75 `get_torch_default_device`. -/
def torchDefaultDevice (p : Platform) (s : Active) : Except PyErr TorchDevice :=
  if !p.hasTorch then .error .valueError
  else
    match s.ops with
    | .cupy => .ok (.cuda s.torchDevice)
    | .mps => .ok .mps
    | .cpu => .ok .cpu

/-! ### GPU memory -/

/-- backends/_cupy_allocators.py:8-46: the bytes the allocators have allocated for a request (`size_in_bytes // 4` numbers of
four bytes), and the bytes CuPy is told it can use. -/
def allocated (size : Nat) : Nat := 4 * (max 1024 size / 4)

/-- backends/_cupy_allocators.py:20 and 44, the size of `UnownedMemory`. -/
def promised (size : Nat) : Nat := max 1024 size

/-- `cupy.cuda.MemoryPool.malloc` asks its allocator for multiples of 512 bytes. -/
def poolRequest (size : Nat) : Nat := 512 * ((size + 511) / 512)

/-- The libraries that can provide the memory. -/
inductive Library where
  | pytorch
  | tensorflow
  deriving DecidableEq

/-- backends/__init__.py:38-49 `set_gpu_allocator`: which function is called. -/
def allocatorByName (name : String) : Except PyErr Library :=
  if name = "pytorch" then .ok .pytorch
  else if name = "tensorflow" then .ok .tensorflow
  else .error .valueError

/-- The state of the process: the one dict in `context_pools` (its default is a single dict, so all contexts share it:
backends/__init__.py:28), the pools that were ever made (a pool is its number; by the library its allocator uses), and the
pool whose `malloc` CuPy uses. -/
structure Pools where
  pools : PyDict Library Nat := []
  made : List Library := []
  current : Option Nat := none

/-- How far a call of `use_pytorch_for_gpu_memory` or `use_tensorflow_for_gpu_memory` is: before the test whether there is
a pool, before making one, before `set_allocator`, finished, or an exception was raised. -/
inductive Phase where
  | test
  | make
  | set
  | done
  | failed (e : PyErr)
  deriving DecidableEq

/-- A call in some thread. -/
structure Call where
  library : Library
  phase : Phase := .test

/-- backends/__init__.py:67-70 and 84-87: one statement of a call. -/
def Call.step (c : Call) (s : Pools) : Call × Pools :=
  match c.phase with
  | .test => if (s.pools.get? c.library).isSome then ({ c with phase := .set }, s) else ({ c with phase := .make }, s)
  | .make => ({ c with phase := .set },
      { s with pools := s.pools.set c.library s.made.length, made := s.made ++ [c.library] })
  | .set =>
    match s.pools.get? c.library with
    | none => ({ c with phase := .failed .keyError }, s)
    | some n => ({ c with phase := .done }, { s with current := some n })
  | .done => (c, s)
  | .failed _ => (c, s)

/-- Calls in several threads: call `i` makes a step. -/
def stepCall (x : List Call × Pools) (i : Nat) : List Call × Pools :=
  match x.1[i]? with
  | none => x
  | some c => (x.1.set i (c.step x.2).1, (c.step x.2).2)

/-- All steps of a schedule. -/
def runCalls (x : List Call × Pools) (schedule : List Nat) : List Call × Pools := schedule.foldl stepCall x

/-- A call that is not interrupted. -/
def useLibrary (library : Library) (s : Pools) : Pools :=
  let a := Call.step { library } s
  let a := a.1.step a.2
  let a := a.1.step a.2
  a.2

end Thinc.Backends
