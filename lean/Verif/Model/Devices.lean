import Verif.Model.NodeState
import Verif.Model.Walk
/-!
# Moving a model to another device (thinc/model.py lines 527-548)
-/
namespace Thinc.Devices

/-- Where an array or a wrapped model is. -/
inductive Device where
  | cpu
  | gpu (id : Nat)
  deriving DecidableEq

/-- An array: its contents, where it is, and whether it is in single precision. -/
structure Placed (X : Type) where
  value : X
  device : Device
  single : Bool
  deriving DecidableEq

/-- The attributes `device_type` and `device_id` of an `Ops` object: thinc/backends/ops.py:64-68. -/
structure OpsInfo where
  gpu : Bool
  id : Int
  deriving DecidableEq

/-- thinc/backends/numpy_ops.pyx:42-52: `NumpyOps()` -/
def numpyOps : OpsInfo := ⟨false, -1⟩

/-- thinc/backends/cupy_ops.py:26-30: `CupyOps()` -/
def cupyOps : OpsInfo := ⟨true, 0⟩

/-- The libraries of wrapped models; `none` is a shim without `to_device`. -/
inductive ShimKind where
  | torch
  | tensorflow
  | mxnet
  | none
  deriving DecidableEq

/-- A shim: its library, where its model is, and whether `_model` still is a model of that library. -/
structure ShimInfo where
  kind : ShimKind
  device : Device
  usable : Bool
  deriving DecidableEq

/-- The models, the `ops` of each, and the shims. -/
structure World (X A : Type) where
  heap : Heap (Placed X) A
  ops : Addr → OpsInfo
  shims : Addr → ShimInfo

variable {X A V : Type}

/-- thinc/backends/ops.py:699-704 `asarray_f`, with thinc/backends/numpy_ops.pyx:55-69 and thinc/backends/cupy_ops.py:86-102
`asarray`, on an array of either library: single precision, on the device of the library.  cupy puts arrays on the current
device.  `round` is the conversion from double precision. -/
def asarrayF (round : X → X) (target : Device) (a : Placed X) : Placed X :=
  ⟨if a.single then a.value else round a.value, target, true⟩

/-- thinc/model.py:543-544 -/
def moveParam (f : V → V) (name : String) (n : Node V A) : Except PyErr (Node V A) :=
  if n.hasParam name = some true then (n.getParam name).map fun v => n.setParam name (some (f v)) else .ok n

/-- thinc/model.py:545-546 -/
def moveGrad (f : V → V) (name : String) (n : Node V A) : Except PyErr (Node V A) :=
  if n.hasGrad name then (n.getGrad name).map fun v => n.setGrad name (f v) else .ok n

/-- thinc/model.py:543-546: the body of the loop over the names. -/
def moveName (f : V → V) (n : Node V A) (name : String) : Except PyErr (Node V A) := do
  let n ← moveParam f name n
  moveGrad f name n

/-- thinc/model.py:542-546: the loop over the names. -/
def moveNode (f : V → V) (n : Node V A) : Except PyErr (Node V A) := forM' n.paramNames n (moveName f)

/-- The device for `device_id`: `cuda(device_id)`, `"/GPU:{}".format(device_id)`. -/
def OpsInfo.device (ops : OpsInfo) : Device := if ops.gpu then .gpu ops.id.toNat else .cpu

/-- `to_device` of one shim: thinc/shims/pytorch.py:197-204, thinc/shims/tensorflow.py:225-231, thinc/shims/mxnet.py:95-102
(which puts a copy of the shim in the place of the model, on the first GPU), thinc/shims/shim.py:55-56. -/
def shimToDevice (ops : OpsInfo) (s : ShimInfo) : Except PyErr ShimInfo :=
  match s.kind with
  | .torch => .ok { s with device := ops.device }
  | .tensorflow => .ok { s with device := ops.device }
  | .mxnet => .ok ⟨.mxnet, if ops.gpu then .gpu 0 else .cpu, false⟩
  | .none => .error .notImplementedError

/-- thinc/model.py:547-548: the body of the loop over the shims. -/
def shimStep (ops : OpsInfo) (w : World X A) (s : Addr) : World X A × Except PyErr Unit :=
  match shimToDevice ops (w.shims s) with
  | .ok i => ({ w with shims := fun t => if t = s then i else w.shims t }, .ok ())
  | .error e => (w, .error e)

/-- thinc/model.py:541-548: the body of the loop over the nodes.  (If a parameter could not be read, the state would be that
before the parameters of the node are moved; models made through the API never get there, see C04.) -/
def toOpsStep (f : Placed X → Placed X) (ops : OpsInfo) (w : World X A) (a : Addr) : World X A × Except PyErr Unit :=
  match w.heap[a]? with
  | none => (w, .ok ())
  | some n =>
    match moveNode f n with
    | .error e => ({ w with ops := fun b => if b = a then ops else w.ops b }, .error e)
    | .ok n' => loopE (shimStep ops) n.shims ⟨w.heap.modify a fun _ => n', fun b => if b = a then ops else w.ops b, w.shims⟩

/-- thinc/model.py:538-548 `_to_ops`; `f` is `ops.asarray_f`.  (`walk` is a generator, but the loop does not change layers.) -/
def toOps (f : Placed X → Placed X) (ops : OpsInfo) (root : Addr) (w : World X A) : World X A × Except PyErr Unit :=
  loopE (toOpsStep f ops) (walkBfs w.heap root) w

/-- thinc/model.py:527-532 `to_gpu`: cupy's current device is `id` meanwhile. -/
def toGpu (round : X → X) (id : Nat) (root : Addr) (w : World X A) : World X A × Except PyErr Unit :=
  toOps (asarrayF round (.gpu id)) cupyOps root w

/-- thinc/model.py:534-536 `to_cpu` -/
def toCpu (round : X → X) (root : Addr) (w : World X A) : World X A × Except PyErr Unit :=
  toOps (asarrayF round .cpu) numpyOps root w

end Thinc.Devices
