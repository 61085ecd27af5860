import Verif.Model.CMem
import Mathlib.Logic.Function.Basic
/-!
# CUDA kernels: threads that share a memory

A launch starts `blocks * threads` copies of the same program.  The copies run concurrently and share the arrays that were passed to
the kernel.  Here an execution is any interleaving of their single reads and writes, given by a schedule: a list that says which thread
makes the next access.  Reading or writing outside an array, and reading an integer array as numbers, is undefined behaviour and ends
the execution with `none`.  Every access is recorded, so that "free of data races" can be stated; for programs without data races the
interleaving semantics is the one CUDA promises.  Indices are unbounded integers (the kernels use `int`), and floating-point rounding
is not modelled.
-/
namespace Thinc.Gpu
variable {α R S : Type}

/-- One element of an array in GPU memory. -/
inductive Cell (α : Type)
  | num (x : α)
  | int (k : Int)
  deriving DecidableEq

/-- GPU memory: numbered arrays (the kernel's pointer arguments), each with a size and a content. -/
structure Mem (α : Type) where
  size : Nat → Nat
  val : Nat → Nat → Cell α

/-- An element: the number of the array and the offset. -/
abbrev Loc := Nat × Nat

/-- The memory after `p[i] = c`. -/
def Mem.set (m : Mem α) (l : Loc) (c : Cell α) : Mem α :=
  ⟨m.size, fun p i => if (p, i) = l then c else m.val p i⟩

/-- `m[l]` -/
def Mem.get (m : Mem α) (l : Loc) : Cell α := m.val l.1 l.2

/-- The program of one thread: its accesses to memory in order, each with what is done next. -/
inductive Prog (α : Type) (R : Type)
  | ret (r : R)
  | read (p : Nat) (i : Int) (k : Cell α → Prog α R)
  | write (p : Nat) (i : Int) (c : Cell α) (k : Prog α R)
  | fault

/-- Do one program and then another. -/
def Prog.bind : Prog α R → (R → Prog α S) → Prog α S
  | .ret r, f => f r
  | .read p i k, f => .read p i (fun c => (k c).bind f)
  | .write p i c k, f => .write p i c (k.bind f)
  | .fault, _ => .fault

instance : Monad (Prog α) where
  pure := .ret
  bind := .bind

/-- `p[i]` of an array of floats. -/
def readNum (p : Nat) (i : Int) : Prog α α :=
  .read p i (fun c => match c with
    | .num x => .ret x
    | .int _ => .fault)

/-- `p[i]` of an array of ints. -/
def readInt (p : Nat) (i : Int) : Prog α Int :=
  .read p i (fun c => match c with
    | .num _ => .fault
    | .int k => .ret k)

/-- `p[i] = x` -/
def writeNum (p : Nat) (i : Int) (x : α) : Prog α Unit := .write p i (.num x) (.ret ())

/-- `p[i] = k` for an array of ints. -/
def writeInt (p : Nat) (i : Int) (k : Int) : Prog α Unit := .write p i (.int k) (.ret ())

/-- `for (int i = 0; i < n; ++i)` with the local variables `s`. -/
def loop (n : Nat) (s : R) (body : R → Nat → Prog α R) : Prog α R :=
  match n with
  | 0 => .ret s
  | n + 1 => (loop n s body).bind (fun s => body s n)

/-- thinc/backends/_custom_kernels.cu:1-4, e.g. 29-32 `for (int b = _loop_start; b < B; b += _loop_stride)`, with the local variables
`s`.  The stride is at least 1 because a launch has at least one block of at least one thread, so that `B` rounds are enough. -/
def gridLoop (fuel start stride B : Nat) (s : R) (body : R → Nat → Prog α R) : Prog α R :=
  match fuel with
  | 0 => .ret s
  | fuel + 1 => if start < B then (body s start).bind (fun s => gridLoop fuel (start + stride) stride B s body) else .ret s

/-- An access: the thread, the element, and whether it is a write. -/
structure Access where
  thread : Nat
  loc : Loc
  isWrite : Bool
  deriving DecidableEq

/-- The state of a launch: the memory, what the threads have left to do, and the accesses so far. -/
structure Config (α : Type) where
  mem : Mem α
  todo : Nat → Prog α Unit
  log : List Access

/-- Thread `t` makes its next access; nothing happens if it is finished. -/
def Config.step (c : Config α) (t : Nat) : Option (Config α) :=
  match c.todo t with
  | .ret _ => some c
  | .fault => none
  | .read p i k =>
    if 0 ≤ i ∧ i < c.mem.size p then
      some ⟨c.mem, Function.update c.todo t (k (c.mem.get (p, i.toNat))), ⟨t, (p, i.toNat), false⟩ :: c.log⟩
    else none
  | .write p i x k =>
    if 0 ≤ i ∧ i < c.mem.size p then
      some ⟨c.mem.set (p, i.toNat) x, Function.update c.todo t k, ⟨t, (p, i.toNat), true⟩ :: c.log⟩
    else none

/-- The accesses of a schedule one after the other. -/
def Config.run (c : Config α) : List Nat → Option (Config α)
  | [] => some c
  | t :: ts => match c.step t with
    | none => none
    | some c => c.run ts

/-- A kernel with its arguments, waiting for the launch parameters: the program of the thread that starts at `_loop_start` and has
`_loop_stride`. -/
abbrev Kernel (α : Type) := (start stride : Nat) → Prog α Unit

/-- A kernel that consists of one grid-stride loop over `N` items, with `s` the local variables before the loop. -/
def grid (N : Nat) (s : R) (body : R → Nat → Prog α R) : Kernel α :=
  fun start stride => (gridLoop N start stride N s body).bind (fun _ => .ret ())

/-- The beginning of `kernel((num_blocks,), (threads_per_block,), (…))`.  Thread `threadIdx` of block `blockIdx` has the number
`blockIdx * blockDim + threadIdx`, which is its `_loop_start`; `_loop_stride` is `blockDim * gridDim` (thinc/backends/_custom_kernels.cu,
the first two statements of each kernel). -/
def launch (blocks threads : Nat) (k : Kernel α) (m : Mem α) : Config α :=
  ⟨m, fun t => if t < threads * blocks then k t (threads * blocks) else .ret (), []⟩

end Thinc.Gpu
