import Verif.Model.CMem
import Mathlib.Algebra.BigOperators.Group.Finset.Basic
/-!
# Matrix multiplication on the backends

NumPy arrays are views of buffers, with strides, so that an array may be transposed, a part of another array, or share its
memory with another one.  Floats are elements of a semiring: rounding is not modelled.  Arrays have two axes: the exceptions for
other numbers of axes (thinc/backends/numpy_ops.pyx:82-85) are not modelled.
-/
namespace Thinc.Blas
open BigOperators
variable {α : Type}

/-- `array.dtype`, as far as the functions below distinguish it. -/
inductive DType where
  | float32
  | float64
  | other
  deriving DecidableEq

/-- The buffers that exist. -/
structure Memory (α : Type) where
  next : Nat
  buf : Nat → Buf α

/-- A two-dimensional NumPy array: its buffer, the index of its first element, its shape, its strides (in elements) and its dtype. -/
structure View where
  base : Nat
  off : Nat
  rows : Nat
  cols : Nat
  rstep : Int
  cstep : Int
  dtype : DType
  deriving DecidableEq

/-- Where `v[i, j]` is in the buffer. -/
def View.pos (v : View) (i j : Nat) : Int := v.off + i * v.rstep + j * v.cstep

/-- `v[i, j]` -/
def View.entry (m : Memory α) (v : View) (i j : Nat) : α := (m.buf v.base).val (v.pos i j).toNat

/-- `v.T` -/
def View.transpose (v : View) : View := ⟨v.base, v.off, v.cols, v.rows, v.cstep, v.rstep, v.dtype⟩

/-- `v.flags["C_CONTIGUOUS"]`: axes of length one have any stride. -/
def View.contiguous (v : View) : Prop :=
  v.rows = 0 ∨ v.cols = 0 ∨ ((v.cols = 1 ∨ v.cstep = 1) ∧ (v.rows = 1 ∨ v.rstep = v.cols))

instance (v : View) : Decidable v.contiguous := by unfold View.contiguous; infer_instance

/-- A new array. -/
def Memory.new (m : Memory α) (rows cols : Nat) (dtype : DType) (val : Nat → α) : View × Memory α :=
  (⟨m.next, 0, rows, cols, cols, 1, dtype⟩, ⟨m.next + 1, fun b => if b = m.next then ⟨rows * cols, val⟩ else m.buf b⟩)

/-- thinc/backends/ops.py:763-771 `Ops.as_contig` (without `dtype`). -/
def asContig (m : Memory α) (v : View) : View × Memory α :=
  if v.contiguous then (v, m) else m.new v.rows v.cols v.dtype fun k => v.entry m (k / v.cols) (k % v.cols)

/-- `base[i]` of a pointer. -/
def Memory.read (m : Memory α) (base : Nat) (i : Int) : Except PyErr α := (m.buf base).read i

/-- `base[i] = x` of a pointer. -/
def Memory.write (m : Memory α) (base : Nat) (i : Int) (x : α) : Except PyErr (Memory α) := do
  let b ← (m.buf base).write i x
  return ⟨m.next, fun c => if c = base then b else m.buf c⟩

/-- A pointer into a buffer and the leading dimension of the matrix it points to. -/
structure Ptr where
  base : Nat
  off : Nat
  ld : Nat

/-- The index of entry (i, k) of the matrix, or of its transpose. -/
def Ptr.index (p : Ptr) (trans : Bool) (i k : Nat) : Nat := p.off + if trans then k * p.ld + i else i * p.ld + k

/-- One step of the sum of products. -/
def dotStep [Add α] [Mul α] (m : Memory α) (trans1 trans2 : Bool) (A B : Ptr) (i j : Nat) (s : α) (k : Nat) : Except PyErr α := do
  let a ← m.read A.base (A.index trans1 i k)
  let b ← m.read B.base (B.index trans2 k j)
  return s + a * b

/-- One entry of the result. -/
def gemmEntry [Zero α] [Add α] [Mul α] (trans1 trans2 : Bool) (K : Nat) (A B C : Ptr) (m : Memory α) (i j : Nat) :
    Except PyErr (Memory α) := do
  let s ← forN K (0 : α) (dotStep m trans1 trans2 A B i j)
  m.write C.base (C.index false i j) s

/-- `cblas_sgemm`, `blis.cy.sgemm` and `blis.cy.dgemm` with alpha = 1 and beta = 0 on matrices in row-major order: C is written and not
read.  (What a BLAS library does if C overlaps A or B depends on the library.) -/
def sgemm [Zero α] [Add α] [Mul α] (trans1 trans2 : Bool) (M N K : Nat) (A B C : Ptr) (m : Memory α) : Except PyErr (Memory α) :=
  forN M m fun m i => forN N m fun m j => gemmEntry trans1 trans2 K A B C m i j

/-- `array.data` and `array.shape[1]` of a contiguous array. -/
def View.ptr (v : View) : Ptr := ⟨v.base, v.off, v.cols⟩

/-- `nM`, `nK`, `nK_b` and `nN`. -/
def View.size0 (v : View) (trans : Bool) : Nat := if trans then v.cols else v.rows
@[inherit_doc View.size0] def View.size1 (v : View) (trans : Bool) : Nat := if trans then v.rows else v.cols

/-- The arrays after `if trans: x = x.T`. -/
def View.op (v : View) (trans : Bool) : View := if trans then v.transpose else v

/-- Entry (i, j) of `xp.dot(x, y)`. -/
def dotEntry [AddCommMonoid α] [Mul α] (m : Memory α) (x y : View) (i j : Nat) : α :=
  ∑ k ∈ Finset.range x.cols, x.entry m i k * y.entry m k j

/-- Every entry of a contiguous array is assigned. -/
def Memory.fill (m : Memory α) (v : View) (f : Nat → Nat → α) : Memory α :=
  ⟨m.next, fun b => if b = v.base then ⟨(m.buf b).size, fun k =>
    if v.off ≤ k ∧ k < v.off + v.rows * v.cols then f ((k - v.off) / v.cols) ((k - v.off) % v.cols) else (m.buf b).val k⟩ else m.buf b⟩

/-- `xp.dot(x, y)` and `xp.dot(x, y, out=out)` of NumPy and CuPy: `out` must be an array that `dot` could have returned.  It may overlap the
arguments.  `promote` gives the dtype of a product. -/
def dot [AddCommMonoid α] [Mul α] (promote : DType → DType → DType) (x y : View) (out : Option View) (m : Memory α) :
    Except PyErr (View × Memory α) :=
  if x.cols ≠ y.rows then .error .valueError else
  match out with
  | none => .ok (m.new x.rows y.cols (promote x.dtype y.dtype) fun k => dotEntry m x y (k / y.cols) (k % y.cols))
  | some o =>
    if o.contiguous ∧ o.rows = x.rows ∧ o.cols = y.cols ∧ o.dtype = promote x.dtype y.dtype then .ok (o, m.fill o (dotEntry m x y))
    else .error .valueError

/-- thinc/backends/ops.py:235-254 `Ops.gemm`; also thinc/backends/cupy_ops.py:70-84 `CupyOps.gemm` on arrays of the GPU. -/
def opsGemm [AddCommMonoid α] [Mul α] (promote : DType → DType → DType) (x y : View) (out : Option View) (trans1 trans2 : Bool) (m : Memory α) :
    Except PyErr (View × Memory α) :=
  dot promote (x.op trans1) (y.op trans2) out m

/-- The array to write to: `out`, a contiguous copy of it, or a new array with anything in it. -/
def numpyOut (junk : Nat → α) (nM nN : Nat) (dtype : DType) (m : Memory α) : Option View → View × Memory α
  | none => m.new nM nN dtype junk
  | some o => asContig m o

/-- thinc/backends/numpy_ops.pyx:81-126 `NumpyOps.gemm`. -/
def numpyGemm [AddCommMonoid α] [Mul α] (promote : DType → DType → DType) (useBlis : Bool) (junk : Nat → α) (x y : View) (out : Option View)
    (trans1 trans2 : Bool) (m : Memory α) : Except PyErr (View × Memory α) :=
  if useBlis = false then opsGemm promote x y out trans1 trans2 m else
  let (x, m) := asContig m x
  let (y, m) := asContig m y
  let nM := x.size0 trans1
  let nK := x.size1 trans1
  let nKb := y.size0 trans2
  let nN := y.size1 trans2
  if nK ≠ nKb then .error .valueError else
  let (o, m) := numpyOut junk nM nN x.dtype m out
  if (x.dtype = .float32 ∧ y.dtype = .float32 ∧ o.dtype = .float32) ∨ (x.dtype = .float64 ∧ y.dtype = .float64 ∧ o.dtype = .float64) then do
    let m ← sgemm trans1 trans2 nM nN nK x.ptr y.ptr o.ptr m
    return (o, m)
  else .error .valueError

/-- An argument of the type `float[:, ::1]`. -/
def View.isMemoryview (v : View) : Prop := v.contiguous ∧ v.dtype = .float32

instance (v : View) : Decidable v.isMemoryview := by unfold View.isMemoryview; infer_instance

/-- `out`, after the checks of its type and shape, or a new array. -/
def appleOut (junk : Nat → α) (nM nN : Nat) (m : Memory α) : Option View → Except PyErr (View × Memory α)
  | none => .ok (m.new nM nN .float32 junk)
  | some o => if o.isMemoryview ∧ o.rows = nM ∧ o.cols = nN then .ok (o, m) else .error .valueError

/-- thinc/backends/apple_ops.pyx:27-39 `AppleOps.gemm` and thinc/backends/_accelerate.pyx:7-50 `gemm`. -/
def appleGemm [Zero α] [Add α] [Mul α] (junk : Nat → α) (x y : View) (out : Option View) (trans1 trans2 : Bool) (m : Memory α) :
    Except PyErr (View × Memory α) :=
  if ¬ (x.isMemoryview ∧ y.isMemoryview) then .error .valueError else
  let nM := x.size0 trans1
  let nK := x.size1 trans1
  let nKb := y.size0 trans2
  let nN := y.size1 trans2
  match appleOut junk nM nN m out with
  | .error e => .error e
  | .ok (o, m) =>
    if nK ≠ nKb then .error .valueError
    else if nM = 0 ∨ nK = 0 ∨ nN = 0 then .ok (o, m)
    else do
      let m ← sgemm trans1 trans2 nM nN nK x.ptr y.ptr o.ptr m
      return (o, m)

end Thinc.Blas
