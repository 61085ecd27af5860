import Verif.Model.Py
import Mathlib.Algebra.Field.Defs
/-!
# Flat buffers as the compiled kernels see them

A float or int buffer has a size and a content; a pointer into it is an (integer) offset.  Reading
or writing outside the buffer is undefined behaviour in C and is the outcome `outOfBounds` here, so
that a theorem which gives an `ok` result also says that the kernel stays inside its buffers.
C `int` overflow and floating-point rounding are not modelled.
-/
namespace Thinc
variable {α : Type}

/-- A buffer; `val` is only meaningful below `size`. -/
structure Buf (α : Type) where
  size : Nat
  val : Nat → α

/-- `p[i]` where `i` is the offset from the start of the buffer. -/
def Buf.read (b : Buf α) (i : Int) : Except PyErr α :=
  if 0 ≤ i ∧ i < b.size then .ok (b.val i.toNat) else .error .outOfBounds

/-- `p[i] = x`. -/
def Buf.write (b : Buf α) (i : Int) (x : α) : Except PyErr (Buf α) :=
  if 0 ≤ i ∧ i < b.size then .ok ⟨b.size, fun k => if k = i.toNat then x else b.val k⟩ else .error .outOfBounds

/-- `for (i = 0; i < n; ++i)`. -/
def forN {σ : Type} (n : Nat) (s : σ) (f : σ → Nat → Except PyErr σ) : Except PyErr σ :=
  forM' (List.range n) s f

/-- thinc/backends/cpu_kernels.hh:82-91 `vec_add(X, Y, scale, N)`; also the BLAS `axpy`. -/
def vecAdd [Add α] [Mul α] (X : Buf α) (xo : Int) (Y : Buf α) (yo : Int) (scale : α) (n : Nat) :
    Except PyErr (Buf α) :=
  forN n X (fun X i => do
    let x ← X.read (xo + i)
    let y ← Y.read (yo + i)
    X.write (xo + i) (x + scale * y))

/-- `std::memcpy(dst, src, n * sizeof(*dst))` between different buffers. -/
def memcpy (dst : Buf α) (d : Int) (src : Buf α) (s : Int) (n : Nat) : Except PyErr (Buf α) :=
  forN n dst (fun dst i => do
    let x ← src.read (s + i)
    dst.write (d + i) x)

/-- A C-contiguous two-dimensional array. -/
structure Mat (α : Type) where
  rows : Nat
  cols : Nat
  val : Nat → α

/-- `x[i, j]`. -/
def Mat.at (x : Mat α) (i j : Nat) : α := x.val (i * x.cols + j)

/-- `x.data`. -/
def Mat.buf (x : Mat α) : Buf α := ⟨x.rows * x.cols, x.val⟩

/-- The array over a buffer. -/
def Buf.toMat (b : Buf α) (rows cols : Nat) : Mat α := ⟨rows, cols, b.val⟩

/-- `numpy.zeros((rows, cols))`. -/
def Mat.zeros [Zero α] (rows cols : Nat) : Mat α := ⟨rows, cols, fun _ => 0⟩

/-- The array with the given entries (used for examples and specifications). -/
def Mat.ofFn (rows cols : Nat) (f : Nat → Nat → α) : Mat α :=
  ⟨rows, cols, fun k => f (k / cols) (k % cols)⟩

end Thinc
