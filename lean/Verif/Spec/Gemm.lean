import Verif.Model.Gemm
import Mathlib.Algebra.BigOperators.Fin
/-!
# What a matrix multiplication should do
-/
namespace Thinc.Spec.Gemm
open Blas BigOperators
variable {α : Type}

/-- The array exists: every entry is in its buffer. -/
def Valid (m : Memory α) (v : View) : Prop :=
  v.base < m.next ∧ ∀ i < v.rows, ∀ j < v.cols, 0 ≤ v.pos i j ∧ v.pos i j < (m.buf v.base).size

/-- The array is the matrix `f`. -/
def Holds (m : Memory α) (v : View) {r c : ℕ} (f : Fin r → Fin c → α) : Prop :=
  v.rows = r ∧ v.cols = c ∧ ∀ (i : Fin r) (j : Fin c), v.entry m i j = f i j

/-- The argument of a multiplication is the matrix `f`, or its transpose if the argument is to be transposed. -/
def HoldsOp (m : Memory α) (v : View) (trans : Bool) {r c : ℕ} (f : Fin r → Fin c → α) : Prop :=
  if trans then Holds m v (fun i j => f j i) else Holds m v f

/-- The product of two matrices. -/
def product [AddCommMonoid α] [Mul α] {r n c : ℕ} (f : Fin r → Fin n → α) (g : Fin n → Fin c → α) : Fin r → Fin c → α :=
  fun i j => ∑ k, f i k * g k j

/-- The two arrays have no entry in common. -/
def Apart (v w : View) : Prop :=
  v.base = w.base → ∀ i < v.rows, ∀ j < v.cols, ∀ i' < w.rows, ∀ j' < w.cols, v.pos i j ≠ w.pos i' j'

/-- All arrays that existed before are as before. -/
def AllKept (m m' : Memory α) : Prop := ∀ b < m.next, m'.buf b = m.buf b

/-- Everything but the entries of this array is as before. -/
def OnlyChanges (v : View) (m m' : Memory α) : Prop :=
  ∀ b < m.next, (m'.buf b).size = (m.buf b).size ∧
    ∀ k : ℕ, (∀ i < v.rows, ∀ j < v.cols, ¬ (b = v.base ∧ (k : Int) = v.pos i j)) → (m'.buf b).val k = (m.buf b).val k

end Thinc.Spec.Gemm
