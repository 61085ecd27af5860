import Verif.Spec.FloatAcc
import Verif.Model.CMem
import Mathlib.Algebra.BigOperators.Group.Finset.Basic
/-!
# Matrices of finite numbers, and what their product is
-/
namespace Thinc.Spec
open BigOperators

/-- The matrix has these entries, all of them finite numbers of the format. -/
def FlMat (L : FloatLib) (A : Mat Fl) (f : ℕ → ℕ → ℝ) : Prop :=
  ∀ i < A.rows, ∀ j < A.cols, A.at i j = .fin (f i j) ∧ IsFinite L (A.at i j)

/-- The exact sum of products. -/
def dotReal (n : ℕ) (f g : ℕ → ℝ) : ℝ := ∑ k ∈ Finset.range n, f k * g k

/-- The size of the numbers in a sum of products: the sum of their absolute values. -/
def dotSize (n : ℕ) (f g : ℕ → ℝ) : ℝ := ∑ k ∈ Finset.range n, |f k * g k|

/-- How far the result of adding `n` products may be from the exact sum, if their absolute values add up to `S`. -/
noncomputable def dotError (u η : ℝ) (n : ℕ) (S : ℝ) : ℝ := ((1 + u) ^ n - 1) * S + n * (1 + u) ^ n * η

end Thinc.Spec
