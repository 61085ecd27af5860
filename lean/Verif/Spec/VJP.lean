import Mathlib.Analysis.Calculus.FDeriv.Prod
import Mathlib.Analysis.Calculus.FDeriv.Pi
/-!
# Gradients

What it means for a `backprop` function to be the derivative of a forward function: it is the
transpose of the Fréchet derivative with respect to the usual sum-of-products pairing of arrays.
Arrays are functions from a finite index set, several arrays are tuples.
-/
namespace Thinc.Spec
open BigOperators

/-- Shapes that have a sum-of-products pairing. -/
class Tensor (E : Type) [NormedAddCommGroup E] [NormedSpace ℝ E] where
  /-- The sum of the products of all entries. -/
  dot : E → E → ℝ
  dot_add_left : ∀ u v w, dot (u + v) w = dot u w + dot v w
  dot_comm : ∀ u v, dot u v = dot v u
  dot_smul_left : ∀ (a : ℝ) u v, dot (a • u) v = a * dot u v
  dot_self_nonneg : ∀ u, 0 ≤ dot u u
  dot_self_eq_zero : ∀ u, dot u u = 0 → u = 0

/-- A single number. -/
instance : Tensor ℝ where
  dot x y := x * y
  dot_add_left u v w := add_mul u v w
  dot_comm u v := mul_comm u v
  dot_smul_left a u v := by simp [mul_assoc]
  dot_self_nonneg u := mul_self_nonneg u
  dot_self_eq_zero u h := mul_self_eq_zero.1 h

variable {E F : Type} [NormedAddCommGroup E] [NormedSpace ℝ E] [Tensor E]
  [NormedAddCommGroup F] [NormedSpace ℝ F] [Tensor F]

open Tensor

/-- An array: a number (or array) for every index. -/
instance {ι : Type} [Fintype ι] {E : ι → Type} [∀ i, NormedAddCommGroup (E i)] [∀ i, NormedSpace ℝ (E i)]
    [∀ i, Tensor (E i)] : Tensor ((i : ι) → E i) where
  dot u v := ∑ i, dot (u i) (v i)
  dot_add_left u v w := by simp [dot_add_left, Finset.sum_add_distrib]
  dot_comm u v := Finset.sum_congr rfl fun i _ => dot_comm _ _
  dot_smul_left a u v := by simp [dot_smul_left, Finset.mul_sum]
  dot_self_nonneg u := Finset.sum_nonneg fun i _ => dot_self_nonneg _
  dot_self_eq_zero u h := by
    funext i
    exact dot_self_eq_zero _
      ((Finset.sum_eq_zero_iff_of_nonneg fun j _ => dot_self_nonneg _).1 h i (Finset.mem_univ i))

/-- Two arrays. -/
instance : Tensor (E × F) where
  dot u v := dot u.1 v.1 + dot u.2 v.2
  dot_add_left u v w := by simp only [Prod.fst_add, Prod.snd_add, dot_add_left]; ring
  dot_comm u v := by rw [dot_comm u.1, dot_comm u.2]
  dot_smul_left a u v := by simp only [Prod.smul_fst, Prod.smul_snd, dot_smul_left]; ring
  dot_self_nonneg u := add_nonneg (dot_self_nonneg _) (dot_self_nonneg _)
  dot_self_eq_zero u h := by
    have h1 := dot_self_nonneg u.1
    have h2 := dot_self_nonneg u.2
    exact Prod.ext (dot_self_eq_zero _ (by linarith)) (dot_self_eq_zero _ (by linarith))

/-- `back` is the vector-Jacobian product of `f` at `x`: `f` is differentiable at `x` with some
derivative `f'`, and `back dy · v = dy · f' v` for all `dy` and `v`. -/
def IsVJP (f : E → F) (x : E) (back : F → E) : Prop :=
  ∃ f' : E →L[ℝ] F, HasFDerivAt f f' x ∧ ∀ dy v, dot (back dy) v = dot dy (f' v)

end Thinc.Spec
