import Mathlib.Analysis.SpecialFunctions.Exp
import Mathlib.Analysis.SpecialFunctions.Log.Basic
import Mathlib.Algebra.BigOperators.Group.Finset.Basic
/-! # The softmax of a row -/
namespace Thinc.Spec
open Real

/-- Exponentials divided by their sum. -/
noncomputable def softmax {κ : Type} [Fintype κ] (x : κ → ℝ) : κ → ℝ := fun k => exp (x k) / ∑ j, exp (x j)

/-- The cross entropy of the probabilities `p` against the target `t`. -/
noncomputable def crossEntropy {κ : Type} [Fintype κ] (t p : κ → ℝ) : ℝ := -∑ k, t k * log (p k)

end Thinc.Spec
