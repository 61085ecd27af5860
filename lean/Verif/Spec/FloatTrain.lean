import Verif.Spec.FloatGrad
import Verif.Model.FloatTrain
import Mathlib.Analysis.SpecialFunctions.Log.Basic
/-!
# The cross-entropy of a network of Relu layers with real numbers
-/
namespace Thinc.Spec
open BigOperators

/-- The probability of class `j` for one row: softmax of the scores. -/
noncomputable def probReal (ls : List DenseReal) (last : DenseReal) (x : ℕ → ℝ) (j : ℕ) : ℝ :=
  Real.exp (scoresReal ls last x j) / ∑ k ∈ Finset.range last.nO, Real.exp (scoresReal ls last x k)

/-- The share of a row in the loss: `1 / N` or 1, and nothing if its class is missing. -/
noncomputable def rowShare (normalize : Bool) (N : ℕ) (missing : Bool) : ℝ := if missing then 0 else if normalize then 1 / N else 1

/-- The cross-entropy of a batch of `N` rows: minus the logarithm of the probability of the right class, for all rows. -/
noncomputable def netEntropy (normalize : Bool) (N : ℕ) (label : ℕ → ℕ) (missing : ℕ → Bool) (ls : List DenseReal) (last : DenseReal)
    (x : ℕ → ℕ → ℝ) : ℝ :=
  ∑ n ∈ Finset.range N, rowShare normalize N (missing n) * -Real.log (probReal ls last (x n) (label n))

/-- The gradient of the scores of a row: the probability, minus one for the right class, times the row's share. -/
noncomputable def scoreGrad (normalize : Bool) (N : ℕ) (label : ℕ → ℕ) (missing : ℕ → Bool) (ls : List DenseReal) (last : DenseReal)
    (x : ℕ → ℕ → ℝ) (n j : ℕ) : ℝ :=
  rowShare normalize N (missing n) * (probReal ls last (x n) j - if j = label n then 1 else 0)

/-- The share of a row that counts. -/
noncomputable def fullShare (normalize : Bool) (N : ℕ) : ℝ := if normalize then 1 / N else 1

/-- How far the gradient of a score may be off, if the probabilities may be off by `ε`. -/
noncomputable def scoreGradError (u η : ℝ) (normalize : Bool) (N : ℕ) (ε : ℝ) : ℝ := fullShare normalize N * (ε + 2 * u) + η

end Thinc.Spec
