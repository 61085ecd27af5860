import Verif.Spec.FloatGemm
import Verif.Model.FloatNet
/-!
# What a feed-forward network computes with real numbers, and how far floating-point numbers may be from it
-/
namespace Thinc.Spec
open BigOperators

/-- A dense layer with real numbers: the output `j` is `∑ k, x k * w j k + c j`.  `A` and `B` are sizes of the parameters, see `IsSize`. -/
structure DenseReal where
  nI : ℕ
  nO : ℕ
  w : ℕ → ℕ → ℝ
  c : ℕ → ℝ
  A : ℝ
  B : ℝ

namespace DenseReal
variable (l : DenseReal)

/-- The absolute values of the weights of an output add up to at most `A`, and its bias is at most `B`. -/
structure IsSize : Prop where
  nonneg : 0 ≤ l.A ∧ 0 ≤ l.B
  weights : ∀ j < l.nO, ∑ k ∈ Finset.range l.nI, |l.w j k| ≤ l.A
  bias : ∀ j < l.nO, |l.c j| ≤ l.B

/-- The output before the activation. -/
def out (x : ℕ → ℝ) (j : ℕ) : ℝ := ∑ k ∈ Finset.range l.nI, x k * l.w j k + l.c j

/-- How large the outputs are for inputs up to `M`. -/
def outSize (M : ℝ) : ℝ := l.A * M + l.B

/-- How far the outputs may be off, for inputs up to `M` that may be off by `e`. -/
noncomputable def outError (u η M e : ℝ) : ℝ := l.A * e + dotError u η (l.nI + 1) (l.outSize (M + e))

end DenseReal

/-- The output of the hidden layers, `max 0` of each output. -/
noncomputable def hiddenReal : List DenseReal → (ℕ → ℝ) → ℕ → ℝ
  | [], x => x
  | l :: ls, x => hiddenReal ls fun j => max 0 (l.out x j)

/-- The scores: the output of the network with a last layer that has no activation. -/
noncomputable def scoresReal (ls : List DenseReal) (last : DenseReal) (x : ℕ → ℝ) : ℕ → ℝ := last.out (hiddenReal ls x)

/-- How far the outputs of a network may be off, for inputs up to `M` that may be off by `e`: layer by layer. -/
noncomputable def netError (u η : ℝ) : List DenseReal → ℝ → ℝ → ℝ
  | [], _, e => e
  | l :: ls, M, e => netError u η ls (l.outSize M) (l.outError u η M e)

/-- No layer can overflow. -/
def NoOverflow (u η big : ℝ) : List DenseReal → ℝ → ℝ → Prop
  | [], _, _ => True
  | l :: ls, M, e => l.outSize (M + e) + dotError u η (l.nI + 1) (l.outSize (M + e)) ≤ big ∧ NoOverflow u η big ls (l.outSize M) (l.outError u η M e)

/-- The layer has these parameters, in the format. -/
structure IsFlDense (L : FloatLib) (d : FlDense) (l : DenseReal) : Prop where
  rows : d.W.rows = l.nO
  cols : d.W.cols = l.nI
  W : FlMat L d.W l.w
  b : ∀ j < l.nO, d.b j = .fin (l.c j) ∧ IsFinite L (d.b j)
  size : l.IsSize

/-- The matrix has finite entries, off by at most `e` from the given numbers, which are at most `M`. -/
def NearMat (L : FloatLib) (X : Mat Fl) (x : ℕ → ℕ → ℝ) (M e : ℝ) : Prop :=
  ∀ i < X.rows, ∀ k < X.cols, |x i k| ≤ M ∧ ∃ r, X.at i k = .fin r ∧ IsFinite L (X.at i k) ∧ |r - x i k| ≤ e

end Thinc.Spec
