import Verif.Spec.FloatMaxout
import Verif.Model.FloatGrad
/-!
# The gradients of a network of Relu layers with real numbers, and how far floating-point numbers may be from them
-/
namespace Thinc.Spec
open BigOperators

/-- The gradient of one row of the input, for the gradient `d` of its scores. -/
noncomputable def inputGrad : List DenseReal → DenseReal → (ℕ → ℝ) → (ℕ → ℝ) → ℕ → ℝ
  | [], last, _, d => fun k => ∑ j ∈ Finset.range last.nO, d j * last.w j k
  | l :: ls, last, x, d => fun k => ∑ j ∈ Finset.range l.nO,
      (if 0 < l.out x j then inputGrad ls last (fun j => max 0 (l.out x j)) d j else 0) * l.w j k

/-- The gradient of the first layer's output before the activation. -/
noncomputable def firstDelta (l : DenseReal) (ls : List DenseReal) (last : DenseReal) (x d : ℕ → ℝ) (j : ℕ) : ℝ :=
  if 0 < l.out x j then inputGrad ls last (fun j => max 0 (l.out x j)) d j else 0

/-- The largest sum of the absolute values of the weights of an input. -/
noncomputable def DenseReal.colSize (l : DenseReal) : ℝ := maxTo (fun k => ∑ j ∈ Finset.range l.nO, |l.w j k|) (l.nI - 1)

/-- How large the gradient of the input of these layers is, if that of their output is at most `D`. -/
noncomputable def gradSize : List DenseReal → ℝ → ℝ
  | [], D => D
  | l :: ls, D => l.colSize * gradSize ls D

/-- How far it may be off, if that of the output may be off by `f`. -/
noncomputable def gradError (u η : ℝ) : List DenseReal → ℝ → ℝ → ℝ
  | [], _, f => f
  | l :: ls, D, f => l.colSize * gradError u η ls D f + dotError u η l.nO (l.colSize * (gradSize ls D + gradError u η ls D f))

/-- How far the gradient of a weight may be off in a batch of `N` rows, for gradients of the outputs up to `D`, off by `f`, and inputs up to `M`, off
by `e`. -/
noncomputable def weightError (u η : ℝ) (N : ℕ) (D f M e : ℝ) : ℝ := N * (D * e + f * M + f * e) + dotError u η N (N * ((D + f) * (M + e)))

/-- How far the gradient of a bias may be off. -/
noncomputable def biasError (u η : ℝ) (N : ℕ) (D f : ℝ) : ℝ := N * f + dotError u η N (N * (D + f))

/-- No gradient can overflow. -/
def GradFits (u η big : ℝ) (N : ℕ) (D f : ℝ) : List DenseReal → ℝ → ℝ → Prop
  | [], _, _ => True
  | l :: ls, M, e =>
    l.colSize * (gradSize ls D + gradError u η ls D f) + dotError u η l.nO (l.colSize * (gradSize ls D + gradError u η ls D f)) ≤ big ∧
    N * ((gradSize ls D + gradError u η ls D f) * (M + e)) + dotError u η N (N * ((gradSize ls D + gradError u η ls D f) * (M + e))) ≤ big ∧
    N * (gradSize ls D + gradError u η ls D f) + dotError u η N (N * (gradSize ls D + gradError u η ls D f)) ≤ big ∧
    GradFits u η big N D f ls (l.outSize M) (l.outError u η M e)

/-- No hidden unit is so near to zero that rounding could turn it on or off. -/
def ClearUnits (u η : ℝ) (N : ℕ) : List DenseReal → (ℕ → ℕ → ℝ) → ℝ → ℝ → Prop
  | [], _, _, _ => True
  | l :: ls, x, M, e => (∀ i < N, ∀ j < l.nO, l.outError u η M e < |l.out (x i) j|) ∧
      ClearUnits u η N ls (fun i j => max 0 (l.out (x i) j)) (l.outSize M) (l.outError u η M e)

/-- The gradients of `W` and `b` of a layer are near those of real numbers: the sums over the rows of `delta n o * x n k` and of `delta n o`. -/
structure LayerGradNear (u η : ℝ) (N : ℕ) (l : DenseReal) (delta x : ℕ → ℕ → ℝ) (D f M e : ℝ) (g : FlGrad) : Prop where
  shape : g.dW.rows = l.nO ∧ g.dW.cols = l.nI
  dW : ∀ o < l.nO, ∀ k < l.nI, ∃ r, g.dW.at o k = .fin r ∧ |r - ∑ n ∈ Finset.range N, delta n o * x n k| ≤ weightError u η N D f M e
  db : ∀ o < l.nO, ∃ r, g.db o = .fin r ∧ |r - ∑ n ∈ Finset.range N, delta n o| ≤ biasError u η N D f

/-- The gradients of all layers are near those of real numbers. -/
def GradsNear (u η : ℝ) (N : ℕ) (d : ℕ → ℕ → ℝ) (D f : ℝ) : List DenseReal → DenseReal → (ℕ → ℕ → ℝ) → ℝ → ℝ → List FlGrad → FlGrad → Prop
  | [], last, x, M, e, [], g => LayerGradNear u η N last d x D f M e g
  | l :: ls, last, x, M, e, g₀ :: gs, g =>
    LayerGradNear u η N l (fun i => firstDelta l ls last (x i) (d i)) x (gradSize (ls ++ [last]) D) (gradError u η (ls ++ [last]) D f) M e g₀ ∧
    GradsNear u η N d D f ls last (fun i j => max 0 (l.out (x i) j)) (l.outSize M) (l.outError u η M e) gs g
  | _, _, _, _, _, _, _ => False

/-! ### Moving the parameters -/

/-- A direction in which the parameters of a layer can move. -/
structure DenseDir where
  w : ℕ → ℕ → ℝ
  c : ℕ → ℝ

/-- The layer after moving by `t`. -/
def DenseReal.move (l : DenseReal) (v : DenseDir) (t : ℝ) : DenseReal :=
  { l with w := fun j k => l.w j k + t * v.w j k, c := fun j => l.c j + t * v.c j }

/-- The gradients of the parameters of a layer times the direction, for one row. -/
def alongLayer (l : DenseReal) (v : DenseDir) (delta x : ℕ → ℝ) : ℝ :=
  ∑ o ∈ Finset.range l.nO, (∑ k ∈ Finset.range l.nI, delta o * x k * v.w o k + delta o * v.c o)

/-- The gradients of all parameters times the direction, for one row. -/
noncomputable def alongNet : List DenseReal → DenseReal → List DenseDir → DenseDir → (ℕ → ℝ) → (ℕ → ℝ) → ℝ
  | l :: ls, last, v :: vs, v', x, d => alongLayer l v (firstDelta l ls last x d) x + alongNet ls last vs v' (fun j => max 0 (l.out x j)) d
  | _, last, _, v', x, d => alongLayer last v' d x

end Thinc.Spec
