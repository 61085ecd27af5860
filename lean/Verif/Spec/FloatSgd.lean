import Verif.Spec.FloatTrain
import Verif.Model.FloatSgd
/-!
# Gradient descent with real numbers, and how far floating-point numbers may be off
-/
namespace Thinc.Spec
open BigOperators

/-- A step of gradient descent with real numbers: with L2 regularization the gradient is that of the loss plus `l2 / 2` times the square of the weight;
with weight decay the weight is shrunk after the step. -/
noncomputable def sgdReal (c : SgdConsts) (w g : ℝ) : ℝ :=
  if c.l2 = 0 then w - c.rate * g
  else if c.isDecay then (w - c.rate * g) - c.shrink * (w - c.rate * g)
  else w - c.rate * (g + c.l2 * w)

/-- What is known about a real number and the floating-point number computed for it: the former is at most `size`, the latter is off by at most
`err`. -/
structure Bound where
  size : ℝ
  err : ℝ

/-- `a` is a finite number near `x`. -/
def NearFl (a : Fl) (x : ℝ) (p : Bound) : Prop := |x| ≤ p.size ∧ ∃ r, a = .fin r ∧ |r - x| ≤ p.err

/-- The floating-point number does not overflow. -/
def Bound.Fits (big : ℝ) (p : Bound) : Prop := p.size + p.err ≤ big

/-- A Python number rounded to the format. -/
noncomputable def Bound.const (u η c : ℝ) : Bound := ⟨|c|, u * |c| + η⟩

/-- A sum or a difference: the errors of both, and the rounding. -/
noncomputable def Bound.add (u η : ℝ) (p q : Bound) : Bound := ⟨p.size + q.size, p.err + q.err + (u * (p.size + p.err + (q.size + q.err)) + η)⟩

/-- A product. -/
noncomputable def Bound.mul (u η : ℝ) (p q : Bound) : Bound :=
  ⟨p.size * q.size, p.size * q.err + p.err * q.size + p.err * q.err + (u * ((p.size + p.err) * (q.size + q.err)) + η)⟩

/-- How large the gradient with L2 regularization is, and how far it is off. -/
noncomputable def sgdGradBound (u η : ℝ) (c : SgdConsts) (w g : Bound) : Bound :=
  if c.l2 = 0 ∨ c.isDecay then g else g.add u η ((Bound.const u η c.l2).mul u η w)

/-- How large the weight before its decay is, and how far it is off. -/
noncomputable def sgdMoveBound (u η : ℝ) (c : SgdConsts) (w g : Bound) : Bound := w.add u η ((Bound.const u η c.rate).mul u η (sgdGradBound u η c w g))

/-- How large the weight after the step is, and how far it is off. -/
noncomputable def sgdBound (u η : ℝ) (c : SgdConsts) (w g : Bound) : Bound :=
  if c.l2 ≠ 0 ∧ c.isDecay then (sgdMoveBound u η c w g).add u η ((Bound.const u η c.shrink).mul u η (sgdMoveBound u η c w g)) else sgdMoveBound u η c w g

/-- No number of the step can overflow. -/
structure SgdFits (u η big : ℝ) (c : SgdConsts) (w g : Bound) : Prop where
  l2 : (Bound.const u η c.l2).Fits big
  rate : (Bound.const u η c.rate).Fits big
  shrink : (Bound.const u η c.shrink).Fits big
  pull : ((Bound.const u η c.l2).mul u η w).Fits big
  grad : (sgdGradBound u η c w g).Fits big
  change : ((Bound.const u η c.rate).mul u η (sgdGradBound u η c w g)).Fits big
  move : (sgdMoveBound u η c w g).Fits big
  drop : ((Bound.const u η c.shrink).mul u η (sgdMoveBound u η c w g)).Fits big
  out : (sgdBound u η c w g).Fits big

/-- After a step, the parameters of a layer are near those of a step with real numbers, wherever nothing can overflow. -/
structure LayerStepNear (L : FloatLib) (u η : ℝ) (c : SgdConsts) (N : ℕ) (d : FlDense) (l : DenseReal) (delta x : ℕ → ℕ → ℝ) (D f M e : ℝ)
    (g : FlGrad) : Prop where
  W : ∀ o < l.nO, ∀ k < l.nI,
    SgdFits u η L.big c ⟨|l.w o k|, 0⟩ ⟨|∑ n ∈ Finset.range N, delta n o * x n k|, weightError u η N D f M e⟩ →
    IsFinite L (L.sgdWeight c (d.W.at o k) (g.dW.at o k)) ∧
    NearFl (L.sgdWeight c (d.W.at o k) (g.dW.at o k)) (sgdReal c (l.w o k) (∑ n ∈ Finset.range N, delta n o * x n k))
      (sgdBound u η c ⟨|l.w o k|, 0⟩ ⟨|∑ n ∈ Finset.range N, delta n o * x n k|, weightError u η N D f M e⟩)
  b : ∀ o < l.nO, SgdFits u η L.big c ⟨|l.c o|, 0⟩ ⟨|∑ n ∈ Finset.range N, delta n o|, biasError u η N D f⟩ →
    IsFinite L (L.sgdWeight c (d.b o) (g.db o)) ∧
    NearFl (L.sgdWeight c (d.b o) (g.db o)) (sgdReal c (l.c o) (∑ n ∈ Finset.range N, delta n o))
      (sgdBound u η c ⟨|l.c o|, 0⟩ ⟨|∑ n ∈ Finset.range N, delta n o|, biasError u η N D f⟩)

/-- After a step, the parameters of all layers are near those of a step with real numbers. -/
def StepNear (L : FloatLib) (u η : ℝ) (c : SgdConsts) (N : ℕ) (dY : ℕ → ℕ → ℝ) (D f : ℝ) :
    List FlDense → FlDense → List DenseReal → DenseReal → (ℕ → ℕ → ℝ) → ℝ → ℝ → List FlGrad → FlGrad → Prop
  | [], d, [], last, x, M, e, [], g => LayerStepNear L u η c N d last dY x D f M e g
  | d₀ :: ds, d, l :: ls, last, x, M, e, g₀ :: gs, g =>
    LayerStepNear L u η c N d₀ l (fun i => firstDelta l ls last (x i) (dY i)) x (gradSize (ls ++ [last]) D) (gradError u η (ls ++ [last]) D f) M e g₀ ∧
    StepNear L u η c N dY D f ds d ls last (fun i j => max 0 (l.out (x i) j)) (l.outSize M) (l.outError u η M e) gs g
  | _, _, _, _, _, _, _, _, _ => False

/-- How far a run may have drifted from a run with real numbers after `n` steps, if every computed gradient is off by at most `δ`, gradients change by
at most `K` times the change of the weights, and weights and gradients of the real run are at most `M` and `G`. -/
noncomputable def driftError (u η : ℝ) (c : SgdConsts) (M G K δ e : ℝ) : ℕ → ℝ
  | 0 => e
  | n + 1 => (sgdBound u η c ⟨M, driftError u η c M G K δ e n⟩ ⟨G, δ + K * driftError u η c M G K δ e n⟩).err

/-- By how much a step multiplies an error in the weights. -/
noncomputable def driftFactor (u η : ℝ) (c : SgdConsts) (K : ℝ) : ℝ := (1 + u) * (1 + K * ((1 + u) * (|c.rate| + (u * |c.rate| + η))))

/-- How much a step adds to the error in the weights. -/
noncomputable def driftStep (u η : ℝ) (c : SgdConsts) (M G δ : ℝ) : ℝ :=
  let a := |c.rate| + (u * |c.rate| + η)
  let p := (1 + u) * a * δ + (u * |c.rate| + η) * G + u * a * G + η
  p + u * (M + |c.rate| * G + p) + η

end Thinc.Spec
