import Verif.Props.Descent
import Mathlib.Probability.Moments.SubGaussian
import Mathlib.Probability.ProbabilityMassFunction.Integrals
/-!
# C115, continued: training a softmax classifier
-/
namespace Thinc
open Spec Spec.Tensor

/-! ### The logarithm of a sum of exponentials -/

section
variable {m : ℕ}

/-- Hoeffding's lemma for a distribution on finitely many points. -/
theorem sum_exp_le {p v : Fin m → ℝ} (hp : ∀ k, 0 ≤ p k) (hsum : ∑ k, p k = 1) :
    ∑ k, p k * Real.exp (v k) ≤ Real.exp (∑ k, p k * v k + (∑ k, v k ^ 2) / 2) := by
  have hS : 0 ≤ ∑ k, v k ^ 2 := Finset.sum_nonneg fun _ _ => sq_nonneg _
  let pm : PMF (Fin m) := PMF.ofFintype (fun k => ENNReal.ofReal (p k)) (by
    rw [← ENNReal.ofReal_sum_of_nonneg fun k _ => hp k, hsum, ENNReal.ofReal_one])
  have hpm : ∀ k, (pm k).toReal = p k := fun k => by
    show (ENNReal.ofReal (p k)).toReal = p k
    exact ENNReal.toReal_ofReal (hp k)
  have hint : ∀ f : Fin m → ℝ, ∫ a, f a ∂pm.toMeasure = ∑ k, p k * f k := fun f => by
    rw [PMF.integral_eq_sum]
    exact Finset.sum_congr rfl fun k _ => by rw [hpm, smul_eq_mul]
  have hb : ∀ k, v k ∈ Set.Icc (-√(∑ k, v k ^ 2)) (√(∑ k, v k ^ 2)) := by
    intro k
    have h1 : v k ^ 2 ≤ ∑ k, v k ^ 2 := Finset.single_le_sum (f := fun k => v k ^ 2) (fun _ _ => sq_nonneg _) (Finset.mem_univ k)
    exact abs_le.1 (Real.abs_le_sqrt h1)
  have h := ProbabilityTheory.hasSubgaussianMGF_of_mem_Icc (μ := pm.toMeasure) (X := v) (Measurable.of_discrete).aemeasurable
    (Filter.Eventually.of_forall hb)
  have h1 := h.mgf_le 1
  rw [ProbabilityTheory.mgf, hint, hint] at h1
  have hc : (((‖√(∑ k, v k ^ 2) - -√(∑ k, v k ^ 2)‖₊ / 2) ^ 2 : NNReal) : ℝ) = ∑ k, v k ^ 2 := by
    push_cast
    rw [sub_neg_eq_add, ← two_mul, Real.norm_of_nonneg (by positivity), mul_div_cancel_left₀ _ two_ne_zero, Real.sq_sqrt hS]
  rw [hc, one_pow, mul_one] at h1
  rw [Real.exp_add]
  have e : ∑ k, p k * Real.exp (v k) = Real.exp (∑ k, p k * v k) * ∑ k, p k * Real.exp (1 * (v k - ∑ k, p k * v k)) := by
    rw [Finset.mul_sum]
    refine Finset.sum_congr rfl fun k _ => ?_
    rw [one_mul, Real.exp_sub]
    field_simp
  rw [e]
  exact mul_le_mul_of_nonneg_left h1 (Real.exp_pos _).le

theorem le_sum_exp {p v : Fin m → ℝ} (hp : ∀ k, 0 ≤ p k) (hsum : ∑ k, p k = 1) :
    Real.exp (∑ k, p k * v k) ≤ ∑ k, p k * Real.exp (v k) := by
  have e : ∑ k, p k * Real.exp (v k) = Real.exp (∑ k, p k * v k) * ∑ k, p k * Real.exp (v k - ∑ k, p k * v k) := by
    rw [Finset.mul_sum]
    refine Finset.sum_congr rfl fun k _ => ?_
    rw [Real.exp_sub]
    field_simp
  rw [e]
  refine le_mul_of_one_le_right (Real.exp_pos _).le ?_
  have h1 : ∑ k, p k * (v k - ∑ k, p k * v k + 1) = 1 := by
    simp only [mul_add, mul_sub, Finset.sum_add_distrib, Finset.sum_sub_distrib, ← Finset.sum_mul, hsum]
    ring
  refine h1.symm.le.trans ?_
  exact Finset.sum_le_sum fun k _ => mul_le_mul_of_nonneg_left (Real.add_one_le_exp _) (hp k)

/-- The cross entropy of a softmax is convex in the logits, with curvature at most 1. -/
theorem xent_bounds (hm : 0 < m) {t : Fin m → ℝ} (ht : ∑ k, t k = 1) (z v : Fin m → ℝ) :
    crossEntropy t (Spec.softmax z) + ∑ k, (Spec.softmax z k - t k) * v k ≤ crossEntropy t (Spec.softmax (z + v)) ∧
    crossEntropy t (Spec.softmax (z + v)) ≤
      crossEntropy t (Spec.softmax z) + ∑ k, (Spec.softmax z k - t k) * v k + (∑ k, v k ^ 2) / 2 := by
  haveI : Nonempty (Fin m) := ⟨⟨0, hm⟩⟩
  have hZ : ∀ z : Fin m → ℝ, 0 < ∑ j, Real.exp (z j) := fun z => Finset.sum_pos (fun j _ => Real.exp_pos _) Finset.univ_nonempty
  have hx : ∀ z : Fin m → ℝ, crossEntropy t (Spec.softmax z) = Real.log (∑ j, Real.exp (z j)) - ∑ k, t k * z k := by
    intro z
    unfold crossEntropy Spec.softmax
    have : ∀ k, t k * Real.log (Real.exp (z k) / ∑ j, Real.exp (z j)) = t k * z k - t k * Real.log (∑ j, Real.exp (z j)) := by
      intro k
      rw [Real.log_div (Real.exp_pos _).ne' (hZ z).ne', Real.log_exp]
      ring
    simp only [this, Finset.sum_sub_distrib, ← Finset.sum_mul, ht, one_mul]
    ring
  have hp : ∀ k, 0 ≤ Spec.softmax z k := fun k => (specSoftmax_pos z k).le
  have hs : ∑ k, Spec.softmax z k = 1 := specSoftmax_sum z
  have hlog : Real.log (∑ j, Real.exp ((z + v) j)) = Real.log (∑ j, Real.exp (z j)) + Real.log (∑ k, Spec.softmax z k * Real.exp (v k)) := by
    have e : ∑ k, Spec.softmax z k * Real.exp (v k) = (∑ j, Real.exp ((z + v) j)) / ∑ j, Real.exp (z j) := by
      rw [Finset.sum_div]
      refine Finset.sum_congr rfl fun k _ => ?_
      simp only [Spec.softmax, Pi.add_apply, Real.exp_add]
      ring
    rw [e, Real.log_div (hZ _).ne' (hZ _).ne']
    ring
  have hpos : 0 < ∑ k, Spec.softmax z k * Real.exp (v k) :=
    Finset.sum_pos (fun k _ => mul_pos (specSoftmax_pos z k) (Real.exp_pos _)) Finset.univ_nonempty
  have hlo : ∑ k, Spec.softmax z k * v k ≤ Real.log (∑ k, Spec.softmax z k * Real.exp (v k)) := by
    rw [Real.le_log_iff_exp_le hpos]
    exact le_sum_exp hp hs
  have hhi : Real.log (∑ k, Spec.softmax z k * Real.exp (v k)) ≤ ∑ k, Spec.softmax z k * v k + (∑ k, v k ^ 2) / 2 := by
    rw [Real.log_le_iff_le_exp hpos]
    exact sum_exp_le hp hs
  have e1 : ∑ k, (Spec.softmax z k - t k) * v k = ∑ k, Spec.softmax z k * v k - ∑ k, t k * v k := by
    simp only [sub_mul, Finset.sum_sub_distrib]
  have e2 : ∑ k, t k * (z + v) k = ∑ k, t k * z k + ∑ k, t k * v k := by
    simp only [Pi.add_apply, mul_add, Finset.sum_add_distrib]
  rw [hx, hx, hlog, e1, e2]
  constructor <;> linarith

end

/-! ### Losses of linear models -/

section
variable {N : ℕ} {sh : Fin N → ℕ × ℕ}

/-- A differentiable loss of outputs that depend linearly on the parameters. -/
theorem smooth_of_linear {n o : ℕ} {A : Params sh → Fin n → Fin o → ℝ} (hadd : ∀ θ v, A (θ + v) = A θ + A v)
    (hsmul : ∀ (a : ℝ) v, A (a • v) = a • A v) {C : ℝ} (hC : ∀ v, sumSq (A v) ≤ C * dot v v)
    {ℓ : (Fin n → Fin o → ℝ) → ℝ} {tangent : (Fin n → Fin o → ℝ) → Fin n → Fin o → ℝ} {M : ℝ} (hM : 0 ≤ M)
    (hlo : ∀ z v, ℓ z + ∑ i, ∑ k, tangent z i k * v i k ≤ ℓ (z + v))
    (hhi : ∀ z v, ℓ (z + v) ≤ ℓ z + ∑ i, ∑ k, tangent z i k * v i k + M / 2 * sumSq v)
    (hdiff : ∀ θ, ∃ back, IsVJP (fun θ => ℓ (A θ)) θ back) : SmoothConvex (fun θ => ℓ (A θ)) (M * C) := by
  have hgrad : ∀ θ v, dot (gradient (fun θ => ℓ (A θ)) θ) v = ∑ i, ∑ k, tangent (A θ) i k * A v i k := by
    intro θ v
    obtain ⟨back, hv⟩ := hdiff θ
    rw [← gradient_of_IsVJP hv]
    obtain ⟨f', hf, hbk⟩ := hv
    rw [hbk 1 v]
    show 1 * f' v = _
    rw [one_mul]
    have hline : HasDerivAt (fun a : ℝ => θ + a • v) v 0 := by
      have := ((hasDerivAt_id (0 : ℝ)).smul_const v).const_add θ
      rwa [one_smul] at this
    have hf0 : HasFDerivAt (fun θ => ℓ (A θ)) f' (θ + (0 : ℝ) • v) := by rw [zero_smul, add_zero]; exact hf
    have d1 := hf0.comp_hasDerivAt (0 : ℝ) hline
    generalize hl : ∑ i, ∑ k, tangent (A θ) i k * A v i k = l
    have d2 : HasDerivAt (fun a : ℝ => ℓ (A (θ + a • v)) - a * l) (f' v - l) 0 := by
      have := d1.sub ((hasDerivAt_id (0 : ℝ)).mul_const l)
      rw [one_mul] at this
      exact this
    have hmin : IsLocalMin (fun a : ℝ => ℓ (A (θ + a • v)) - a * l) 0 := by
      refine Filter.Eventually.of_forall fun a => ?_
      have h1 := hlo (A θ) (a • A v)
      have e1 : ∑ i, ∑ k, tangent (A θ) i k * (a • A v) i k = a * l := by
        rw [← hl]
        simp only [Finset.mul_sum]
        exact Finset.sum_congr rfl fun i _ => Finset.sum_congr rfl fun k _ => by simp only [Pi.smul_apply, smul_eq_mul]; ring
      rw [e1, ← hsmul, ← hadd] at h1
      simp only [zero_smul, add_zero, zero_mul, sub_zero]
      linarith
    have := hmin.hasDerivAt_eq_zero d2
    linarith
  constructor
  · intro θ v
    rw [hgrad]
    have := hlo (A θ) (A v)
    rw [← hadd] at this
    exact this
  · intro θ v
    rw [hgrad]
    have := hhi (A θ) (A v)
    rw [← hadd] at this
    refine this.trans ?_
    have h2 := mul_le_mul_of_nonneg_left (hC v) (show 0 ≤ M / 2 by positivity)
    have : M / 2 * (C * dot v v) = M * C / 2 * dot v v := by ring
    linarith

theorem batchXent_bounds (c : CCE) {n m : ℕ} (hm : 0 < m) (hn : 0 < n) (target : Fin n → Option (Fin m → ℝ))
    (ht : ∀ i t, target i = some t → ∑ k, t k = 1) (z v : Fin n → Fin m → ℝ) :
    batchXent c target z + ∑ i, ∑ k, (match target i with | none => 0 | some t => (Spec.softmax (z i) k - t k) / c.divisor n) * v i k ≤
      batchXent c target (z + v) ∧
    batchXent c target (z + v) ≤ batchXent c target z +
      ∑ i, ∑ k, (match target i with | none => 0 | some t => (Spec.softmax (z i) k - t k) / c.divisor n) * v i k +
      (1 / c.divisor n) / 2 * sumSq v := by
  have hD : 0 < c.divisor n := by
    unfold CCE.divisor
    split
    · exact Nat.cast_pos.2 hn
    · exact one_pos
  have hrow : ∀ i, (match target i with | none => 0 | some t => crossEntropy t (Spec.softmax (z i))) / c.divisor n +
        ∑ k, (match target i with | none => 0 | some t => (Spec.softmax (z i) k - t k) / c.divisor n) * v i k ≤
        (match target i with | none => 0 | some t => crossEntropy t (Spec.softmax ((z + v) i))) / c.divisor n ∧
      (match target i with | none => 0 | some t => crossEntropy t (Spec.softmax ((z + v) i))) / c.divisor n ≤
        (match target i with | none => 0 | some t => crossEntropy t (Spec.softmax (z i))) / c.divisor n +
        ∑ k, (match target i with | none => 0 | some t => (Spec.softmax (z i) k - t k) / c.divisor n) * v i k +
        (1 / c.divisor n) / 2 * ∑ k, v i k ^ 2 := by
    intro i
    have hq : 0 ≤ (1 / c.divisor n) / 2 * ∑ k, v i k ^ 2 :=
      mul_nonneg (by positivity) (Finset.sum_nonneg fun _ _ => sq_nonneg _)
    cases hti : target i with
    | none =>
      simp only [zero_div, zero_mul, Finset.sum_const_zero, add_zero, zero_add, le_refl, true_and]
      exact hq
    | some t =>
      obtain ⟨h1, h2⟩ := xent_bounds hm (ht i t hti) (z i) (v i)
      have e : ∑ k, (Spec.softmax (z i) k - t k) / c.divisor n * v i k = (∑ k, (Spec.softmax (z i) k - t k) * v i k) / c.divisor n := by
        rw [Finset.sum_div]
        exact Finset.sum_congr rfl fun k _ => by ring
      have e2 : (1 / c.divisor n) / 2 * ∑ k, v i k ^ 2 = ((∑ k, v i k ^ 2) / 2) / c.divisor n := by ring
      simp only [e, e2, ← add_div]
      exact ⟨div_le_div_of_nonneg_right h1 hD.le, div_le_div_of_nonneg_right h2 hD.le⟩
  unfold batchXent sumSq
  constructor
  · rw [← Finset.sum_add_distrib]
    exact Finset.sum_le_sum fun i _ => (hrow i).1
  · rw [Finset.mul_sum, ← Finset.sum_add_distrib, ← Finset.sum_add_distrib]
    exact Finset.sum_le_sum fun i _ => (hrow i).2

theorem softmax_smooth (c : CCE) {n nO nI : ℕ} (hn : 0 < n) (hO : 0 < nO) (x : Fin n → Fin nI → ℝ) {W b : Fin N} (hW : sh W = (nO, nI))
    (hb : sh b = (1, nO)) (hWb : W ≠ b) {T : ℝ} (hT : 0 < T) (target : Fin n → Option (Fin nO → ℝ))
    (ht : ∀ i t, target i = some t → ∑ k, t k = 1)
    (hdiff : ∀ θ, ∃ back, IsVJP (fun θ : Params sh => batchXent c target fun i k => affine x (θ.get W hW) (θ.vec b hb) i k / T) θ back) :
    SmoothConvex (fun θ : Params sh => batchXent c target fun i k => affine x (θ.get W hW) (θ.vec b hb) i k / T)
      (1 / c.divisor n * ((sumSq x + n) / T ^ 2)) := by
  have hD : 0 < c.divisor n := by
    unfold CCE.divisor
    split
    · exact Nat.cast_pos.2 hn
    · exact one_pos
  refine smooth_of_linear (A := fun (θ : Params sh) i k => affine x (θ.get W hW) (θ.vec b hb) i k / T) ?_ ?_ ?_ (ℓ := batchXent c target)
    (by positivity) (fun z v => (batchXent_bounds c hO hn target ht z v).1) (fun z v => (batchXent_bounds c hO hn target ht z v).2) hdiff
  · intro θ v
    funext i k
    simp only [affine_add, add_div, Pi.add_apply]
  · intro a v
    funext i k
    simp only [affine_smul, Pi.smul_apply, smul_eq_mul]
    ring
  · intro v
    have h := affine_sq_le x hW hb hWb v
    have e : sumSq (fun i k => affine x (v.get W hW) (v.vec b hb) i k / T) = sumSq (affine x (v.get W hW) (v.vec b hb)) / T ^ 2 := by
      simp only [sumSq, div_pow, Finset.sum_div]
    rw [e, div_mul_eq_mul_div]
    exact div_le_div_of_nonneg_right h (by positivity)
end

section
variable {N : ℕ} {sh : Fin N → ℕ × ℕ} {A : Type} {root : Addr} {slot : Slots} {key : Fin N → Nat × String}

theorem descent_loop {L : Layer} {v : Val} {lossGrad : Val → Except PyErr Val} {F : Params sh → ℝ} (htakes : ∀ θ, Takes L θ ⟨v, lossGrad, F⟩)
    {M : ℝ} (hF : SmoothConvex F M) {cfg : OptCfg (Nat × String)} (hra : cfg.useRadam = false) (hb2 : ∀ t k s, cfg.b2 t k s = 0)
    (hL2 : ∀ t k s, cfg.L2 t k s = 0) (hclip : ∀ t k s, cfg.gradClip t k s = 0) {lr : ℝ} (hlr : ∀ t k s, cfg.learnRate t k s = lr)
    (hpos : 0 < lr) (hsmall : lr * M ≤ 1) (s : TrainState A) {θ : Params sh} (H : Wired s.nodes root slot key θ 0) (K : ℕ) :
    ∃ s' θ', trainLoop L N slot cfg root s (List.replicate K [(v, lossGrad)]) = .ok s' ∧ Wired s'.nodes root slot key θ' 0 ∧ F θ' ≤ F θ ∧
      ∀ best : Params sh, K * (F θ' - F best) ≤ (∑ p, ∑ i, ∑ j, (θ p i j - best p i j) ^ 2) / (2 * lr) := by
  have hta : ∀ (K k : ℕ) (θ : Params sh), TakesAll L (fun t p => cfg.learnRate t (key p) s.opt.lastScore)
      (fun t p => cfg.gradClip t (key p) s.opt.lastScore) k θ (List.replicate K [⟨v, lossGrad, F⟩]) := by
    intro K
    induction K with
    | zero => intro k θ; trivial
    | succ K ih =>
      intro k θ
      refine ⟨?_, ih _ _⟩
      intro b' hb'
      rw [List.mem_singleton.1 hb']
      exact htakes θ
  obtain ⟨s', e, -, H'⟩ := C77_sgd hra hb2 hL2 s _ H (hta K _ θ)
  simp only [hlr, hclip, List.map_replicate, List.map_cons, List.map_nil] at e H'
  refine ⟨s', _, e, H', (hF.descent hpos hsmall K _ θ θ).1, fun best => ?_⟩
  have h1 := (hF.descent hpos hsmall K s.opt.step θ best).2
  refine h1.trans ?_
  have h2 : dot (θ - best) (θ - best) = ∑ p, ∑ i, ∑ j, (θ p i j - best p i j) ^ 2 := by
    show ∑ p, ∑ i, ∑ j, (θ p i j - best p i j) * (θ p i j - best p i j) = _
    simp only [sq]
  rw [h2]
  refine sub_le_self _ (div_nonneg (dot_self_nonneg _) (by positivity))

/-- Training a Softmax layer with SGD on labels.  Let the layer be trained on the rows `x` with integer labels and
`CategoricalCrossentropy`, with a constant learning rate `lr`, positive and at most `D T² / (Σ x² + n)`, where `T` is the temperature and
`D` is the number `n` of rows if the loss is normalised and 1 if it is not.  Then for any number `K` of iterations the training does
not raise, the cross entropy afterwards is not larger than before, and it is at most `|θ - best|² / (2 lr K)` above that of any parameters
`best`.  (`target i` is the smoothed one-hot row of label number `i`, or nothing if the label counts as missing.) -/
theorem C115_softmax_labels {n nO nI : ℕ} (hn : 0 < n) (hO : 0 < nO) {X : Mat ℝ} {x : Fin n → Fin nI → ℝ} (hX : IsMat X x) {W b : Fin N}
    (hW : sh W = (nO, nI)) (hb : sh b = (1, nO)) (hWb : W ≠ b) {normalizeOutputs : Bool} {T : ℝ} (hT : 0 < T)
    (c : CCE) (hs : validSmoothing nO c.smoothing) (hnames : c.namesFit nO) (ts : List Int) (hlen : ts.length = n)
    (hts : ∀ y ∈ ts, (0 ≤ y ∧ y < nO) ∨ (c.missing = .int y ∧ -(nO : Int) ≤ y ∧ y < nO))
    (truths : Truths) (htr : truths = .intList ts ∨ truths = .intArray ts)
    (target : Fin n → Option (Fin nO → ℝ))
    (hmiss : ∀ i : Fin n, c.missing = .int (ts.get (i.cast hlen.symm)) → target i = none)
    (htgt : ∀ i : Fin n, c.missing ≠ .int (ts.get (i.cast hlen.symm)) →
      target i = some (fun k : Fin nO => smoothed nO c.smoothing (ts.get (i.cast hlen.symm)).toNat k))
    {cfg : OptCfg (Nat × String)} (hra : cfg.useRadam = false) (hb2 : ∀ t k s, cfg.b2 t k s = 0) (hL2 : ∀ t k s, cfg.L2 t k s = 0)
    (hclip : ∀ t k s, cfg.gradClip t k s = 0) {lr : ℝ} (hlr : ∀ t k s, cfg.learnRate t k s = lr) (hpos : 0 < lr)
    (hsmall : lr * (∑ i, ∑ j, x i j ^ 2 + n) ≤ c.divisor n * T ^ 2)
    (s : TrainState A) {θ : Params sh} (H : Wired s.nodes root slot key θ 0) (K : ℕ) :
    ∃ s' θ', trainLoop (softmaxLayer W b normalizeOutputs T) N slot cfg root s (List.replicate K [(.arr X, cceGrad c truths)]) = .ok s' ∧
      Wired s'.nodes root slot key θ' 0 ∧
      (batchXent c target fun i k => affine x (θ'.get W hW) (θ'.vec b hb) i k / T) ≤
        (batchXent c target fun i k => affine x (θ.get W hW) (θ.vec b hb) i k / T) ∧
      ∀ best : Params sh, K * ((batchXent c target fun i k => affine x (θ'.get W hW) (θ'.vec b hb) i k / T) -
        (batchXent c target fun i k => affine x (best.get W hW) (best.vec b hb) i k / T)) ≤
          (∑ p, ∑ i, ∑ j, (θ p i j - best p i j) ^ 2) / (2 * lr) := by
  have hD : 0 < c.divisor n := by
    unfold CCE.divisor
    split
    · exact Nat.cast_pos.2 hn
    · exact one_pos
  have htk : ∀ θ : Params sh, Takes (softmaxLayer W b normalizeOutputs T) θ
      ⟨.arr X, cceGrad c truths, fun θ => batchXent c target fun i k => affine x (θ.get W hW) (θ.vec b hb) i k / T⟩ := fun θ =>
    C77_trains (C73_labels W b hW hb hO hT (by simp) θ x c hs hnames ts hlen hts truths htr target hmiss htgt) ⟨X, rfl, hX⟩
  have hdiff : ∀ θ : Params sh, ∃ back, IsVJP (fun θ : Params sh => batchXent c target fun i k => affine x (θ.get W hW) (θ.vec b hb) i k / T) θ back := by
    intro θ
    obtain ⟨P, hP⟩ := exists_isParams θ
    obtain ⟨_, _, _, back, _, _, h, _⟩ := htk θ P hP
    exact ⟨back, h⟩
  have hsum := (cce_labels c (fun i k => affine x (θ.get W hW) (θ.vec b hb) i k / T) hs hnames ts hlen hts truths htr target hmiss htgt).1
  have hF := softmax_smooth c hn hO x hW hb hWb hT target hsum hdiff
  refine descent_loop htk hF hra hb2 hL2 hclip hlr hpos ?_ s H K
  have e : lr * (1 / c.divisor n * ((sumSq x + n) / T ^ 2)) = lr * (sumSq x + n) / (c.divisor n * T ^ 2) := by
    field_simp
  rw [e, div_le_one (by positivity)]
  exact hsmall

end

/-! ### An example: logistic regression with two classes -/

/-- A Softmax layer with one input and two classes, all parameters zero. -/
noncomputable def exSoftmaxHeap : Heap (Mat ℝ) Unit :=
  [{ name := "softmax", id := 7, layers := [], hasParams := [("W", some ()), ("b", some ())],
     params := [((7, "W"), Mat.zeros 2 1), ((7, "b"), Mat.zeros 1 2)] }]

def exSoftmaxShape : Fin 2 → ℕ × ℕ := fun p => if p = 0 then (2, 1) else (1, 2)

theorem exSoftmax_wired : Wired (sh := exSoftmaxShape) exSoftmaxHeap 0 exLinearSlots exLinearKey 0 0 := by
  have hr : ∀ a, Reachable exSoftmaxHeap 0 a → a = 0 := by
    intro a ha
    induction ha with
    | refl => rfl
    | tail _ hc ih =>
      subst ih
      obtain ⟨n, e, hn⟩ := hc
      simp [exSoftmaxHeap] at e
      subst e
      simp at hn
  refine ⟨by decide, ?_, ?_, ?_⟩
  · intro a ha
    rw [hr a ha]
    exact ⟨_, rfl, by simp [Node.paramNames, PyDict.keys], fun k _ hk => by simp [Node.hasGrad, PyDict.contains, PyDict.get?] at hk⟩
  · intro p
    refine ⟨Relation.ReflTransGen.refl, ?_⟩
    fin_cases p
    · exact ⟨_, Mat.zeros 2 1, rfl, rfl, by simp [Node.paramNames, PyDict.keys, exLinearSlots],
        by simp [Node.getParam, PyDict.contains, PyDict.get?, exLinearSlots], rfl, rfl, fun _ _ => rfl⟩
    · exact ⟨_, Mat.zeros 1 2, rfl, rfl, by simp [Node.paramNames, PyDict.keys, exLinearSlots],
        by simp [Node.getParam, PyDict.contains, PyDict.get?, exLinearSlots], rfl, rfl, fun _ _ => rfl⟩
  · intro p n e
    have e' : exSoftmaxHeap[0]? = some n := e
    simp [exSoftmaxHeap] at e'
    subst e'
    exact Or.inl ⟨rfl, rfl⟩

/-- Non-vacuity of `C115_softmax_labels`: the rows 1 and -1 with the labels 0 and 1, and the learning rate 1/4. -/
example (K : ℕ) := C115_softmax_labels (n := 2) (nO := 2) (nI := 1) (by decide) (by decide)
  (X := Mat.ofFn 2 1 fun i _ => if i = 0 then 1 else -1) (x := fun i _ => if (i : ℕ) = 0 then 1 else -1) (isMat_ofFn' _ _ fun _ _ => rfl)
  (sh := exSoftmaxShape) (W := 0) (b := 1) rfl rfl (by decide) (normalizeOutputs := true) (T := 1) one_pos
  ⟨false, none, .none, none, 0⟩ (Or.inl ⟨rfl, by decide⟩) (fun _ h => by simp at h) [0, 1] rfl (fun y hy => Or.inl (by fin_cases hy <;> simp)) (.intList [0, 1]) (Or.inl rfl)
  (fun i => some fun k => smoothed 2 0 (([0, 1] : List Int).get i).toNat k) (fun _ h => by simp at h) (fun _ _ => rfl)
  (cfg := exQuarter) rfl (fun _ _ _ => rfl) (fun _ _ _ => rfl) (fun _ _ _ => rfl) (lr := 1 / 4) (fun _ _ _ => rfl) (by norm_num)
  (by
    simp [Fin.sum_univ_two, CCE.divisor]
    norm_num)
  ⟨exSoftmaxHeap, OptState.init true⟩ exSoftmax_wired K

end Thinc
