import Verif.Spec.FloatSgd
import Verif.Props.FloatTrain
/-!
# C139: stochastic gradient descent in floating point
-/
namespace Thinc
open BigOperators Spec
variable {L : FloatLib} {count : ℕ} {u η v : ℝ}

/-! ### Single operations -/

theorem near_round (ok : IsFloatLib L count) (ac : Accurate L u η v) {t x : ℝ} {s ε : ℝ} (hx : |x| ≤ s) (ht : |t| ≤ L.big)
    (h : |t - x| + (u * |t| + η) ≤ ε) : IsFinite L (L.round t) ∧ NearFl (L.round t) x ⟨s, ε⟩ := by
  refine ⟨⟨_, round_fin ok ht, ok.idem t, ok.abs_le ok.rndBig ht⟩, hx, _, round_fin ok ht, ?_⟩
  have h1 := ac.near t
  have h2 := abs_sub_le (L.rnd t) t x
  show |L.rnd t - x| ≤ ε
  linarith

theorem nearFl_size {a : Fl} {x : ℝ} {p : Bound} (h : NearFl a x p) : ∃ r, a = .fin r ∧ |r - x| ≤ p.err ∧ |r| ≤ p.size + p.err ∧ 0 ≤ p.err ∧ 0 ≤ p.size := by
  obtain ⟨h1, r, h2, h3⟩ := h
  refine ⟨r, h2, h3, ?_, (abs_nonneg _).trans h3, (abs_nonneg _).trans h1⟩
  have := abs_sub_abs_le_abs_sub r x
  linarith

theorem near_const (ok : IsFloatLib L count) (ac : Accurate L u η v) {c : ℝ} (h : (Bound.const u η c).Fits L.big) :
    NearFl (L.round c) c (Bound.const u η c) := by
  have hu := ac.uNonneg
  have hη := ac.etaNonneg
  have hc := mul_nonneg hu (abs_nonneg c)
  refine (near_round ok ac (le_refl _) ?_ ?_).2
  · exact le_trans (by show |c| ≤ |c| + (u * |c| + η); linarith) h
  · rw [sub_self, abs_zero, zero_add]

theorem near_mul (ok : IsFloatLib L count) (ac : Accurate L u η v) {a b : Fl} {x y : ℝ} {p q : Bound} (ha : NearFl a x p) (hb : NearFl b y q)
    (h : (p.mul u η q).Fits L.big) : IsFinite L (L.mul a b) ∧ NearFl (L.mul a b) (x * y) (p.mul u η q) := by
  obtain ⟨r, rfl, r1, r2, r3, r4⟩ := nearFl_size ha
  obtain ⟨s, rfl, s1, s2, s3, s4⟩ := nearFl_size hb
  have hu := ac.uNonneg
  have hη := ac.etaNonneg
  have h1 : |r * s| ≤ (p.size + p.err) * (q.size + q.err) := by
    rw [abs_mul]
    exact mul_le_mul r2 s2 (abs_nonneg _) (by linarith)
  have h2 : |r * s - x * y| ≤ p.size * q.err + p.err * q.size + p.err * q.err := by
    have e : r * s - x * y = x * (s - y) + (r - x) * y + (r - x) * (s - y) := by ring
    rw [e]
    refine (abs_add_three _ _ _).trans ?_
    rw [abs_mul, abs_mul, abs_mul]
    exact add_le_add (add_le_add (mul_le_mul ha.1 s1 (abs_nonneg _) r4) (mul_le_mul r1 hb.1 (abs_nonneg _) r3)) (mul_le_mul r1 s1 (abs_nonneg _) r3)
  have h3 : u * |r * s| ≤ u * ((p.size + p.err) * (q.size + q.err)) := mul_le_mul_of_nonneg_left h1 hu
  have h4 : 0 ≤ u * |r * s| := mul_nonneg hu (abs_nonneg _)
  refine near_round ok ac ?_ ?_ ?_
  · show |x * y| ≤ p.size * q.size
    rw [abs_mul]
    exact mul_le_mul ha.1 hb.1 (abs_nonneg _) r4
  · refine h1.trans (le_trans ?_ h)
    show _ ≤ p.size * q.size + (p.size * q.err + p.err * q.size + p.err * q.err + (u * ((p.size + p.err) * (q.size + q.err)) + η))
    have : (p.size + p.err) * (q.size + q.err) = p.size * q.size + (p.size * q.err + p.err * q.size + p.err * q.err) := by ring
    linarith
  · show _ ≤ p.size * q.err + p.err * q.size + p.err * q.err + (u * ((p.size + p.err) * (q.size + q.err)) + η)
    linarith

theorem near_add (ok : IsFloatLib L count) (ac : Accurate L u η v) {a b : Fl} {x y : ℝ} {p q : Bound} (ha : NearFl a x p) (hb : NearFl b y q)
    (h : (p.add u η q).Fits L.big) : IsFinite L (L.add a b) ∧ NearFl (L.add a b) (x + y) (p.add u η q) := by
  obtain ⟨r, rfl, r1, r2, r3, r4⟩ := nearFl_size ha
  obtain ⟨s, rfl, s1, s2, s3, s4⟩ := nearFl_size hb
  have hu := ac.uNonneg
  have hη := ac.etaNonneg
  have h1 : |r + s| ≤ p.size + p.err + (q.size + q.err) := (abs_add_le _ _).trans (add_le_add r2 s2)
  have h2 : |r + s - (x + y)| ≤ p.err + q.err := by
    have e : r + s - (x + y) = (r - x) + (s - y) := by ring
    rw [e]
    exact (abs_add_le _ _).trans (add_le_add r1 s1)
  have h3 : u * |r + s| ≤ u * (p.size + p.err + (q.size + q.err)) := mul_le_mul_of_nonneg_left h1 hu
  have h4 : 0 ≤ u * |r + s| := mul_nonneg hu (abs_nonneg _)
  refine near_round ok ac ((abs_add_le _ _).trans (add_le_add ha.1 hb.1)) ?_ ?_
  · refine h1.trans (le_trans ?_ h)
    show _ ≤ p.size + q.size + (p.err + q.err + (u * (p.size + p.err + (q.size + q.err)) + η))
    linarith
  · show _ ≤ p.err + q.err + (u * (p.size + p.err + (q.size + q.err)) + η)
    linarith

theorem near_neg {a : Fl} {x : ℝ} {p : Bound} (h : NearFl a x p) : NearFl (FloatLib.neg a) (-x) p := by
  obtain ⟨h1, r, rfl, h2⟩ := h
  refine ⟨by rwa [abs_neg], -r, rfl, ?_⟩
  rw [show -r - -x = -(r - x) by ring, abs_neg]
  exact h2

theorem near_sub (ok : IsFloatLib L count) (ac : Accurate L u η v) {a b : Fl} {x y : ℝ} {p q : Bound} (ha : NearFl a x p) (hb : NearFl b y q)
    (h : (p.add u η q).Fits L.big) : IsFinite L (L.sub a b) ∧ NearFl (L.sub a b) (x - y) (p.add u η q) := by
  rw [sub_eq_add_neg]
  exact near_add ok ac ha (near_neg hb) h

/-! ### One step -/

/-- A step of gradient descent in floating point is near the step with real numbers, with L2 regularization, with weight decay and without; the weight is
again a finite number of the format, and the gradient is zero afterwards. -/
theorem C139_step (ok : IsFloatLib L count) (ac : Accurate L u η v) (c : SgdConsts) {a b : Fl} {w g : ℝ} {p q : Bound} (ha : NearFl a w p)
    (hb : NearFl b g q) (h : SgdFits u η L.big c p q) :
    IsFinite L (L.sgdWeight c a b) ∧ NearFl (L.sgdWeight c a b) (sgdReal c w g) (sgdBound u η c p q) ∧ L.sgdLeft c a b = .fin 0 := by
  have hg : NearFl (L.sgdGradient c a b) (if c.l2 = 0 ∨ c.isDecay = true then g else g + c.l2 * w) (sgdGradBound u η c p q) := by
    have h1 := h.grad
    unfold FloatLib.sgdGradient sgdGradBound at *
    by_cases hc : c.l2 = 0 ∨ c.isDecay = true
    · rw [if_pos hc, if_pos hc, if_neg (by rcases hc with hc | hc <;> simp [hc])]
      exact hb
    · rw [if_neg hc] at h1
      rw [if_neg hc, if_neg hc, if_pos (by simpa using hc)]
      exact (near_add ok ac hb (near_mul ok ac (near_const ok ac h.l2) ha h.pull).2 h1).2
  have hm := near_sub ok ac ha (near_mul ok ac (near_const ok ac h.rate) hg h.change).2 h.move
  have hz : L.sgdLeft c a b = .fin 0 := by
    obtain ⟨-, r, h1, -⟩ := hg
    unfold FloatLib.sgdLeft
    rw [h1]
    show L.round (r * 0) = _
    rw [mul_zero, round_fin ok (by rw [abs_zero]; linarith [ok.bigBound]), ok.zero]
  suffices hs : IsFinite L (L.sgdWeight c a b) ∧ NearFl (L.sgdWeight c a b) (sgdReal c w g) (sgdBound u η c p q) from ⟨hs.1, hs.2, hz⟩
  have ho := h.out
  unfold FloatLib.sgdWeight sgdReal sgdBound at *
  by_cases h0 : c.l2 = 0
  · rw [if_pos h0, if_neg (by simp [h0]), if_neg (by simp [h0])]
    rw [if_pos (Or.inl h0)] at hm
    exact hm
  · by_cases hd : c.isDecay = true
    · rw [if_pos ⟨h0, hd⟩] at ho
      rw [if_neg h0, if_pos hd, if_pos ⟨h0, hd⟩, if_pos ⟨h0, hd⟩]
      rw [if_pos (Or.inr hd)] at hm
      exact near_sub ok ac hm.2 (near_mul ok ac (near_const ok ac h.shrink) hm.2 h.drop).2 ho
    · rw [if_neg h0, if_neg hd, if_neg (by simp [hd]), if_neg (by simp [hd])]
      rw [if_neg (by simp [h0, hd])] at hm
      exact hm

/-! ### A training step of a classifier -/

theorem stepNear_of_grads (ok : IsFloatLib L count) (ac : Accurate L u η v) (c : SgdConsts) {N : ℕ} {dY : ℕ → ℕ → ℝ} {D f : ℝ} {d : FlDense}
    {last : DenseReal} (hd : IsFlDense L d last) {g : FlGrad} : ∀ {ds : List FlDense} {ls : List DenseReal}, List.Forall₂ (IsFlDense L) ds ls →
    ∀ {x : ℕ → ℕ → ℝ} {M e : ℝ} {gs : List FlGrad}, GradsNear u η N dY D f ls last x M e gs g → StepNear L u η c N dY D f ds d ls last x M e gs g := by
  have layer : ∀ {d : FlDense} {l : DenseReal} {delta x : ℕ → ℕ → ℝ} {D f M e : ℝ} {g : FlGrad}, IsFlDense L d l →
      LayerGradNear u η N l delta x D f M e g → LayerStepNear L u η c N d l delta x D f M e g := by
    intro d l delta x D f M e g hd hg
    refine ⟨fun o ho k hk hfits => ?_, fun o ho hfits => ?_⟩
    · obtain ⟨r, r1, r2⟩ := hg.dW o ho k hk
      have hw := (hd.W o (hd.rows.symm ▸ ho) k (hd.cols.symm ▸ hk)).1
      obtain ⟨h1, h2, -⟩ := C139_step ok ac c (p := ⟨|l.w o k|, 0⟩) ⟨le_refl _, _, hw, by simp⟩
        (q := ⟨|∑ n ∈ Finset.range N, delta n o * x n k|, weightError u η N D f M e⟩) ⟨le_refl _, r, r1, r2⟩ hfits
      exact ⟨h1, h2⟩
    · obtain ⟨r, r1, r2⟩ := hg.db o ho
      obtain ⟨h1, h2, -⟩ := C139_step ok ac c (p := ⟨|l.c o|, 0⟩) ⟨le_refl _, _, (hd.b o ho).1, by simp⟩
        (q := ⟨|∑ n ∈ Finset.range N, delta n o|, biasError u η N D f⟩) ⟨le_refl _, r, r1, r2⟩ hfits
      exact ⟨h1, h2⟩
  intro ds ls hs
  induction hs with
  | nil =>
    intro x M e gs h
    cases gs with
    | nil => exact layer hd h
    | cons => exact h.elim
  | cons h0 _ ih =>
    intro x M e gs h
    cases gs with
    | nil => exact h.elim
    | cons g₀ gs => exact ⟨layer h0 h.1, ih h.2⟩

/-- A training step of a classifier with gradient descent in floating point: `begin_update`, `get_grad`, the callback and `finish_update` lead to
parameters near those after a step with real numbers along the derivatives of the cross-entropy (`C138_derivative`). -/
theorem C139_train (ok : IsFloatLib L count) (ac : Accurate L u η v) (c : SgdConsts) {cpu normalize : Bool} {label : ℕ → ℕ} {missing : ℕ → Bool}
    {ds : List FlDense} {ls : List DenseReal} (hs : List.Forall₂ (IsFlDense L) ds ls) {d : FlDense} {last : DenseReal} (hd : IsFlDense L d last)
    (hO : 0 < last.nO) (hcount : last.nO ≤ count) {X P dX : Mat Fl} (hN : X.rows ≤ count) {gs : List FlGrad} {g : FlGrad}
    (h : L.TrainGrad cpu normalize label missing ds d X P dX gs g) {x : ℕ → ℕ → ℝ} {M e : ℝ} (hM : 0 ≤ M) (he : 0 ≤ e) (hX : NearMat L X x M e) {ε f : ℝ}
    (hε : ε = softmaxNetError u η v (netError u η (ls ++ [last]) M e) last.nO) (hf : f = scoreGradError u η normalize X.rows ε) (hf0 : 0 ≤ f)
    (hb : NoOverflow u η L.big (ls ++ [last]) M e)
    (hg : GradFits u η L.big X.rows (fullShare normalize X.rows) f (ls ++ [last]) M e) (hc : ClearUnits u η X.rows ls x M e) :
    StepNear L u η c X.rows (scoreGrad normalize X.rows label missing ls last x) (fullShare normalize X.rows) f ds d ls last x M e gs g :=
  stepNear_of_grads ok ac c hd hs (C138_step ok ac hs hd hO hcount hN h hM he hX hε hf hf0 hb hg hc).2.2.2.2

/-! ### Any number of steps -/

/-- A run in floating point stays near the run with real numbers, for any number of steps: the real run moves along the gradients `grad n` of its
own weights, the floating-point run along numbers that are off by at most `δ` from the gradients of its own weights. -/
theorem C139_drift (ok : IsFloatLib L count) (ac : Accurate L u η v) (c : SgdConsts) {d : ℕ} (grad : ℕ → (ℕ → ℝ) → ℕ → ℝ) {K δ M G e : ℝ}
    (hK : ∀ n x y s, (∀ j < d, |x j - y j| ≤ s) → ∀ i < d, |grad n x i - grad n y i| ≤ K * s)
    (x : ℕ → ℕ → ℝ) (hx : ∀ n, ∀ i < d, x (n + 1) i = sgdReal c (x n i) (grad n (x n) i))
    (hM : ∀ n, ∀ i < d, |x n i| ≤ M) (hG : ∀ n, ∀ i < d, |grad n (x n) i| ≤ G)
    (W B : ℕ → ℕ → Fl) (hW : ∀ n, ∀ i < d, W (n + 1) i = L.sgdWeight c (W n i) (B n i))
    (hB : ∀ n (y : ℕ → ℝ), (∀ i < d, W n i = .fin (y i)) → ∀ i < d, ∃ r, B n i = .fin r ∧ |r - grad n y i| ≤ δ)
    (h0 : ∀ i < d, ∃ r, W 0 i = .fin r ∧ |r - x 0 i| ≤ e) (n : ℕ)
    (hfits : ∀ k < n, SgdFits u η L.big c ⟨M, driftError u η c M G K δ e k⟩ ⟨G, δ + K * driftError u η c M G K δ e k⟩) :
    ∀ i < d, ∃ r, W n i = .fin r ∧ |r - x n i| ≤ driftError u η c M G K δ e n := by
  induction n with
  | zero => exact h0
  | succ n ih =>
    have ih := ih fun k hk => hfits k (by omega)
    have hy : ∃ y : ℕ → ℝ, ∀ i < d, W n i = .fin (y i) ∧ |y i - x n i| ≤ driftError u η c M G K δ e n := by
      choose! y hy using ih
      exact ⟨y, hy⟩
    obtain ⟨y, hy⟩ := hy
    intro i hi
    obtain ⟨r, r1, r2⟩ := hB n y (fun i hi => (hy i hi).1) i hi
    have hk := hK n y (x n) _ (fun j hj => (hy j hj).2) i hi
    obtain ⟨-, ⟨-, s, s1, s2⟩, -⟩ := C139_step ok ac c (p := ⟨M, driftError u η c M G K δ e n⟩) ⟨hM n i hi, y i, (hy i hi).1, (hy i hi).2⟩
      (q := ⟨G, δ + K * driftError u η c M G K δ e n⟩) ⟨hG n i hi, r, r1, (abs_sub_le r (grad n y i) _).trans (add_le_add r2 hk)⟩ (hfits n (by omega))
    refine ⟨s, by rw [hW n i hi]; exact s1, ?_⟩
    rw [hx n i hi]
    exact s2

/-- Without L2, the drift grows like a geometric series: the factor is little more than 1 plus the learning rate times `K`. -/
theorem C139_drift_bound (c : SgdConsts) (hl2 : c.l2 = 0) (M G K δ e : ℝ) (n : ℕ) :
    driftError u η c M G K δ e n =
      driftFactor u η c K ^ n * e + driftStep u η c M G δ * ∑ i ∈ Finset.range n, driftFactor u η c K ^ i := by
  induction n with
  | zero => simp [driftError]
  | succ n ih =>
    have h : ∀ t : ℝ, (sgdBound u η c ⟨M, t⟩ ⟨G, δ + K * t⟩).err = driftFactor u η c K * t + driftStep u η c M G δ := by
      intro t
      unfold sgdBound sgdMoveBound sgdGradBound
      rw [if_neg (by simp [hl2]), if_pos (Or.inl hl2)]
      simp only [Bound.add, Bound.mul, Bound.const, driftFactor, driftStep]
      ring
    show (sgdBound u η c ⟨M, driftError u η c M G K δ e n⟩ ⟨G, δ + K * driftError u η c M G K δ e n⟩).err = _
    rw [h, ih, Finset.sum_range_succ', pow_zero]
    have : ∑ i ∈ Finset.range n, driftFactor u η c K ^ (i + 1) = driftFactor u η c K * ∑ i ∈ Finset.range n, driftFactor u η c K ^ i := by
      rw [Finset.mul_sum]
      exact Finset.sum_congr rfl fun i _ => by ring
    rw [this]
    ring

/-! ### Weight decay -/

/-- With weight decay the weights stay within a fixed bound and finite, for every number of steps, as long as the gradients stay within a bound. -/
theorem C139_decay (ok : IsFloatLib L count) (ac : Accurate L u η v) (c : SgdConsts) (hl2 : c.l2 ≠ 0) (hdec : c.isDecay = true) (h1 : c.shrink ≤ 1)
    {G R V : ℝ} (hrate : (Bound.const u η c.rate).Fits L.big) (hshrink : (Bound.const u η c.shrink).Fits L.big)
    (hchange : ((Bound.const u η c.rate).mul u η ⟨G, 0⟩).Fits L.big)
    (hV : V = (sgdMoveBound u η c ⟨R, 0⟩ ⟨G, 0⟩).size + (sgdMoveBound u η c ⟨R, 0⟩ ⟨G, 0⟩).err) (hVbig : V ≤ L.big)
    (hdrop : ((Bound.const u η c.shrink).mul u η ⟨V, 0⟩).Fits L.big)
    (hout : (Bound.add u η ⟨V, 0⟩ ((Bound.const u η c.shrink).mul u η ⟨V, 0⟩)).Fits L.big)
    (hinv : (1 - c.shrink) * V + (Bound.add u η ⟨V, 0⟩ ((Bound.const u η c.shrink).mul u η ⟨V, 0⟩)).err ≤ R)
    (gs : List Fl) (hgs : ∀ b ∈ gs, ∃ r, b = .fin r ∧ |r| ≤ G) : ∀ {w : ℝ}, |w| ≤ R →
    ∃ r, L.sgdRun c (.fin w) gs = .fin r ∧ |r| ≤ R := by
  have hgb : sgdGradBound u η c ⟨R, 0⟩ ⟨G, 0⟩ = ⟨G, 0⟩ := if_pos (Or.inr hdec)
  induction gs with
  | nil =>
    intro w hw
    exact ⟨_, rfl, hw⟩
  | cons b gs ih =>
    intro w hw
    obtain ⟨s, rfl, hs⟩ := hgs b (by simp)
    have hgrad : L.sgdGradient c (.fin w) (.fin s) = .fin s := if_neg (by simp [hdec])
    have hm := (near_sub ok ac (p := ⟨R, 0⟩) (x := w) (a := .fin w) ⟨hw, w, rfl, by simp⟩
      (near_mul ok ac (near_const ok ac hrate) (q := ⟨G, 0⟩) (y := s) (b := .fin s) ⟨hs, s, rfl, by simp⟩ hchange).2 (by
        have : V ≤ L.big := hVbig
        rw [hV] at this
        unfold sgdMoveBound at this
        rw [hgb] at this
        exact this)).2
    obtain ⟨t, t1, -, t2, -⟩ := nearFl_size hm
    have t3 : |t| ≤ V := by
      rw [hV]
      unfold sgdMoveBound
      rw [hgb]
      exact t2
    obtain ⟨-, -, z, z1, z2⟩ := near_sub ok ac (p := ⟨V, 0⟩) (x := t) (a := .fin t) ⟨t3, t, rfl, by simp⟩
      (near_mul ok ac (near_const ok ac hshrink) (q := ⟨V, 0⟩) (y := t) (b := .fin t) ⟨t3, t, rfl, by simp⟩ hdrop).2 hout
    have hstep : L.sgdWeight c (.fin w) (.fin s) = .fin z := by
      unfold FloatLib.sgdWeight
      rw [hgrad, t1, if_pos ⟨hl2, hdec⟩]
      exact z1
    have hz : |z| ≤ R := by
      have e1 : |t - c.shrink * t| ≤ (1 - c.shrink) * V := by
        rw [show t - c.shrink * t = (1 - c.shrink) * t by ring, abs_mul, abs_of_nonneg (by linarith)]
        exact mul_le_mul_of_nonneg_left t3 (by linarith)
      have e2 := abs_sub_abs_le_abs_sub z (t - c.shrink * t)
      linarith
    obtain ⟨r, r1, r2⟩ := ih (fun b hb => hgs b (by simp [hb])) hz
    refine ⟨r, ?_, r2⟩
    show L.sgdRun c (L.sgdWeight c (.fin w) (.fin s)) gs = _
    rw [hstep]
    exact r1

/-! ### Infinite gradients -/

/-- A gradient that is infinite or NaN is not consumed: what is left is NaN, and so are the weights after every later step, whatever the later
gradients, which are added to what is left. -/
theorem C139_not_consumed (c : SgdConsts) {w g : Fl} (hg : g = .nan ∨ ∃ s, g = .inf s) :
    L.sgdLeft c w g = .nan ∧ ∀ w' g', L.sgdWeight c w' (L.add .nan g') = .nan ∧ L.sgdLeft c w' (L.add .nan g') = .nan := by
  have hn : ∀ a, L.add .nan a = .nan := fun a => by cases a <;> rfl
  have hn' : ∀ a, L.add a .nan = .nan := fun a => by cases a <;> rfl
  have hm : ∀ a, L.mul a .nan = .nan := fun a => by cases a <;> rfl
  have hm' : ∀ a, L.mul .nan a = .nan := fun a => by cases a <;> rfl
  have hgr : ∀ w, L.sgdGradient c w .nan = .nan := by
    intro w
    unfold FloatLib.sgdGradient
    split
    · exact hn _
    · rfl
  refine ⟨?_, fun w' g' => ?_⟩
  · unfold FloatLib.sgdLeft
    rcases hg with rfl | ⟨s, rfl⟩
    · rw [hgr]; rfl
    · have : L.sgdGradient c w (.inf s) = .nan ∨ L.sgdGradient c w (.inf s) = .inf s := by
        unfold FloatLib.sgdGradient
        split
        · cases L.mul (L.round c.l2) w with
          | fin x => exact Or.inr rfl
          | nan => exact Or.inl rfl
          | inf t =>
            show (if s = t then Fl.inf s else .nan) = _ ∨ (if s = t then Fl.inf s else .nan) = _
            split <;> simp
        · exact Or.inr rfl
      rcases this with h | h <;> rw [h]
      · rfl
      · exact if_pos rfl
  · rw [hn]
    refine ⟨?_, by unfold FloatLib.sgdLeft; rw [hgr]; exact hm' _⟩
    unfold FloatLib.sgdWeight
    simp only [hgr, hm, FloatLib.sub]
    simp only [FloatLib.neg, hn', hn]
    split <;> rfl

/-! ### The hypotheses are met: float32 -/

/-- The learning rate 0.1 without L2. -/
noncomputable def exSgdPlain : SgdConsts := ⟨1 / 10, 0, 0, false⟩
/-- The learning rate 0.1 with L2 regularization. -/
noncomputable def exSgdL2 : SgdConsts := ⟨1 / 10, 1 / 100, 1 / 1000, false⟩
/-- The learning rate 0.001 with weight decay. -/
noncomputable def exSgdDecay : SgdConsts := ⟨1 / 1000, 1 / 100, 1 / 100000, true⟩

theorem fits_float32 {p : Bound} (h : p.size + p.err ≤ 1000) : p.Fits float32Lib.big := h.trans float32Lib_ok.bigBound

example : ∃ r, float32Lib.sgdWeight exSgdL2 (.fin 1) (.fin (1 / 2)) = .fin r ∧ |r - (1 - 1 / 10 * (1 / 2 + 1 / 100))| ≤ 1 / 10 ^ 6 := by
  obtain ⟨-, ⟨-, r, r1, r2⟩, -⟩ := C139_step float32Lib_ok float32_accurate exSgdL2 (a := .fin 1) (b := .fin (1 / 2)) (w := 1) (g := 1 / 2) (p := ⟨1, 0⟩)
    (q := ⟨1 / 2, 0⟩) ⟨by norm_num, 1, rfl, by norm_num⟩ ⟨by norm_num [abs_of_pos], 1 / 2, rfl, by norm_num⟩ (by
      constructor <;> refine fits_float32 ?_ <;>
        norm_num [Bound.const, Bound.mul, Bound.add, sgdBound, sgdMoveBound, sgdGradBound, exSgdL2, abs_of_pos])
  refine ⟨r, r1, ?_⟩
  have h1 : sgdReal exSgdL2 1 (1 / 2) = 1 - 1 / 10 * (1 / 2 + 1 / 100) := by norm_num [sgdReal, exSgdL2]
  rw [h1] at r2
  refine r2.trans ?_
  norm_num [Bound.const, Bound.mul, Bound.add, sgdBound, sgdMoveBound, sgdGradBound, exSgdL2, abs_of_pos]

/-- With weight decay and gradients at most 1, a weight that starts at 5 never leaves the interval from -200 to 200. -/
example (gs : List Fl) (hgs : ∀ b ∈ gs, ∃ r, b = .fin r ∧ |r| ≤ 1) : ∃ r, float32Lib.sgdRun exSgdDecay (.fin 5) gs = .fin r ∧ |r| ≤ 200 := by
  refine C139_decay float32Lib_ok float32_accurate exSgdDecay (by norm_num [exSgdDecay]) rfl (by norm_num [exSgdDecay]) (G := 1) (R := 200)
    (fits_float32 ?_) (fits_float32 ?_) (fits_float32 ?_) rfl (le_trans ?_ float32Lib_ok.bigBound) (fits_float32 ?_) (fits_float32 ?_) ?_ gs hgs (by norm_num) <;>
  norm_num [Bound.const, Bound.mul, Bound.add, sgdMoveBound, sgdGradBound, exSgdDecay, abs_of_pos]

theorem exSgdPlain_drift {k : ℕ} (hk : k ≤ 10) : 0 ≤ driftError (1 / 2 ^ 23) (1 / 2 ^ 149) exSgdPlain 1 1 1 0 0 k ∧
    driftError (1 / 2 ^ 23) (1 / 2 ^ 149) exSgdPlain 1 1 1 0 0 k ≤ 1 / 10 ^ 4 := by
  rw [C139_drift_bound exSgdPlain rfl, mul_zero, zero_add]
  have hF : 1 ≤ driftFactor (1 / 2 ^ 23) (1 / 2 ^ 149) exSgdPlain 1 ∧ driftFactor (1 / 2 ^ 23) (1 / 2 ^ 149) exSgdPlain 1 ≤ 6 / 5 := by
    norm_num [driftFactor, exSgdPlain, abs_of_pos]
  have hS : 0 ≤ driftStep (1 / 2 ^ 23) (1 / 2 ^ 149) exSgdPlain 1 1 0 ∧ driftStep (1 / 2 ^ 23) (1 / 2 ^ 149) exSgdPlain 1 1 0 ≤ 1 / 10 ^ 6 := by
    norm_num [driftStep, exSgdPlain, abs_of_pos]
  have hsum : ∑ i ∈ Finset.range k, driftFactor (1 / 2 ^ 23) (1 / 2 ^ 149) exSgdPlain 1 ^ i ≤ 10 * (6 / 5) ^ 10 := by
    refine (Finset.sum_le_card_nsmul _ _ ((6 / 5 : ℝ) ^ 10) fun i hi => ?_).trans ?_
    · have hi := Finset.mem_range.1 hi
      exact (pow_le_pow_left₀ (by linarith) hF.2 i).trans (pow_le_pow_right₀ (by norm_num) (by omega))
    · rw [Finset.card_range, nsmul_eq_mul]
      exact mul_le_mul_of_nonneg_right (by exact_mod_cast hk) (by positivity)
  have hsum0 : 0 ≤ ∑ i ∈ Finset.range k, driftFactor (1 / 2 ^ 23) (1 / 2 ^ 149) exSgdPlain 1 ^ i :=
    Finset.sum_nonneg fun i _ => pow_nonneg (by linarith) i
  refine ⟨mul_nonneg hS.1 hsum0, (mul_le_mul hS.2 hsum hsum0 (by norm_num)).trans ?_⟩
  norm_num

/-- Ten steps for half of the square of a weight, from 1: the run in float32 is near 0.9 to the power of 10. -/
example (W : ℕ → ℕ → Fl) (h0 : W 0 0 = .fin 1) (hW : ∀ n, W (n + 1) 0 = float32Lib.sgdWeight exSgdPlain (W n 0) (W n 0)) :
    ∃ r, W 10 0 = .fin r ∧ |r - (9 / 10) ^ 10| ≤ 1 / 10 ^ 4 := by
  have hle : ∀ n : ℕ, |((9 : ℝ) / 10) ^ n| ≤ 1 := fun n => by
    rw [abs_of_nonneg (by positivity)]
    exact pow_le_one₀ (by norm_num) (by norm_num)
  obtain ⟨r, r1, r2⟩ := C139_drift float32Lib_ok float32_accurate exSgdPlain (d := 1) (fun _ x => x) (K := 1) (δ := 0) (M := 1) (G := 1) (e := 0)
    (fun n x y s h i hi => by rw [one_mul]; exact h i hi) (fun n _ => (9 / 10) ^ n)
    (fun n i _ => by simp only [sgdReal, exSgdPlain, if_true]; ring) (fun n i _ => hle n) (fun n i _ => hle n) W W
    (fun n i hi => by rw [Nat.lt_one_iff.1 hi]; exact hW n) (fun n y hy i hi => ⟨y i, hy i hi, by simp⟩)
    (fun i hi => ⟨1, by rw [Nat.lt_one_iff.1 hi]; exact h0, by simp⟩) 10 (fun k hk => by
      obtain ⟨d1, d2⟩ := exSgdPlain_drift hk.le
      rw [one_mul, zero_add]
      generalize driftError (1 / 2 ^ 23) (1 / 2 ^ 149) exSgdPlain 1 1 1 0 0 k = t at d1 d2
      constructor <;> refine fits_float32 ?_ <;>
        norm_num [Bound.const, Bound.mul, Bound.add, sgdBound, sgdMoveBound, sgdGradBound, exSgdPlain, abs_of_pos] <;> norm_num at d2 <;> linarith) 0 (by norm_num)
  exact ⟨r, r1, r2.trans (exSgdPlain_drift (le_refl 10)).2⟩

/-- A training step of the network of `C138` with the learning rate 0.1: the first bias of the last layer, which is 1, moves along the derivative. -/
example (cpu : Bool) {P dX : Mat Fl} {g₀ g : FlGrad} (h : float32Lib.TrainGrad cpu true (fun _ => 1) (fun _ => false) [netHidden] netLast flA P dX [g₀] g) :
    ∃ r, float32Lib.sgdWeight exSgdPlain (netLast.b 0) (g.db 0) = .fin r ∧ |r - (1 - 1 / 10 * (Real.exp 25 / (Real.exp 25 + Real.exp 33)))| ≤ 1 / 1000 := by
  have hcnt : (2 : ℕ) ≤ 2 ^ 24 := by norm_num
  obtain ⟨ε, hε⟩ : ∃ ε, ε = softmaxNetError (1 / 2 ^ 23) (1 / 2 ^ 149) 0 (netError (1 / 2 ^ 23) (1 / 2 ^ 149) ([realHidden] ++ [realLast]) 2 0) realLast.nO := ⟨_, rfl⟩
  obtain ⟨f, hf⟩ : ∃ f, f = scoreGradError (1 / 2 ^ 23) (1 / 2 ^ 149) true flA.rows ε := ⟨_, rfl⟩
  obtain ⟨hshare, hf1, hf0, hfits⟩ := net_train hε hf
  obtain ⟨-, h5⟩ := C139_train float32Lib_ok float32_accurate exSgdPlain (.cons (netHidden_dense float32Lib_ok) .nil) (netLast_dense float32Lib_ok)
    (by decide) hcnt (X := flA) (by norm_num [flA]) h (by norm_num) le_rfl (net_input float32Lib_ok) hε hf hf0 net_fits hfits net_clear
  have h5 : LayerStepNear _ _ _ _ _ _ _ _ _ _ _ _ _ _ := h5
  have e2 : scoreGrad true flA.rows (fun _ => 1) (fun _ => false) [realHidden] realLast (fun _ k => (k : ℝ) + 1) 0 0 =
      Real.exp 25 / (Real.exp 25 + Real.exp 33) := by
    unfold scoreGrad probReal
    simp only [net_score]
    rw [show realLast.nO = 2 from rfl, Finset.sum_range_succ, Finset.sum_range_one]
    norm_num [rowShare, flA]
  have h6 := h5.b 0 (by decide)
  rw [show flA.rows = 1 from rfl] at hshare e2
  rw [show flA.rows = 1 from rfl, hshare, Finset.sum_range_one, e2] at h6
  have hq : |Real.exp 25 / (Real.exp 25 + Real.exp 33)| ≤ 1 := by
    have p1 := Real.exp_pos 25
    have p2 := Real.exp_pos 33
    rw [abs_of_pos (by positivity), div_le_one (by positivity)]
    linarith
  have hb : biasError (1 / 2 ^ 23) (1 / 2 ^ 149) 1 1 f ≤ 1 / 200 ∧ 0 ≤ biasError (1 / 2 ^ 23) (1 / 2 ^ 149) 1 1 f := by
    simp only [biasError, dotError]
    norm_num at hf1 ⊢
    constructor <;> linarith
  obtain ⟨hb1, hb0⟩ := hb
  generalize biasError (1 / 2 ^ 23) (1 / 2 ^ 149) 1 1 f = t at h6 hb1 hb0
  generalize Real.exp 25 / (Real.exp 25 + Real.exp 33) = y at h6 hq ⊢
  have hy := abs_nonneg y
  generalize hz : |y| = z at h6 hq hy
  obtain ⟨-, -, r, r1, r2⟩ := h6 (by
    constructor <;> refine fits_float32 ?_ <;>
      norm_num [Bound.const, Bound.mul, Bound.add, sgdBound, sgdMoveBound, sgdGradBound, exSgdPlain, realLast, abs_of_pos] <;> norm_num at hb1 <;> linarith)
  refine ⟨r, r1, ?_⟩
  have h7 : sgdReal exSgdPlain (realLast.c 0) y = 1 - 1 / 10 * y := by simp [sgdReal, exSgdPlain, realLast]
  rw [h7] at r2
  refine r2.trans ?_
  norm_num [Bound.const, Bound.mul, Bound.add, sgdBound, sgdMoveBound, sgdGradBound, exSgdPlain, realLast, abs_of_pos]
  norm_num at hb1
  linarith

/-- An infinite gradient. -/
example : float32Lib.sgdLeft exSgdPlain (.fin 1) (.inf false) = .nan := (C139_not_consumed exSgdPlain (Or.inr ⟨_, rfl⟩)).1

end Thinc
