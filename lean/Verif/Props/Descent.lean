import Verif.Props.Adam
import Verif.Props.Progress
/-!
# C115: training reduces the loss
-/
namespace Thinc
open Spec Spec.Tensor

section
variable {N : ℕ} {sh : Fin N → ℕ × ℕ}

/-! ### Steps against the gradient -/

theorem totalLoss_IsVJP {losses : List (Params sh → ℝ)} {θ : Params sh} (h : ∀ loss ∈ losses, ∃ back, IsVJP loss θ back) :
    ∃ back, IsVJP (totalLoss losses) θ back ∧ back 1 = totalGradient losses θ := by
  induction losses with
  | nil =>
    refine ⟨fun _ => 0, ?_, rfl⟩
    exact IsVJP_const (0 : ℝ) θ
  | cons l ls ih =>
    obtain ⟨b1, h1⟩ := h l (by simp)
    obtain ⟨b2, h2, e2⟩ := ih fun l' hl => h l' (by simp [hl])
    refine ⟨fun d => b1 d + b2 d, ?_, ?_⟩
    · refine IsVJP_congr (IsVJP_add h1 h2) fun θ => ?_
      simp [totalLoss]
    · simp only [e2, gradient_of_IsVJP h1, totalGradient, List.map_cons, List.sum_cons]

theorem exists_isParams (θ : Params sh) : ∃ P, IsParams P θ := by
  refine ⟨fun p => if h : p < N then Mat.ofFn (sh ⟨p, h⟩).1 (sh ⟨p, h⟩).2 (fun i j => if hi : i < (sh ⟨p, h⟩).1 then
    if hj : j < (sh ⟨p, h⟩).2 then θ ⟨p, h⟩ ⟨i, hi⟩ ⟨j, hj⟩ else 0 else 0) else Mat.zeros 0 0, fun p => ?_⟩
  simp only [p.2, dif_pos]
  exact isMat_ofFn' _ _ fun i j => by simp

theorem exists_entry {g : Params sh} (hg : g ≠ 0) : ∃ p i j, g p i j ≠ 0 := by
  by_contra hc
  push Not at hc
  exact hg (funext fun p => funext fun i => funext fun j => hc p i j)

theorem exists_least_entry (g : Params sh) : ∃ m : ℝ, 0 < m ∧ ∀ p i j, g p i j ≠ 0 → m ≤ |g p i j| := by
  classical
  by_cases hg : g = 0
  · exact ⟨1, one_pos, fun p i j h => absurd (by rw [hg]; rfl) h⟩
  obtain ⟨p0, i0, j0, h0⟩ := exists_entry hg
  let f : (Σ p : Fin N, Fin (sh p).1 × Fin (sh p).2) → ℝ := fun e => if g e.1 e.2.1 e.2.2 = 0 then 1 else |g e.1 e.2.1 e.2.2|
  haveI : Nonempty (Σ p : Fin N, Fin (sh p).1 × Fin (sh p).2) := ⟨⟨p0, i0, j0⟩⟩
  obtain ⟨e, he⟩ := Finite.exists_min f
  refine ⟨f e, ?_, fun p i j h => ?_⟩
  · show 0 < (if g e.1 e.2.1 e.2.2 = 0 then (1 : ℝ) else |g e.1 e.2.1 e.2.2|)
    split
    · exact one_pos
    · next h => exact abs_pos.2 h
  · refine (he ⟨p, i, j⟩).trans ?_
    show (if g p i j = 0 then (1 : ℝ) else |g p i j|) ≤ _
    rw [if_neg h]

theorem entry_le_dot {d g : Params sh} (h : ∀ p i j, 0 ≤ d p i j * g p i j) (p : Fin N) (i : Fin (sh p).1) (j : Fin (sh p).2) :
    d p i j * g p i j ≤ dot d g := by
  have h3 : ∀ p i, 0 ≤ ∑ j, d p i j * g p i j := fun p i => Finset.sum_nonneg fun j _ => h p i j
  have h2 : ∀ p, 0 ≤ ∑ i, ∑ j, d p i j * g p i j := fun p => Finset.sum_nonneg fun i _ => h3 p i
  calc d p i j * g p i j ≤ ∑ j, d p i j * g p i j := Finset.single_le_sum (f := fun j => d p i j * g p i j) (fun j _ => h p i j) (Finset.mem_univ j)
    _ ≤ ∑ i, ∑ j, d p i j * g p i j := Finset.single_le_sum (f := fun i => ∑ j, d p i j * g p i j) (fun i _ => h3 p i) (Finset.mem_univ i)
    _ ≤ ∑ p, ∑ i, ∑ j, d p i j * g p i j := Finset.single_le_sum (f := fun p => ∑ i, ∑ j, d p i j * g p i j) (fun p _ => h2 p) (Finset.mem_univ p)

/-- A small step whose entries are positive multiples of the entries of the gradient reduces the loss. -/
theorem small_step {loss : Params sh → ℝ} {θ : Params sh} {back : ℝ → Params sh} (hv : IsVJP loss θ back) (hg : back 1 ≠ 0) :
    ∃ δ > 0, ∀ d : Params sh, (∀ p i j, ∃ a > 0, d p i j = a * back 1 p i j) → (∀ p i j, |d p i j| < δ) →
      loss (θ - d) < loss θ := by
  obtain ⟨f', hf, hb⟩ := hv
  obtain ⟨m, hm, hmin⟩ := exists_least_entry (back 1)
  have ho := hf.isLittleO
  have ho2 := ho.def (show 0 < m / 2 by positivity)
  obtain ⟨δ, hδ, hball⟩ := Metric.eventually_nhds_iff.1 ho2
  refine ⟨δ, hδ, fun d ha hd => ?_⟩
  have hpos : ∀ p i j, 0 ≤ d p i j * back 1 p i j := by
    intro p i j
    obtain ⟨a, ha0, e⟩ := ha p i j
    rw [e, mul_assoc]
    exact mul_nonneg ha0.le (mul_self_nonneg _)
  have hdot0 : 0 < dot d (back 1) := by
    obtain ⟨p, i, j, h⟩ := exists_entry hg
    refine lt_of_lt_of_le ?_ (entry_le_dot hpos p i j)
    obtain ⟨a, ha0, e⟩ := ha p i j
    rw [e, mul_assoc]
    exact mul_pos ha0 (mul_self_pos.2 h)
  have hnorm : ‖d‖ ≤ dot d (back 1) / m := by
    have h0 : 0 ≤ dot d (back 1) / m := by positivity
    rw [pi_norm_le_iff_of_nonneg h0]
    intro p
    rw [pi_norm_le_iff_of_nonneg h0]
    intro i
    rw [pi_norm_le_iff_of_nonneg h0]
    intro j
    rw [Real.norm_eq_abs, le_div_iff₀ hm]
    refine le_trans ?_ (entry_le_dot hpos p i j)
    obtain ⟨a, ha0, e⟩ := ha p i j
    by_cases hz : back 1 p i j = 0
    · rw [e, hz]
      simp
    · rw [e, abs_mul, abs_of_pos ha0, mul_assoc, mul_assoc]
      refine mul_le_mul_of_nonneg_left ?_ ha0.le
      rw [← abs_mul_abs_self (back 1 p i j)]
      exact mul_le_mul_of_nonneg_left (hmin p i j hz) (abs_nonneg _)
  have hdδ : ‖d‖ < δ := by
    rw [pi_norm_lt_iff hδ]
    intro p
    rw [pi_norm_lt_iff hδ]
    intro i
    rw [pi_norm_lt_iff hδ]
    intro j
    exact hd p i j
  have h1 := hball (y := θ - d) (by rw [dist_eq_norm]; simpa using hdδ)
  have e1 : θ - d - θ = -d := by abel
  rw [e1, norm_neg, map_neg] at h1
  have e2 : f' d = dot d (back 1) := by
    have := hb 1 d
    rw [dot_comm]
    rw [this]
    show f' d = 1 * f' d
    rw [one_mul]
  rw [e2, Real.norm_eq_abs] at h1
  have h2 := (abs_le.1 h1).2
  have h3 : m / 2 * ‖d‖ ≤ dot d (back 1) / 2 := by
    have := mul_le_mul_of_nonneg_left hnorm (show 0 ≤ m / 2 by positivity)
    refine this.trans (le_of_eq ?_)
    field_simp
  linarith

theorem clipTo_scale_le {n m : ℕ} {c : ℝ} (hc : 0 ≤ c) (d : Fin n → Fin m → ℝ) :
    ∃ a : ℝ, 0 < a ∧ a ≤ 1 ∧ clipTo c d = a • d := by
  unfold clipTo
  split_ifs with h
  · have hc0 : 0 < c := lt_of_le_of_ne hc (Ne.symm h.1)
    have hn : 0 < entryNorm d := hc0.trans_le h.2
    exact ⟨c / entryNorm d, div_pos hc0 hn, (div_le_one hn).2 h.2, rfl⟩
  · exact ⟨1, one_pos, le_refl _, (one_smul _ _).symm⟩

end

section
variable {N : ℕ} {sh : Fin N → ℕ × ℕ} {A : Type} {root : Addr} {slot : Slots} {key : Fin N → Nat × String}

/-- One step of SGD with a small learning rate reduces the loss.  Let a model take some batches, and let the gradient of the sum of
their losses not be zero.  Then there is a bound such that, whatever positive learning rates below it the optimizer uses (they may
differ between the parameters) and however it clips the gradients: the step does not raise, and the sum of the losses with the new
parameters is smaller than before. -/
theorem C115_sgd_step {L : Layer} {θ : Params sh} (bs : List (Batch sh)) (htakes : ∀ b ∈ bs, Takes L θ b)
    (hg : totalGradient (bs.map Batch.loss) θ ≠ 0) :
    ∃ ε > 0, ∀ (cfg : OptCfg (Nat × String)) (s : TrainState A), cfg.useRadam = false → (∀ t k s, cfg.b2 t k s = 0) →
      (∀ t k s, cfg.L2 t k s = 0) → Wired s.nodes root slot key θ 0 →
      (∀ p, 0 < cfg.learnRate s.opt.step (key p) s.opt.lastScore ∧ cfg.learnRate s.opt.step (key p) s.opt.lastScore < ε) →
      (∀ p, 0 ≤ cfg.gradClip s.opt.step (key p) s.opt.lastScore) →
      ∃ s' θ', trainLoop L N slot cfg root s [bs.map fun b => (b.input, b.lossGrad)] = .ok s' ∧
        Wired s'.nodes root slot key θ' 0 ∧ totalLoss (bs.map Batch.loss) θ' < totalLoss (bs.map Batch.loss) θ := by
  obtain ⟨P, hP⟩ := exists_isParams θ
  have hdiff : ∀ loss ∈ bs.map Batch.loss, ∃ back, IsVJP loss θ back := by
    intro loss hl
    obtain ⟨b, hb, rfl⟩ := List.mem_map.1 hl
    obtain ⟨_, _, _, back, _, _, h, _⟩ := htakes b hb P hP
    exact ⟨back, h⟩
  obtain ⟨back, hv, eb⟩ := totalLoss_IsVJP hdiff
  rw [← eb] at hg
  obtain ⟨δ, hδ, hstep⟩ := small_step hv hg
  have hK : 0 < ‖back 1‖ + 1 := by positivity
  refine ⟨δ / (‖back 1‖ + 1), div_pos hδ hK, ?_⟩
  intro cfg s hra hb2 hL2 H hlr hclip
  obtain ⟨s', e, -, H'⟩ := C77_sgd hra hb2 hL2 s [bs] H ⟨htakes, trivial⟩
  refine ⟨s', _, e, H', ?_⟩
  show totalLoss (bs.map Batch.loss) (descend _ _ θ (totalGradient (bs.map Batch.loss) θ)) < _
  have e2 : descend (fun p => cfg.learnRate s.opt.step (key p) s.opt.lastScore) (fun p => cfg.gradClip s.opt.step (key p) s.opt.lastScore) θ
      (totalGradient (bs.map Batch.loss) θ) =
      θ - (fun p => cfg.learnRate s.opt.step (key p) s.opt.lastScore • clipTo (cfg.gradClip s.opt.step (key p) s.opt.lastScore) (back 1 p)) := by
    rw [← eb]; rfl
  rw [e2]
  refine hstep _ ?_ ?_
  · intro p i j
    obtain ⟨a, a0, a1, ea⟩ := clipTo_scale_le (hclip p) (back 1 p)
    refine ⟨cfg.learnRate s.opt.step (key p) s.opt.lastScore * a, mul_pos (hlr p).1 a0, ?_⟩
    rw [ea]
    simp [mul_assoc]
  · intro p i j
    obtain ⟨a, a0, a1, ea⟩ := clipTo_scale_le (hclip p) (back 1 p)
    rw [ea]
    have hb : |back 1 p i j| ≤ ‖back 1‖ :=
      ((norm_le_pi_norm (back 1 p i) j).trans (norm_le_pi_norm (back 1 p) i)).trans (norm_le_pi_norm (back 1) p)
    have : |(cfg.learnRate s.opt.step (key p) s.opt.lastScore • a • back 1 p) i j| =
        cfg.learnRate s.opt.step (key p) s.opt.lastScore * (a * |back 1 p i j|) := by
      simp only [Pi.smul_apply, smul_eq_mul, abs_mul, abs_of_pos (hlr p).1, abs_of_pos a0]
    rw [this]
    have h1 : a * |back 1 p i j| < ‖back 1‖ + 1 := by
      have := mul_le_mul_of_nonneg_right a1 (abs_nonneg (back 1 p i j))
      linarith
    calc _ < δ / (‖back 1‖ + 1) * (‖back 1‖ + 1) :=
          mul_lt_mul'' (hlr p).2 h1 (hlr p).1.le (mul_nonneg a0.le (abs_nonneg _))
      _ = δ := div_mul_cancel₀ _ hK.ne'


theorem adam_first_entry {n m : ℕ} {h : Hyper} (hb1 : 0 < h.b1 ∧ h.b1 < 1) (hb2 : 0 < h.b2 ∧ h.b2 < 1) (heps : 0 ≤ h.eps)
    (hlr : 0 < h.lr) (hclip : 0 ≤ h.clip) (hL2 : h.L2 = 0) (decay : Bool) (w g : Fin n → Fin m → ℝ) (i : Fin n) (j : Fin m) :
    ∃ a > 0, w i j - ((Var.fresh w).step h decay g).w i j = a * g i j ∧ |a * g i j| ≤ h.lr := by
  obtain ⟨c, c0, -, ec⟩ := clipTo_scale_le hclip g
  have hpen : penalised h decay (Var.fresh w).w g = c • g := by
    unfold penalised
    rw [hL2, zero_smul, add_zero, ite_self, ec]
  have hs : (Var.fresh w).step h decay g = (Var.fresh w).adam h decay g := if_pos ⟨hb1.1, hb2.1⟩
  have hw : ((Var.fresh w).step h decay g).w i j = w i j - h.lr * Real.sqrt (1 - h.b2) / (1 - h.b1) *
      ((1 - h.b1) * (c * g i j) / (Real.sqrt ((1 - h.b2) * (c * g i j) ^ 2) + h.eps)) := by
    rw [hs]
    simp only [Var.adam, Var.finish, hpen]
    cases decay <;> simp [hL2, Var.fresh]
  rw [hw, sub_sub_cancel]
  have q1 : 0 < 1 - h.b1 := by linarith [hb1.2]
  have q2 : 0 < 1 - h.b2 := by linarith [hb2.2]
  have q3 : 0 < Real.sqrt (1 - h.b2) := Real.sqrt_pos.2 q2
  have q4 : Real.sqrt ((1 - h.b2) * (c * g i j) ^ 2) = Real.sqrt (1 - h.b2) * (c * |g i j|) := by
    rw [Real.sqrt_mul q2.le, Real.sqrt_sq_eq_abs, abs_mul, abs_of_pos c0]
  rw [q4]
  by_cases hz : g i j = 0
  · refine ⟨1, one_pos, ?_, ?_⟩
    · simp [hz]
    · simp [hz, hlr.le]
  have hden : 0 < Real.sqrt (1 - h.b2) * (c * |g i j|) + h.eps :=
    add_pos_of_pos_of_nonneg (mul_pos q3 (mul_pos c0 (abs_pos.2 hz))) heps
  have hval : h.lr * Real.sqrt (1 - h.b2) / (1 - h.b1) *
      ((1 - h.b1) * (c * g i j) / (Real.sqrt (1 - h.b2) * (c * |g i j|) + h.eps)) =
      h.lr * Real.sqrt (1 - h.b2) * c / (Real.sqrt (1 - h.b2) * (c * |g i j|) + h.eps) * g i j := by
    field_simp
  refine ⟨h.lr * Real.sqrt (1 - h.b2) * c / (Real.sqrt (1 - h.b2) * (c * |g i j|) + h.eps), ?_, hval, ?_⟩
  · exact div_pos (mul_pos (mul_pos hlr q3) c0) hden
  · rw [abs_mul, abs_of_pos (div_pos (mul_pos (mul_pos hlr q3) c0) hden), div_mul_eq_mul_div, div_le_iff₀ hden]
    have : 0 ≤ h.lr * h.eps := mul_nonneg hlr.le heps
    nlinarith

/-- The first step of Adam with a small learning rate reduces the loss as well, for any betas between zero and one and any
clipping. -/
theorem C115_adam_first_step {L : Layer} {θ : Params sh} (bs : List (Batch sh)) (hne : bs ≠ [])
    (htakes : ∀ b ∈ bs, TakesFully L θ b) (hsh : ∀ p, 0 < (sh p).1) (hg : totalGradient (bs.map Batch.loss) θ ≠ 0) :
    ∃ ε > 0, ∀ (cfg : OptCfg (Nat × String)) (s : TrainState A), cfg.useRadam = false →
      (∀ t k s, 0 < cfg.b1 t k s ∧ cfg.b1 t k s < 1) → (∀ t k s, 0 < cfg.b2 t k s ∧ cfg.b2 t k s < 1) →
      (∀ t k s, 0 ≤ cfg.eps t k s) → (∀ t k s, cfg.L2 t k s = 0) → (∀ t k s, 0 ≤ cfg.gradClip t k s) →
      Wired s.nodes root slot key θ 0 → DistinctIds s.nodes root → (∀ p, Remembers s.opt (key p) (Var.fresh (θ p))) →
      (∀ p, 0 < cfg.learnRate s.opt.step (key p) s.opt.lastScore ∧ cfg.learnRate s.opt.step (key p) s.opt.lastScore < ε) →
      ∃ s' θ', trainLoop L N slot cfg root s [bs.map fun b => (b.input, b.lossGrad)] = .ok s' ∧
        Wired s'.nodes root slot key θ' 0 ∧ totalLoss (bs.map Batch.loss) θ' < totalLoss (bs.map Batch.loss) θ := by
  obtain ⟨P, hP⟩ := exists_isParams θ
  have hdiff : ∀ loss ∈ bs.map Batch.loss, ∃ back, IsVJP loss θ back := by
    intro loss hl
    obtain ⟨b, hb, rfl⟩ := List.mem_map.1 hl
    obtain ⟨_, _, _, back, _, _, h, _⟩ := htakes b hb P hP
    exact ⟨back, h⟩
  obtain ⟨back, hv, eb⟩ := totalLoss_IsVJP hdiff
  rw [← eb] at hg
  obtain ⟨δ, hδ, hstep⟩ := small_step hv hg
  refine ⟨δ, hδ, ?_⟩
  intro cfg s hra hb1 hb2 heps hL2 hclip H hu hrem hlr
  obtain ⟨s', e, -, H', -⟩ := C90_adam hra (fun t k s _ => (hb1 t k s).1) hsh s (S := fun p => Var.fresh (θ p)) [bs] H hu hrem
    ⟨hne, htakes, trivial⟩
  refine ⟨s', _, e, H', ?_⟩
  have hent := fun p i j => adam_first_entry (h := cfg.hyper s.opt.step (key p) s.opt.lastScore) (hb1 _ _ _) (hb2 _ _ _) (heps _ _ _)
    (hlr p).1 (hclip _ _ _) (hL2 _ _ _) cfg.L2IsWeightDecay (θ p) (totalGradient (bs.map Batch.loss) θ p) i j
  have e2 : ∀ θ' : Params sh, θ' = θ - (θ - θ') := fun θ' => by abel
  rw [e2 (Vars.weights _)]
  refine hstep _ ?_ ?_
  · intro p i j
    obtain ⟨a, a0, ea, -⟩ := hent p i j
    refine ⟨a, a0, ?_⟩
    rw [eb]
    exact ea
  · intro p i j
    obtain ⟨a, a0, ea, hle⟩ := hent p i j
    refine lt_of_le_of_lt ?_ (hlr p).2
    refine le_trans (le_of_eq ?_) hle
    rw [← ea]
    rfl
end

/-! ### Linear regression -/

section
variable {N : ℕ} {sh : Fin N → ℕ × ℕ}

/-- What is needed of a loss: it lies above its tangents (it is convex) and below parabolas of curvature `M`. -/
structure SmoothConvex (F : Params sh → ℝ) (M : ℝ) : Prop where
  above : ∀ θ v, F θ + dot (gradient F θ) v ≤ F (θ + v)
  below : ∀ θ v, F (θ + v) ≤ F θ + dot (gradient F θ) v + M / 2 * dot v v

theorem dot_sub_right {E : Type} [NormedAddCommGroup E] [NormedSpace ℝ E] [Tensor E] (u v w : E) : dot u (v - w) = dot u v - dot u w := by
  rw [dot_comm, dot_sub_left, dot_comm v, dot_comm w]

theorem descend_plain (lr : ℝ) (θ d : Params sh) : descend (fun _ => lr) (fun _ => 0) θ d = θ - lr • d := by
  funext p
  simp [descend, clipTo]

theorem SmoothConvex.step {F : Params sh → ℝ} {M lr : ℝ} (hF : SmoothConvex F M) (hlr : 0 < lr) (hM : lr * M ≤ 1) (θ best : Params sh) :
    F (θ - lr • gradient F θ) ≤ F θ ∧
    F (θ - lr • gradient F θ) - F best ≤ dot (θ - best) (θ - best) / (2 * lr) -
      dot (θ - lr • gradient F θ - best) (θ - lr • gradient F θ - best) / (2 * lr) := by
  generalize hgd : gradient F θ = g
  have h1 := hF.below θ (-(lr • g))
  have h2 := hF.above θ (best - θ)
  rw [hgd] at h1 h2
  have e1 : θ + -(lr • g) = θ - lr • g := by abel
  have e2 : θ + (best - θ) = best := by abel
  have e3 : dot g (-(lr • g)) = -(lr * dot g g) := by
    rw [dot_comm, dot_neg_left, dot_smul_left]
  have e4 : dot (-(lr • g)) (-(lr • g)) = lr ^ 2 * dot g g := by
    rw [dot_neg_left, dot_comm, dot_neg_left, dot_smul_left, dot_smul_right]; ring
  rw [e1, e3, e4] at h1
  rw [e2, dot_sub_right] at h2
  have hgg := dot_self_nonneg g
  have hlg : 0 ≤ lr * dot g g := mul_nonneg hlr.le hgg
  have h3 : M / 2 * (lr ^ 2 * dot g g) ≤ lr * dot g g / 2 := by
    have : lr * M * (lr * dot g g) ≤ 1 * (lr * dot g g) := mul_le_mul_of_nonneg_right hM hlg
    nlinarith
  refine ⟨by linarith, ?_⟩
  have e5 : θ - lr • g - best = (θ - best) - lr • g := by abel
  have e6 : dot (θ - best - lr • g) (θ - best - lr • g) =
      dot (θ - best) (θ - best) - 2 * lr * (dot g θ - dot g best) + lr ^ 2 * dot g g := by
    have hd : dot (θ - best) g = dot g θ - dot g best := by rw [dot_comm, dot_sub_right]
    generalize θ - best = u at *
    rw [dot_sub_left, dot_sub_right, dot_smul_right, dot_smul_left, dot_sub_right, dot_smul_right, dot_comm g u, hd]
    ring
  rw [e5, e6, ← sub_div]
  have e7 : (dot (θ - best) (θ - best) - (dot (θ - best) (θ - best) - 2 * lr * (dot g θ - dot g best) + lr ^ 2 * dot g g)) / (2 * lr) =
      (dot g θ - dot g best) - lr * dot g g / 2 := by
    field_simp
    ring
  rw [e7]
  linarith

theorem SmoothConvex.descent {F : Params sh → ℝ} {M lr : ℝ} (hF : SmoothConvex F M) (hlr : 0 < lr) (hM : lr * M ≤ 1) (K k : ℕ)
    (θ best : Params sh) :
    F (Spec.descent (fun _ _ => lr) (fun _ _ => 0) k θ (List.replicate K [F])) ≤ F θ ∧
    K * (F (Spec.descent (fun _ _ => lr) (fun _ _ => 0) k θ (List.replicate K [F])) - F best) ≤ dot (θ - best) (θ - best) / (2 * lr) -
      dot (Spec.descent (fun _ _ => lr) (fun _ _ => 0) k θ (List.replicate K [F]) - best)
        (Spec.descent (fun _ _ => lr) (fun _ _ => 0) k θ (List.replicate K [F]) - best) / (2 * lr) := by
  induction K generalizing k θ with
  | zero => simp [Spec.descent]
  | succ K ih =>
    have e : Spec.descent (fun _ _ => lr) (fun _ _ => 0) k θ (List.replicate (K + 1) [F]) =
        Spec.descent (fun _ _ => lr) (fun _ _ => 0) (k + 1) (θ - lr • gradient F θ) (List.replicate K [F]) := by
      rw [List.replicate_succ, Spec.descent, descend_plain]
      simp [totalGradient]
    rw [e]
    obtain ⟨a1, a2⟩ := hF.step hlr hM θ best
    obtain ⟨b1, b2⟩ := ih (k + 1) (θ - lr • gradient F θ)
    refine ⟨b1.trans a1, ?_⟩
    push_cast
    linarith

/-- The sum of the squares of the entries of an array. -/
noncomputable def sumSq {n m : ℕ} (x : Fin n → Fin m → ℝ) : ℝ := ∑ i, ∑ j, x i j ^ 2

theorem sumSq_get (v : Params sh) {n m : ℕ} (p : Fin N) (h : sh p = (n, m)) : sumSq (v.get p h) = dot (v p) (v p) := by
  have h1 : n = (sh p).1 := by rw [h]
  have h2 : m = (sh p).2 := by rw [h]
  show ∑ i : Fin n, ∑ j : Fin m, v p (i.cast h1) (j.cast h2) ^ 2 = ∑ i, ∑ j, v p i j * v p i j
  refine Fintype.sum_equiv (finCongr h1) _ _ fun i => Fintype.sum_equiv (finCongr h2) _ _ fun j => ?_
  rw [sq]
  rfl

theorem sumSq_two (v : Params sh) {n m n' m' : ℕ} {p q : Fin N} (hpq : p ≠ q) (hp : sh p = (n, m)) (hq : sh q = (n', m')) :
    sumSq (v.get p hp) + sumSq (v.get q hq) ≤ dot v v := by
  rw [sumSq_get, sumSq_get]
  show _ ≤ ∑ r, dot (v r) (v r)
  rw [← Finset.sum_pair (f := fun r => dot (v r) (v r)) hpq]
  exact Finset.sum_le_sum_of_subset_of_nonneg (Finset.subset_univ _) fun r _ _ => dot_self_nonneg _

theorem affine_add {n nO nI : ℕ} (x : Fin n → Fin nI → ℝ) {W b : Fin N} (hW : sh W = (nO, nI)) (hb : sh b = (1, nO)) (θ v : Params sh)
    (i : Fin n) (o : Fin nO) : affine x ((θ + v).get W hW) ((θ + v).vec b hb) i o =
      affine x (θ.get W hW) (θ.vec b hb) i o + affine x (v.get W hW) (v.vec b hb) i o := by
  simp only [affine, Params.get, Params.vec, Pi.add_apply, mul_add, Finset.sum_add_distrib]
  ring

theorem affine_smul {n nO nI : ℕ} (x : Fin n → Fin nI → ℝ) {W b : Fin N} (hW : sh W = (nO, nI)) (hb : sh b = (1, nO)) (a : ℝ) (v : Params sh)
    (i : Fin n) (o : Fin nO) : affine x ((a • v).get W hW) ((a • v).vec b hb) i o = a * affine x (v.get W hW) (v.vec b hb) i o := by
  simp only [affine, Params.get, Params.vec, Pi.smul_apply, smul_eq_mul, mul_add, Finset.mul_sum]
  congr 1
  exact Finset.sum_congr rfl fun k _ => by ring

theorem affine_sq_le {n nO nI : ℕ} (x : Fin n → Fin nI → ℝ) {W b : Fin N} (hW : sh W = (nO, nI)) (hb : sh b = (1, nO)) (hWb : W ≠ b)
    (v : Params sh) : sumSq (affine x (v.get W hW) (v.vec b hb)) ≤ (sumSq x + n) * dot v v := by
  have h1 : ∀ i o, affine x (v.get W hW) (v.vec b hb) i o ^ 2 ≤ (∑ k, x i k ^ 2 + 1) * (∑ k, v.get W hW o k ^ 2 + v.vec b hb o ^ 2) := by
    intro i o
    have hcs := Finset.sum_mul_sq_le_sq_mul_sq Finset.univ (x i) (v.get W hW o)
    have p1 : 0 ≤ ∑ k, x i k ^ 2 := Finset.sum_nonneg fun _ _ => sq_nonneg _
    have p2 : 0 ≤ ∑ k, v.get W hW o k ^ 2 := Finset.sum_nonneg fun _ _ => sq_nonneg _
    show (∑ k, x i k * v.get W hW o k + v.vec b hb o) ^ 2 ≤ _
    generalize (∑ k, x i k * v.get W hW o k) = c at *
    generalize (∑ k, x i k ^ 2) = P at *
    generalize (∑ k, v.get W hW o k ^ 2) = Q at *
    generalize v.vec b hb o = β
    have h2 : 2 * c * β ≤ P * β ^ 2 + Q := by
      by_cases hP : P = 0
      · have : c = 0 := by
          rw [hP, zero_mul] at hcs
          exact pow_eq_zero_iff two_ne_zero |>.1 (le_antisymm hcs (sq_nonneg _))
        rw [this, hP]; simpa using p2
      · have hP' : 0 < P := lt_of_le_of_ne p1 (Ne.symm hP)
        have h3 : 0 ≤ (P * β - c) ^ 2 := sq_nonneg _
        have h4 : P * (2 * c * β) ≤ P * (P * β ^ 2 + Q) := by nlinarith
        exact le_of_mul_le_mul_left h4 hP'
    nlinarith
  have h2 : sumSq (affine x (v.get W hW) (v.vec b hb)) ≤
      ∑ i, ∑ o, (∑ k, x i k ^ 2 + 1) * (∑ k, v.get W hW o k ^ 2 + v.vec b hb o ^ 2) :=
    Finset.sum_le_sum fun i _ => Finset.sum_le_sum fun o _ => h1 i o
  refine h2.trans ?_
  have e : ∑ i, ∑ o, (∑ k, x i k ^ 2 + 1) * (∑ k, v.get W hW o k ^ 2 + v.vec b hb o ^ 2) =
      (sumSq x + n) * (sumSq (v.get W hW) + sumSq (v.get b hb)) := by
    have e1 : sumSq x + n = ∑ i, (∑ k, x i k ^ 2 + 1) := by simp [sumSq, Finset.sum_add_distrib]
    have e2 : sumSq (v.get W hW) + sumSq (v.get b hb) = ∑ o, (∑ k, v.get W hW o k ^ 2 + v.vec b hb o ^ 2) := by
      rw [Finset.sum_add_distrib]
      simp [sumSq, Params.vec]
    rw [e1, e2, Finset.sum_mul]
    exact Finset.sum_congr rfl fun i _ => by rw [Finset.mul_sum]
  rw [e]
  refine mul_le_mul_of_nonneg_left (sumSq_two v hWb hW hb) ?_
  exact add_nonneg (Finset.sum_nonneg fun _ _ => Finset.sum_nonneg fun _ _ => sq_nonneg _) (Nat.cast_nonneg _)

/-- Half the squared error of a linear model, divided by `D`. -/
noncomputable def Spec.regressionLoss {n nO nI : ℕ} (x : Fin n → Fin nI → ℝ) (t : Fin n → Fin nO → ℝ) (D : ℝ) {W b : Fin N}
    (hW : sh W = (nO, nI)) (hb : sh b = (1, nO)) (θ : Params sh) : ℝ :=
  (∑ i, ∑ o, (affine x (θ.get W hW) (θ.vec b hb) i o - t i o) ^ 2) / (2 * D)

theorem regression_expand {n nO nI : ℕ} (x : Fin n → Fin nI → ℝ) (t : Fin n → Fin nO → ℝ) {D : ℝ} {W b : Fin N}
    (hW : sh W = (nO, nI)) (hb : sh b = (1, nO)) (θ v : Params sh) (hD : D ≠ 0) :
    regressionLoss x t D hW hb (θ + v) = regressionLoss x t D hW hb θ +
      (∑ i, ∑ o, (affine x (θ.get W hW) (θ.vec b hb) i o - t i o) * affine x (v.get W hW) (v.vec b hb) i o) / D +
      sumSq (affine x (v.get W hW) (v.vec b hb)) / (2 * D) := by
  unfold regressionLoss
  have : ∑ i, ∑ o, (affine x ((θ + v).get W hW) ((θ + v).vec b hb) i o - t i o) ^ 2 =
      ∑ i, ∑ o, (affine x (θ.get W hW) (θ.vec b hb) i o - t i o) ^ 2 +
      2 * ∑ i, ∑ o, (affine x (θ.get W hW) (θ.vec b hb) i o - t i o) * affine x (v.get W hW) (v.vec b hb) i o +
      sumSq (affine x (v.get W hW) (v.vec b hb)) := by
    simp only [sumSq, Finset.mul_sum, ← Finset.sum_add_distrib]
    refine Finset.sum_congr rfl fun i _ => Finset.sum_congr rfl fun o _ => ?_
    rw [affine_add]; ring
  rw [this]
  field_simp

theorem regression_smooth {n nO nI : ℕ} (x : Fin n → Fin nI → ℝ) (t : Fin n → Fin nO → ℝ) {D : ℝ} {W b : Fin N}
    (hW : sh W = (nO, nI)) (hb : sh b = (1, nO)) (hWb : W ≠ b) (hD : 0 < D)
    (hdiff : ∀ θ, ∃ back, IsVJP (regressionLoss x t D hW hb) θ back) :
    SmoothConvex (regressionLoss x t D hW hb) ((sumSq x + n) / D) := by
  have hgrad : ∀ θ v, dot (gradient (regressionLoss x t D hW hb) θ) v =
      (∑ i, ∑ o, (affine x (θ.get W hW) (θ.vec b hb) i o - t i o) * affine x (v.get W hW) (v.vec b hb) i o) / D := by
    intro θ v
    obtain ⟨back, hv⟩ := hdiff θ
    rw [← gradient_of_IsVJP hv]
    obtain ⟨f', hf, hbk⟩ := hv
    rw [hbk 1 v]
    show 1 * f' v = _
    rw [one_mul]
    have hline : HasDerivAt (fun a : ℝ => θ + a • v) v 0 := by
      have := ((hasDerivAt_id (0 : ℝ)).smul_const v).const_add θ
      rwa [one_smul] at this
    have hf0 : HasFDerivAt (regressionLoss x t D hW hb) f' (θ + (0 : ℝ) • v) := by rw [zero_smul, add_zero]; exact hf
    have d1 := hf0.comp_hasDerivAt (0 : ℝ) hline
    generalize hl : (∑ i, ∑ o, (affine x (θ.get W hW) (θ.vec b hb) i o - t i o) * affine x (v.get W hW) (v.vec b hb) i o) / D = l
    generalize hq : sumSq (affine x (v.get W hW) (v.vec b hb)) / (2 * D) = q
    have e : ∀ a : ℝ, regressionLoss x t D hW hb (θ + a • v) = regressionLoss x t D hW hb θ + a * l + a ^ 2 * q := by
      intro a
      rw [regression_expand x t hW hb θ (a • v) hD.ne', ← hl, ← hq]
      have e1 : ∑ i, ∑ o, (affine x (θ.get W hW) (θ.vec b hb) i o - t i o) * affine x ((a • v).get W hW) ((a • v).vec b hb) i o =
          a * ∑ i, ∑ o, (affine x (θ.get W hW) (θ.vec b hb) i o - t i o) * affine x (v.get W hW) (v.vec b hb) i o := by
        simp only [Finset.mul_sum]
        refine Finset.sum_congr rfl fun i _ => Finset.sum_congr rfl fun o _ => ?_
        rw [affine_smul]; ring
      have e2 : sumSq (affine x ((a • v).get W hW) ((a • v).vec b hb)) = a ^ 2 * sumSq (affine x (v.get W hW) (v.vec b hb)) := by
        simp only [sumSq, Finset.mul_sum]
        refine Finset.sum_congr rfl fun i _ => Finset.sum_congr rfl fun o _ => ?_
        rw [affine_smul]; ring
      rw [e1, e2]
      ring
    have d2 : HasDerivAt (fun a : ℝ => regressionLoss x t D hW hb θ + a * l + a ^ 2 * q) l 0 := by
      have := (((hasDerivAt_id (0 : ℝ)).mul_const l).const_add (regressionLoss x t D hW hb θ)).add
        (((hasDerivAt_id (0 : ℝ)).pow 2).mul_const q)
      refine HasDerivAt.congr_deriv (this.congr_of_eventuallyEq (Filter.Eventually.of_forall fun a => rfl)) ?_
      simp
    have d3 : HasDerivAt (regressionLoss x t D hW hb ∘ fun a : ℝ => θ + a • v) l 0 :=
      d2.congr_of_eventuallyEq (Filter.Eventually.of_forall fun a => e a)
    exact d1.unique d3
  have hsq : ∀ v : Params sh, 0 ≤ sumSq (affine x (v.get W hW) (v.vec b hb)) := fun v =>
    Finset.sum_nonneg fun _ _ => Finset.sum_nonneg fun _ _ => sq_nonneg _
  constructor
  · intro θ v
    rw [hgrad, regression_expand x t hW hb θ v hD.ne']
    have : 0 ≤ sumSq (affine x (v.get W hW) (v.vec b hb)) / (2 * D) := div_nonneg (hsq v) (by positivity)
    linarith
  · intro θ v
    rw [hgrad, regression_expand x t hW hb θ v hD.ne']
    have h1 := affine_sq_le x hW hb hWb v
    have : sumSq (affine x (v.get W hW) (v.vec b hb)) / (2 * D) ≤ (sumSq x + n) / D / 2 * dot v v := by
      rw [div_le_iff₀ (by positivity)]
      refine h1.trans (le_of_eq ?_)
      field_simp
    linarith

end

section
variable {N : ℕ} {sh : Fin N → ℕ × ℕ} {A : Type} {root : Addr} {slot : Slots} {key : Fin N → Nat × String}

/-- Training a linear layer with SGD finds the least squares solution.  Let the layer be trained on the rows `x` with the
targets `t` and `L2Distance`, with a constant learning rate `lr`, positive and at most `D / (Σ x² + n)`, where `D` is the number `n`
of rows if the loss is normalised and 1 if it is not.  Then for any number `K` of iterations the training does not raise, the loss
afterwards is not larger than before, and it is at most `|θ - best|² / (2 lr K)` above that of any parameters `best`. -/
theorem C115_linear_regression {n nO nI : ℕ} (hn : 0 < n) {X T : Mat ℝ} {x : Fin n → Fin nI → ℝ} {t : Fin n → Fin nO → ℝ}
    (hX : IsMat X x) (hT : IsMat T t) {W b : Fin N} (hW : sh W = (nO, nI)) (hb : sh b = (1, nO)) (hWb : W ≠ b) (normalize : Bool)
    {cfg : OptCfg (Nat × String)} (hra : cfg.useRadam = false) (hb2 : ∀ t k s, cfg.b2 t k s = 0) (hL2 : ∀ t k s, cfg.L2 t k s = 0)
    (hclip : ∀ t k s, cfg.gradClip t k s = 0) {lr : ℝ} (hlr : ∀ t k s, cfg.learnRate t k s = lr) (hpos : 0 < lr)
    (hsmall : lr * (∑ i, ∑ j, x i j ^ 2 + n) ≤ if normalize then (n : ℝ) else 1)
    (s : TrainState A) {θ : Params sh} (H : Wired s.nodes root slot key θ 0) (K : ℕ) :
    ∃ s' θ', trainLoop (linear W b) N slot cfg root s (List.replicate K [(.arr X, l2GradVal normalize T)]) = .ok s' ∧
      Wired s'.nodes root slot key θ' 0 ∧
      regressionLoss x t (if normalize then (n : ℝ) else 1) hW hb θ' ≤ regressionLoss x t (if normalize then (n : ℝ) else 1) hW hb θ ∧
      ∀ best : Params sh, K * (regressionLoss x t (if normalize then (n : ℝ) else 1) hW hb θ' -
        regressionLoss x t (if normalize then (n : ℝ) else 1) hW hb best) ≤
          (∑ p, ∑ i, ∑ j, (θ p i j - best p i j) ^ 2) / (2 * lr) := by
  have hD : (0 : ℝ) < if normalize then (n : ℝ) else 1 := by
    split
    · exact Nat.cast_pos.2 hn
    · exact one_pos
  let F : Params sh → ℝ := regressionLoss x t (if normalize then (n : ℝ) else 1) hW hb
  have htr : ∀ θ : Params sh, Takes (linear W b) θ ⟨.arr X, l2GradVal normalize T, F⟩ := fun θ =>
    C77_trains (C73_l2 (C56_linear W b hW hb true θ x) normalize hT) ⟨X, rfl, hX⟩
  have hdiff : ∀ θ, ∃ back, IsVJP F θ back := by
    intro θ
    obtain ⟨P, hP⟩ := exists_isParams θ
    obtain ⟨_, _, _, back, _, _, h, _⟩ := htr θ P hP
    exact ⟨back, h⟩
  have hF := regression_smooth x t hW hb hWb hD hdiff
  have hM : lr * ((sumSq x + n) / if normalize then (n : ℝ) else 1) ≤ 1 := by
    rw [← mul_div_assoc, div_le_one hD]
    exact hsmall
  have hta : ∀ (K k : ℕ) (θ : Params sh), TakesAll (linear W b) (fun t p => cfg.learnRate t (key p) s.opt.lastScore)
      (fun t p => cfg.gradClip t (key p) s.opt.lastScore) k θ (List.replicate K [⟨.arr X, l2GradVal normalize T, F⟩]) := by
    intro K
    induction K with
    | zero => intro k θ; trivial
    | succ K ih =>
      intro k θ
      refine ⟨?_, ih _ _⟩
      intro b' hb'
      rw [List.mem_singleton.1 hb']
      exact htr θ
  obtain ⟨s', e, -, H'⟩ := C77_sgd hra hb2 hL2 s _ H (hta K _ θ)
  simp only [hlr, hclip, List.map_replicate, List.map_cons, List.map_nil] at e H'
  refine ⟨s', _, e, H', (hF.descent hpos hM K _ θ θ).1, fun best => ?_⟩
  have h1 := (hF.descent hpos hM K s.opt.step θ best).2
  refine h1.trans ?_
  have h2 : dot (θ - best) (θ - best) = ∑ p, ∑ i, ∑ j, (θ p i j - best p i j) ^ 2 := by
    show ∑ p, ∑ i, ∑ j, (θ p i j - best p i j) * (θ p i j - best p i j) = _
    simp only [sq]
  rw [h2]
  refine sub_le_self _ (div_nonneg (dot_self_nonneg _) (by positivity))

/-- So with enough iterations the loss comes as close as one likes to the loss of any parameters. -/
theorem C115_linear_regression_converges {n nO nI : ℕ} (hn : 0 < n) {X T : Mat ℝ} {x : Fin n → Fin nI → ℝ} {t : Fin n → Fin nO → ℝ}
    (hX : IsMat X x) (hT : IsMat T t) {W b : Fin N} (hW : sh W = (nO, nI)) (hb : sh b = (1, nO)) (hWb : W ≠ b) (normalize : Bool)
    {cfg : OptCfg (Nat × String)} (hra : cfg.useRadam = false) (hb2 : ∀ t k s, cfg.b2 t k s = 0) (hL2 : ∀ t k s, cfg.L2 t k s = 0)
    (hclip : ∀ t k s, cfg.gradClip t k s = 0) {lr : ℝ} (hlr : ∀ t k s, cfg.learnRate t k s = lr) (hpos : 0 < lr)
    (hsmall : lr * (∑ i, ∑ j, x i j ^ 2 + n) ≤ if normalize then (n : ℝ) else 1)
    (s : TrainState A) {θ : Params sh} (H : Wired s.nodes root slot key θ 0) (best : Params sh) {δ : ℝ} (hδ : 0 < δ) :
    ∃ K₀ : ℕ, ∀ K ≥ K₀, ∃ s' θ',
      trainLoop (linear W b) N slot cfg root s (List.replicate K [(.arr X, l2GradVal normalize T)]) = .ok s' ∧
      Wired s'.nodes root slot key θ' 0 ∧
      regressionLoss x t (if normalize then (n : ℝ) else 1) hW hb θ' < regressionLoss x t (if normalize then (n : ℝ) else 1) hW hb best + δ := by
  obtain ⟨K₀, hK₀⟩ := exists_nat_gt ((∑ p, ∑ i, ∑ j, (θ p i j - best p i j) ^ 2) / (2 * lr) / δ)
  have hc : 0 ≤ (∑ p, ∑ i, ∑ j, (θ p i j - best p i j) ^ 2) / (2 * lr) / δ := by
    refine div_nonneg (div_nonneg ?_ (by positivity)) hδ.le
    exact Finset.sum_nonneg fun _ _ => Finset.sum_nonneg fun _ _ => Finset.sum_nonneg fun _ _ => sq_nonneg _
  refine ⟨K₀, fun K hK => ?_⟩
  obtain ⟨s', θ', e, H', -, hbest⟩ := C115_linear_regression hn hX hT hW hb hWb normalize hra hb2 hL2 hclip hlr hpos hsmall s H K
  refine ⟨s', θ', e, H', ?_⟩
  have h1 := hbest best
  have hKr : (∑ p, ∑ i, ∑ j, (θ p i j - best p i j) ^ 2) / (2 * lr) / δ < K := hK₀.trans_le (Nat.cast_le.2 hK)
  have hK0 : (0 : ℝ) < K := hc.trans_lt hKr
  rw [div_lt_iff₀ hδ] at hKr
  have h2 := h1.trans_lt hKr
  have := lt_of_mul_lt_mul_left h2 hK0.le
  linarith

end

/-! ### Examples -/

theorem exLinear_loss (x t : ℝ) (θ : Params fun _ : Fin 2 => (1, 1)) :
    (exLinearBatch x t).loss θ = (x * θ 0 0 0 + θ 1 0 0 - t) ^ 2 / 2 := by
  simp only [exLinearBatch, affine, Params.get, Params.vec, Finset.univ_unique, Finset.sum_singleton, Bool.false_eq_true, if_false, mul_one]
  rfl

theorem exLinear_gradient (x t : ℝ) (θ : Params fun _ : Fin 2 => (1, 1)) : gradient (exLinearBatch x t).loss θ 1 0 0 =
    x * θ 0 0 0 + θ 1 0 0 - t := by
  have e : ∀ u : ℝ, (exLinearBatch x t).loss (setEntry θ 1 0 0 u) = (x * θ 0 0 0 + u - t) ^ 2 / 2 := by
    intro u
    rw [exLinear_loss]
    simp [setEntry]
  show deriv (fun u => (exLinearBatch x t).loss (setEntry θ 1 0 0 u)) (θ 1 0 0) = _
  simp only [e]
  have h : HasDerivAt (fun u : ℝ => (x * θ 0 0 0 + u - t) ^ 2 / 2) (x * θ 0 0 0 + θ 1 0 0 - t) (θ 1 0 0) := by
    have := (((((hasDerivAt_id (θ 1 0 0)).const_add (x * θ 0 0 0)).sub_const t).pow 2).div_const 2)
    refine this.congr_deriv ?_
    simp
  exact h.deriv

/-- Non-vacuity of `C115_sgd_step`: a linear layer with two batches, for all data with which it is not at a stationary point. -/
example (x t x' t' : ℝ) (ht : t + t' ≠ 0) :
    ∃ ε > 0, ∀ (cfg : OptCfg (Nat × String)) (s : TrainState Unit), cfg.useRadam = false → (∀ t k s, cfg.b2 t k s = 0) →
      (∀ t k s, cfg.L2 t k s = 0) → Wired (sh := fun _ : Fin 2 => (1, 1)) s.nodes 0 exLinearSlots exLinearKey 0 0 →
      (∀ p, 0 < cfg.learnRate s.opt.step (exLinearKey p) s.opt.lastScore ∧ cfg.learnRate s.opt.step (exLinearKey p) s.opt.lastScore < ε) →
      (∀ p, 0 ≤ cfg.gradClip s.opt.step (exLinearKey p) s.opt.lastScore) →
      ∃ s' θ', trainLoop (linear 0 1) 2 exLinearSlots cfg 0 s
          [[exLinearBatch x t, exLinearBatch x' t'].map fun b => (b.input, b.lossGrad)] = .ok s' ∧
        Wired s'.nodes 0 exLinearSlots exLinearKey θ' 0 ∧
        totalLoss ([exLinearBatch x t, exLinearBatch x' t'].map Batch.loss) θ' <
          totalLoss ([exLinearBatch x t, exLinearBatch x' t'].map Batch.loss) 0 := by
  refine C115_sgd_step [exLinearBatch x t, exLinearBatch x' t'] ?_ ?_
  · intro b hb
    simp only [List.mem_cons, List.not_mem_nil, or_false] at hb
    rcases hb with rfl | rfl
    · exact exLinear_takes x t 0
    · exact exLinear_takes x' t' 0
  · intro h
    have h1 := congrFun (congrFun (congrFun h 1) 0) 0
    simp only [totalGradient, List.map_cons, List.map_nil, List.sum_cons, List.sum_nil, add_zero, Pi.add_apply, exLinear_gradient,
      Pi.zero_apply, mul_zero, zero_sub] at h1
    apply ht
    have h2 : (0 : ℝ) - t + (0 - t') = 0 := by simpa using h1
    linarith

/-- Non-vacuity of `C115_adam_first_step`: the linear layer with a new Adam optimizer. -/
example (x t : ℝ) (ht : t ≠ 0) : ∃ ε > 0, ∀ lr : ℝ, 0 < lr → lr < ε →
    ∃ s' θ', trainLoop (linear 0 1) 2 exLinearSlots
        ⟨fun _ _ _ => lr, fun _ _ _ => 0.9, fun _ _ _ => 0.999, fun _ _ _ => 0.001, fun _ _ _ => 0, fun _ _ _ => 1, false, true⟩ 0
        ⟨exLinearHeap, OptState.init true⟩ [[exLinearBatch x t].map fun b => (b.input, b.lossGrad)] = .ok s' ∧
      Wired s'.nodes 0 exLinearSlots exLinearKey θ' 0 ∧
      totalLoss ([exLinearBatch x t].map Batch.loss) θ' < totalLoss ([exLinearBatch x t].map Batch.loss) 0 := by
  obtain ⟨ε, hε, h⟩ := C115_adam_first_step (A := Unit) (root := 0) (slot := exLinearSlots) (key := exLinearKey) (L := linear 0 1) (θ := 0)
    [exLinearBatch x t] (by simp)
    (fun b hb => by
      rw [List.mem_singleton.1 hb]
      exact C90_takes (exLinear_takes x t 0) (C90_linear_fills 0 1) (by decide))
    (fun _ => Nat.one_pos) (by
      intro h
      have h1 := congrFun (congrFun (congrFun h 1) 0) 0
      simp only [totalGradient, List.map_cons, List.map_nil, List.sum_cons, List.sum_nil, add_zero, exLinear_gradient,
        Pi.zero_apply, mul_zero, zero_sub] at h1
      exact ht (neg_eq_zero.1 (by simpa using h1)))
  refine ⟨ε, hε, fun lr h0 h1 => ?_⟩
  refine h _ ⟨exLinearHeap, OptState.init true⟩ rfl ?_ ?_ ?_ (fun _ _ _ => rfl) ?_ exLinear_wired ?_ ?_ fun p => ⟨h0, h1⟩
  · intro _ _ _; norm_num
  · intro _ _ _; norm_num
  · intro _ _ _; norm_num
  · intro _ _ _; norm_num
  · intro a b n m _ _ e1 e2 _
    have h1 : ∀ (a : Nat) n, exLinearHeap[a]? = some n → a = 0 := by
      intro a n e
      have := (List.getElem?_eq_some_iff.1 e).1
      simp only [exLinearHeap, List.length_cons, List.length_nil] at this
      omega
    exact (h1 a n e1).trans (h1 b m e2).symm
  · exact fun p => C90_fresh (sh := fun _ : Fin 2 => (1, 1)) true exLinearKey 0 p

/-- SGD with the constant learning rate 1/4. -/
noncomputable def exQuarter : OptCfg (Nat × String) :=
  ⟨fun _ _ _ => 1 / 4, fun _ _ _ => 0, fun _ _ _ => 0, fun _ _ _ => 1, fun _ _ _ => 0, fun _ _ _ => 0, false, true⟩

/-- Non-vacuity of `C115_linear_regression`: one row `1` with any target `t`.  The loss of `W = 0`, `b = t` is zero, so after `K`
iterations that of the trained model is at most `2 t² / K`. -/
example (t : ℝ) (K : ℕ) : ∃ s' θ', trainLoop (linear 0 1) 2 exLinearSlots exQuarter 0 ⟨exLinearHeap, OptState.init true⟩
      (List.replicate K [(.arr (Mat.ofFn 1 1 fun _ _ => 1), l2GradVal false (Mat.ofFn 1 1 fun _ _ => t))]) = .ok s' ∧
    Wired (sh := fun _ : Fin 2 => (1, 1)) s'.nodes 0 exLinearSlots exLinearKey θ' 0 ∧
    K * ((θ' 0 0 0 + θ' 1 0 0 - t) ^ 2 / 2) ≤ 2 * t ^ 2 := by
  obtain ⟨s', θ', e, H, -, h⟩ := C115_linear_regression (n := 1) (nO := 1) (nI := 1) Nat.one_pos (X := Mat.ofFn 1 1 fun _ _ => 1)
    (T := Mat.ofFn 1 1 fun _ _ => t) (x := fun _ _ => 1) (t := fun _ _ => t) (isMat_ofFn' _ _ fun _ _ => rfl) (isMat_ofFn' _ _ fun _ _ => rfl)
    (sh := fun _ : Fin 2 => (1, 1)) (W := 0) (b := 1) rfl rfl (by decide) false (cfg := exQuarter) rfl (fun _ _ _ => rfl) (fun _ _ _ => rfl)
    (fun _ _ _ => rfl) (lr := 1 / 4) (fun _ _ _ => rfl) (by norm_num) (by norm_num)
    ⟨exLinearHeap, OptState.init true⟩ exLinear_wired K
  refine ⟨s', θ', e, H, ?_⟩
  have h1 := h (fun p _ _ => if p = 0 then 0 else t)
  have e1 : ∀ θ : Params fun _ : Fin 2 => (1, 1), regressionLoss (n := 1) (nO := 1) (nI := 1) (fun _ _ => 1) (fun _ _ => t)
      (if false then ((1 : ℕ) : ℝ) else 1) (W := 0) (b := 1) rfl rfl θ = (θ 0 0 0 + θ 1 0 0 - t) ^ 2 / 2 := by
    intro θ
    simp only [regressionLoss, affine, Params.get, Params.vec, Finset.univ_unique, Finset.sum_singleton, Bool.false_eq_true, if_false, mul_one, one_mul]
    rfl
  rw [e1, e1] at h1
  simp only [Fin.sum_univ_two, Finset.univ_unique, Finset.sum_singleton] at h1
  simp at h1
  refine h1.trans (le_of_eq ?_)
  ring

theorem exLinear_gradient_weight (x t : ℝ) (θ : Params fun _ : Fin 2 => (1, 1)) : gradient (exLinearBatch x t).loss θ 0 0 0 =
    x * (x * θ 0 0 0 + θ 1 0 0 - t) := by
  have e : ∀ u : ℝ, (exLinearBatch x t).loss (setEntry θ 0 0 0 u) = (x * u + θ 1 0 0 - t) ^ 2 / 2 := by
    intro u
    rw [exLinear_loss]
    simp [setEntry]
  show deriv (fun u => (exLinearBatch x t).loss (setEntry θ 0 0 0 u)) (θ 0 0 0) = _
  simp only [e]
  have h : HasDerivAt (fun u : ℝ => (x * u + θ 1 0 0 - t) ^ 2 / 2) (x * (x * θ 0 0 0 + θ 1 0 0 - t)) (θ 0 0 0) := by
    have := ((((((hasDerivAt_id (θ 0 0 0)).const_mul x).add_const (θ 1 0 0)).sub_const t).pow 2).div_const 2)
    refine this.congr_deriv ?_
    simp
    ring
  exact h.deriv

/-- SGD with the constant learning rate 3. -/
noncomputable def exThree : OptCfg (Nat × String) :=
  ⟨fun _ _ _ => 3, fun _ _ _ => 0, fun _ _ _ => 0, fun _ _ _ => 1, fun _ _ _ => 0, fun _ _ _ => 0, false, true⟩

/-- The bounds are needed: with one row `1`, the target 1 and the learning rate 3, one iteration takes the loss from 1/2 to 25/2. -/
theorem C115_large_rate : ∃ s' θ', trainLoop (linear 0 1) 2 exLinearSlots exThree 0 ⟨exLinearHeap, OptState.init true⟩
      [[((exLinearBatch 1 1).input, (exLinearBatch 1 1).lossGrad)]] = .ok s' ∧
    Wired (sh := fun _ : Fin 2 => (1, 1)) s'.nodes 0 exLinearSlots exLinearKey θ' 0 ∧
    (exLinearBatch 1 1).loss 0 = 1 / 2 ∧ (exLinearBatch 1 1).loss θ' = 25 / 2 := by
  obtain ⟨s', e, -, H⟩ := C77_sgd (cfg := exThree) rfl (fun _ _ _ => rfl) (fun _ _ _ => rfl) (L := linear 0 1)
    ⟨exLinearHeap, OptState.init true⟩ [[exLinearBatch 1 1]] exLinear_wired ⟨fun b hb => by rw [List.mem_singleton.1 hb]; exact exLinear_takes 1 1 0, trivial⟩
  refine ⟨s', _, e, H, by rw [exLinear_loss]; norm_num, ?_⟩
  show (exLinearBatch 1 1).loss (descend (fun _ => 3) (fun _ => 0) 0 (totalGradient [(exLinearBatch 1 1).loss] 0)) = 25 / 2
  rw [exLinear_loss, descend_plain]
  have g0 := exLinear_gradient_weight 1 1 0
  have g1 := exLinear_gradient 1 1 0
  simp only [totalGradient, List.map_cons, List.map_nil, List.sum_cons, List.sum_nil, add_zero, Pi.sub_apply, Pi.smul_apply, g0, g1]
  norm_num

end Thinc
