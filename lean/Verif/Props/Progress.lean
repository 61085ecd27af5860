import Verif.Props.Sgd
import Mathlib.Analysis.Calculus.Deriv.MeanValue
/-!
# C77: a training step makes progress
-/
namespace Thinc
open Spec Spec.Tensor

section
variable {N : ℕ} {sh : Fin N → ℕ × ℕ} {A : Type}

/-- The sum of some losses. -/
noncomputable def Spec.totalLoss (losses : List (Params sh → ℝ)) (θ : Params sh) : ℝ := (losses.map fun loss => loss θ).sum

theorem IsVJP_totalLoss {L : Layer} {θ : Params sh} {P : ParamVals} (hP : IsParams P θ) (bs : List (Batch sh))
    (hb : ∀ b ∈ bs, Takes L θ b) :
    ∃ back, IsVJP (totalLoss (bs.map Batch.loss)) θ back ∧ back 1 = totalGradient (bs.map Batch.loss) θ := by
  induction bs with
  | nil => exact ⟨fun _ => 0, IsVJP_congr (IsVJP_const 0 θ) fun _ => by simp [totalLoss], by simp [totalGradient]⟩
  | cons b bs ih =>
    obtain ⟨back, h1, h2⟩ := ih fun c hc => hb c (by simp [hc])
    obtain ⟨-, -, -, back', -, -, h3, -⟩ := hb b (by simp) P hP
    refine ⟨fun d => back' d + back d, IsVJP_congr (IsVJP_add h3 h1) fun y => by simp [totalLoss], ?_⟩
    show back' 1 + back 1 = _
    rw [gradient_of_IsVJP h3, h2]
    simp [totalGradient]

theorem clipTo_scale {n m : ℕ} (c : ℝ) (hc : 0 ≤ c) (d : Fin n → Fin m → ℝ) : ∃ s : ℝ, 0 < s ∧ clipTo c d = s • d := by
  unfold clipTo
  split
  · next h =>
    have hc' : 0 < c := lt_of_le_of_ne hc (Ne.symm h.1)
    exact ⟨c / entryNorm d, div_pos hc' (hc'.trans_le h.2), rfl⟩
  · exact ⟨1, one_pos, (one_smul _ _).symm⟩

/-- A small enough step against a clipped gradient makes a function smaller. -/
theorem descend_lt {F : Params sh → ℝ} {θ g : Params sh} {back : ℝ → Params sh} (hF : IsVJP F θ back) (hg : back 1 = g) (hne : g ≠ 0)
    (clip : Fin N → ℝ) (hclip : ∀ p, 0 ≤ clip p) :
    ∃ ε₀ > 0, ∀ ε, 0 < ε → ε < ε₀ → F (descend (fun _ => ε) clip θ g) < F θ := by
  obtain ⟨f', hf, hb⟩ := hF
  choose s hs hsd using fun p => clipTo_scale (clip p) (hclip p) (g p)
  let d : Params sh := fun p => clipTo (clip p) (g p)
  have hdes : ∀ ε : ℝ, descend (fun _ => ε) clip θ g = θ + (-ε) • d := by
    intro ε
    funext p
    show θ p - ε • clipTo (clip p) (g p) = θ p + (-ε) • clipTo (clip p) (g p)
    rw [neg_smul, sub_eq_add_neg]
  have hpos : 0 < dot g d := by
    have h1 : ∀ p, 0 ≤ dot (g p) (d p) := fun p => by
      show 0 ≤ dot (g p) (clipTo (clip p) (g p))
      rw [hsd, dot_smul_right]
      exact mul_nonneg (hs p).le (dot_self_nonneg _)
    have h2 : ∃ p, g p ≠ 0 := by
      by_contra h
      push Not at h
      exact hne (funext h)
    obtain ⟨p, hp⟩ := h2
    refine Finset.sum_pos' (fun p _ => h1 p) ⟨p, Finset.mem_univ p, ?_⟩
    show 0 < dot (g p) (clipTo (clip p) (g p))
    rw [hsd, dot_smul_right]
    exact mul_pos (hs p) (lt_of_le_of_ne (dot_self_nonneg _) fun h => hp (dot_self_eq_zero _ h.symm))
  have hder : HasDerivAt (fun ε : ℝ => F (θ + (-ε) • d)) (-(dot g d)) 0 := by
    have h1 : HasDerivAt (fun ε : ℝ => θ + (-ε) • d) (-d) 0 := by
      have h2 : HasDerivAt (fun ε : ℝ => θ + (-ε) • d) ((-1 : ℝ) • d) 0 :=
        (((hasDerivAt_id (0 : ℝ)).neg).smul_const d).const_add θ
      rwa [neg_one_smul] at h2
    have h3 : HasFDerivAt F f' (θ + (-(0 : ℝ)) • d) := by simpa using hf
    refine (h3.comp_hasDerivAt (0 : ℝ) h1).congr_deriv ?_
    have h4 := hb 1 d
    rw [hg] at h4
    rw [map_neg, h4]
    show -(f' d) = -(1 * f' d)
    rw [one_mul]
  have hev : ∀ᶠ ε in nhdsWithin (0 : ℝ) (Set.Ioi 0), F (θ + (-ε) • d) < F θ := by
    have h1 := hder.hasDerivWithinAt (s := Set.Ioi 0)
    rw [hasDerivWithinAt_iff_tendsto_slope' (by simp)] at h1
    have h2 := h1.eventually (gt_mem_nhds (show -(dot g d) < 0 by linarith))
    filter_upwards [h2, self_mem_nhdsWithin] with ε h3 h4
    have h5 : (0 : ℝ) < ε := h4
    rw [slope_def_field] at h3
    simp only [sub_zero, neg_zero, zero_smul, add_zero] at h3
    rw [div_neg_iff] at h3
    rcases h3 with ⟨-, h⟩ | ⟨h, -⟩
    · exact absurd h (not_lt.2 h5.le)
    · linarith
  obtain ⟨ε₀, h1, h2⟩ := mem_nhdsGT_iff_exists_Ioo_subset.1 hev
  exact ⟨ε₀, h1, fun ε h3 h4 => by
    rw [hdes]
    exact h2 ⟨h3, h4⟩⟩

variable {root : Addr} {slot : Slots} {key : Fin N → Nat × String} {θ : Params sh}

/-- Training makes progress: unless the gradient of the summed losses is zero already, one SGD iteration with a small enough
learning rate makes the summed losses strictly smaller, with or without gradient clipping. -/
theorem C77_progress {L : Layer} (s : TrainState A) (bs : List (Batch sh)) (H : Wired s.nodes root slot key θ 0)
    (htakes : ∀ b ∈ bs, Takes L θ b) (hne : totalGradient (bs.map Batch.loss) θ ≠ 0) (clip : Fin N → ℝ) (hclip : ∀ p, 0 ≤ clip p) :
    ∃ ε₀ > 0, ∀ cfg : OptCfg (Nat × String), cfg.useRadam = false → (∀ t k s, cfg.b2 t k s = 0) → (∀ t k s, cfg.L2 t k s = 0) →
      (∀ p, cfg.gradClip s.opt.step (key p) s.opt.lastScore = clip p) →
      ∀ ε, 0 < ε → ε < ε₀ → (∀ p, cfg.learnRate s.opt.step (key p) s.opt.lastScore = ε) →
      ∃ s' θ', trainLoop L N slot cfg root s [bs.map fun b => (b.input, b.lossGrad)] = .ok s' ∧
        Wired s'.nodes root slot key θ' 0 ∧ totalLoss (bs.map Batch.loss) θ' < totalLoss (bs.map Batch.loss) θ := by
  obtain ⟨back, h1, h2⟩ := IsVJP_totalLoss H.isParams bs htakes
  obtain ⟨ε₀, h3, h4⟩ := descend_lt h1 h2 hne clip hclip
  refine ⟨ε₀, h3, fun cfg hra hb2 hL2 hc ε hε1 hε2 hlr => ?_⟩
  obtain ⟨s', e, -, hw⟩ := C77_sgd hra hb2 hL2 (L := L) s [bs] H ⟨htakes, trivial⟩
  refine ⟨s', _, e, hw, ?_⟩
  show totalLoss _ (descend (fun p => cfg.learnRate s.opt.step (key p) s.opt.lastScore)
    (fun p => cfg.gradClip s.opt.step (key p) s.opt.lastScore) θ (totalGradient (bs.map Batch.loss) θ)) < _
  simp only [hlr, hc]
  exact h4 ε hε1 hε2
end

/-- Non-vacuity: linear regression from zero on the point (1, 1); the gradient is not zero. -/
example : ∃ ε₀ > 0, ∀ ε, 0 < ε → ε < ε₀ → ∃ s' θ', trainLoop (linear 0 1) 2 exLinearSlots
      ⟨fun _ _ _ => ε, fun _ _ _ => 0, fun _ _ _ => 0, fun _ _ _ => 0, fun _ _ _ => 0, fun _ _ _ => 1, false, true⟩ 0
      ⟨exLinearHeap, OptState.init true⟩ [[exLinearBatch 1 1].map fun b => (b.input, b.lossGrad)] = .ok s' ∧
    Wired s'.nodes 0 exLinearSlots exLinearKey θ' 0 ∧
    totalLoss [(exLinearBatch 1 1).loss] θ' < totalLoss [(exLinearBatch 1 1).loss] 0 := by
  have hne : totalGradient ([exLinearBatch 1 1].map Batch.loss) (0 : Params fun _ : Fin 2 => (1, 1)) ≠ 0 := by
    intro h
    have h1 := congrFun (congrFun (congrFun h 1) 0) 0
    have h2 : ∀ t : ℝ, (exLinearBatch 1 1).loss (setEntry (0 : Params fun _ : Fin 2 => (1, 1)) 1 0 0 t) = (t - 1) ^ 2 / 2 := by
      intro t
      simp [exLinearBatch, affine, Params.get, Params.vec, setEntry]
    simp only [totalGradient, List.map_cons, List.map_nil, List.sum_cons, List.sum_nil, add_zero, gradient, h2] at h1
    have h3 : HasDerivAt (fun t : ℝ => (t - 1) ^ 2 / 2) (-1) 0 := by
      have := (((hasDerivAt_id (0:ℝ)).sub_const 1).pow 2).div_const 2
      refine this.congr_deriv ?_
      norm_num
    have h4 := h3.deriv
    simp only [Pi.zero_apply] at h1
    rw [h4] at h1
    norm_num at h1
  obtain ⟨ε₀, h1, h2⟩ := C77_progress (L := linear 0 1) ⟨exLinearHeap, OptState.init true⟩ [exLinearBatch 1 1] exLinear_wired
    (fun b hb => by
      rw [List.mem_singleton] at hb
      subst hb
      exact exLinear_takes 1 1 _) hne (fun _ => 1) (fun _ => zero_le_one)
  exact ⟨ε₀, h1, fun ε h3 h4 => h2 _ rfl (fun _ _ _ => rfl) (fun _ _ _ => rfl) (fun _ => rfl) ε h3 h4 fun _ => rfl⟩

end Thinc
