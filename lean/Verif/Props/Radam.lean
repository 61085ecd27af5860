import Verif.Props.Optimizer
import Verif.Spec.Radam
import Mathlib.Analysis.SpecificLimits.Normed
/-!
# C109: RAdam
-/
namespace Thinc
open Spec

variable {κ : Type} [DecidableEq κ]

/-! ### The rectification -/

theorem one_sub_pow_pos {β : ℝ} (h0 : 0 ≤ β) (h1 : β < 1) {t : ℕ} (ht : t ≠ 0) : 0 < 1 - β ^ t := by
  have := pow_lt_one₀ h0 h1 ht
  linarith

theorem rho_le_rhoInf {β2 : ℝ} (h0 : 0 ≤ β2) (h1 : β2 < 1) {t : ℕ} (ht : t ≠ 0) : rho β2 t ≤ rhoInf β2 := by
  have h := one_sub_pow_pos h0 h1 ht
  unfold rho
  have : 0 ≤ 2 * (t : ℝ) * β2 ^ t / (1 - β2 ^ t) := by positivity
  linarith

/-- **C109.**  Everything the update of RAdam divides by is nonzero and everything it takes the root of is not negative, at every
step `t ≥ 1`, for all betas from 0 up to but not including 1. -/
theorem C109_well_defined {β1 β2 : ℝ} (h1 : 0 ≤ β1 ∧ β1 < 1) (h2 : 0 ≤ β2 ∧ β2 < 1) {t : ℕ} (ht : t ≠ 0) :
    1 - β2 ≠ 0 ∧ 0 < 1 - β1 ^ t ∧ 0 < 1 - β2 ^ t ∧
    (5 ≤ rho β2 t → 0 < rho β2 t ∧ 0 < rhoInf β2 - 4 ∧ 0 < rhoInf β2 - 2 ∧
      0 ≤ (1 - β2 ^ t) * (rho β2 t - 4) / (rhoInf β2 - 4) * (rho β2 t - 2) / rho β2 t * rhoInf β2 / (rhoInf β2 - 2)) := by
  have hb := one_sub_pow_pos h2.1 h2.2 ht
  refine ⟨by linarith [h2.2], one_sub_pow_pos h1.1 h1.2 ht, hb, fun h5 => ?_⟩
  have hle := rho_le_rhoInf h2.1 h2.2 ht
  have a1 : 0 < rho β2 t - 4 := by linarith
  have a2 : 0 < rho β2 t - 2 := by linarith
  have a3 : 0 < rho β2 t := by linarith
  have a4 : 0 < rhoInf β2 - 4 := by linarith
  have a5 : 0 < rhoInf β2 - 2 := by linarith
  have a6 : 0 < rhoInf β2 := by linarith
  exact ⟨a3, a4, a5, by positivity⟩

/-- **C109.**  The rectification only ever shortens a step: where it is used it is positive and at most 1. -/
theorem C109_rectification {β2 : ℝ} (h2 : 0 ≤ β2 ∧ β2 < 1) {t : ℕ} (ht : t ≠ 0) (h5 : 5 ≤ rho β2 t) :
    0 < rectification β2 t ∧ rectification β2 t ≤ 1 := by
  have hle := rho_le_rhoInf h2.1 h2.2 ht
  have a1 : 0 < rho β2 t - 4 := by linarith
  have a2 : 0 < rho β2 t - 2 := by linarith
  have a3 : 0 < rho β2 t := by linarith
  have a4 : 0 < rhoInf β2 - 4 := by linarith
  have a5 : 0 < rhoInf β2 - 2 := by linarith
  have a6 : 0 < rhoInf β2 := by linarith
  unfold rectification
  refine ⟨Real.sqrt_pos.2 (by positivity), ?_⟩
  rw [Real.sqrt_le_one]
  rw [div_le_one (by positivity)]
  have hp : 0 ≤ rho β2 t * rhoInf β2 - 8 := by nlinarith
  nlinarith [mul_nonneg (sub_nonneg.2 hle) hp]

-- With the default beta the rectification is used at step 10.
example : 5 ≤ rho (999 / 1000) 10 ∧ 0 < rectification (999 / 1000) 10 ∧ rectification (999 / 1000) 10 ≤ 1 := by
  have h : 5 ≤ rho (999 / 1000) 10 := by
    unfold rho rhoInf
    norm_num
  exact ⟨h, C109_rectification (by norm_num) (by norm_num) h⟩

theorem decay_antitone {β : ℝ} (h0 : 0 ≤ β) (h1 : β < 1) {t : ℕ} (ht : t ≠ 0) :
    ((t + 1 : ℕ) : ℝ) * β ^ (t + 1) / (1 - β ^ (t + 1)) ≤ t * β ^ t / (1 - β ^ t) := by
  rw [div_le_div_iff₀ (one_sub_pow_pos h0 h1 (by omega)) (one_sub_pow_pos h0 h1 ht)]
  -- (t+1) β (1 - β^t) ≤ t (1 - β^(t+1))
  have key : ((t : ℝ) + 1) * β * (1 - β ^ t) ≤ t * (1 - β ^ (t + 1)) := by
    have hs : ∀ n : ℕ, 1 - β ^ n = (1 - β) * ∑ i ∈ Finset.range n, β ^ i := fun n => by
      have := mul_neg_geom_sum β n
      linarith
    rw [hs, hs]
    have hsum : ((t : ℝ) + 1) * (β * ∑ i ∈ Finset.range t, β ^ i) ≤ t * ∑ i ∈ Finset.range (t + 1), β ^ i := by
      have hsucc : ∑ i ∈ Finset.range (t + 1), β ^ i = β * ∑ i ∈ Finset.range t, β ^ i + 1 := by
        rw [Finset.sum_range_succ', Finset.mul_sum]
        simp [pow_succ, mul_comm]
      have hle : β * ∑ i ∈ Finset.range t, β ^ i ≤ t := by
        rw [Finset.mul_sum]
        calc ∑ i ∈ Finset.range t, β * β ^ i ≤ ∑ _i ∈ Finset.range t, (1 : ℝ) :=
              Finset.sum_le_sum fun i _ => by
                rw [← pow_succ']
                exact pow_le_one₀ h0 h1.le
          _ = t := by simp
      rw [hsucc]
      linarith
    have : 0 ≤ 1 - β := by linarith
    nlinarith [mul_le_mul_of_nonneg_left hsum this]
  have hp : 0 ≤ β ^ t := pow_nonneg h0 t
  have := mul_le_mul_of_nonneg_left key hp
  push_cast
  rw [pow_succ] at *
  nlinarith [this]

/-- **C109.**  The length of the moving average grows with every step: a run of RAdam is plain momentum for some steps and, once
it is rectified, it stays so. -/
theorem C109_warmup {β2 : ℝ} (h2 : 0 ≤ β2 ∧ β2 < 1) {s t : ℕ} (hs : s ≠ 0) (hst : s ≤ t) : rho β2 s ≤ rho β2 t := by
  induction t, hst using Nat.le_induction with
  | base => exact le_refl _
  | succ t h ih =>
    refine ih.trans ?_
    have := decay_antitone h2.1 h2.2 (t := t) (by omega)
    unfold rho
    have e : ∀ n : ℕ, 2 * (n : ℝ) * β2 ^ n / (1 - β2 ^ n) = 2 * (n * β2 ^ n / (1 - β2 ^ n)) := fun n => by ring
    rw [e, e]
    linarith

/-- **C109.**  At the first step the moving average has length 1, so a run always starts without rectification; for betas above 2/3
it is rectified from some step on, and for betas up to 2/3 never. -/
theorem C109_phases {β2 : ℝ} (h2 : 0 < β2 ∧ β2 < 1) :
    rho β2 1 = 1 ∧ (2 / 3 < β2 → ∃ T, ∀ t, T ≤ t → 5 ≤ rho β2 t) ∧ (β2 ≤ 2 / 3 → ∀ t, t ≠ 0 → rho β2 t < 5) := by
  have hd : 0 < 1 - β2 := by linarith [h2.2]
  refine ⟨?_, fun h => ?_, fun h t ht => ?_⟩
  · unfold rho rhoInf
    field_simp
    push_cast
    ring
  · have h5 : 5 < rhoInf β2 := by
      unfold rhoInf
      have : 6 < 2 / (1 - β2) := by
        rw [lt_div_iff₀ hd]
        linarith
      linarith
    have h1 : Filter.Tendsto (fun n : ℕ => (n : ℝ) * β2 ^ n) Filter.atTop (nhds 0) :=
      tendsto_self_mul_const_pow_of_lt_one h2.1.le h2.2
    have h3 : Filter.Tendsto (fun n : ℕ => β2 ^ n) Filter.atTop (nhds 0) := tendsto_pow_atTop_nhds_zero_of_lt_one h2.1.le h2.2
    have h4 : Filter.Tendsto (fun n : ℕ => rho β2 n) Filter.atTop (nhds (rhoInf β2 - 2 * 0 / (1 - 0))) := by
      have := ((h1.const_mul 2).div (h3.const_sub 1) (by norm_num)).const_sub (rhoInf β2)
      refine this.congr fun n => ?_
      unfold rho
      simp only [Pi.div_apply]
      ring
    have h6 : rhoInf β2 - 2 * 0 / (1 - 0) = rhoInf β2 := by ring
    rw [h6] at h4
    obtain ⟨T, hT⟩ := Filter.eventually_atTop.1 (h4.eventually (lt_mem_nhds h5))
    exact ⟨T, fun t ht => (hT t ht).le⟩
  · have hp := one_sub_pow_pos h2.1.le h2.2 ht
    have hi : rhoInf β2 ≤ 5 := by
      unfold rhoInf
      have : 2 / (1 - β2) ≤ 6 := by
        rw [div_le_iff₀ hd]
        linarith
      linarith
    have : 0 < 2 * (t : ℝ) * β2 ^ t / (1 - β2 ^ t) := by
      have := Nat.pos_of_ne_zero ht
      have := h2.1
      positivity
    unfold rho
    linarith

/-! ### The update -/

theorem radamNsma_eq (β2 : ℝ) (t : ℕ) : radamNsma β2 t = rho β2 t := rfl

theorem radamStepSize_eq {β1 β2 : ℝ} (h1 : 0 ≤ β1 ∧ β1 < 1) (h2 : 0 ≤ β2 ∧ β2 < 1) {t : ℕ} (ht : t ≠ 0) :
    radamStepSize β1 β2 t = (if 5 ≤ rho β2 t then Real.sqrt (1 - β2 ^ t) * rectification β2 t else 1) / (1 - β1 ^ t) := by
  unfold radamStepSize
  simp only [radamNsma_eq, ge_iff_le]
  by_cases h5 : 5 ≤ rho β2 t
  · rw [if_pos h5, if_pos h5]
    congr 1
    have hb := one_sub_pow_pos h2.1 h2.2 ht
    unfold rectification
    rw [← Real.sqrt_mul hb.le]
    congr 1
    change (1 - β2 ^ t) * (rho β2 t - 4) / (rhoInf β2 - 4) * (rho β2 t - 2) / rho β2 t * rhoInf β2 / (rhoInf β2 - 2) = _
    have hle := rho_le_rhoInf h2.1 h2.2 ht
    have a3 : rho β2 t ≠ 0 := by linarith
    have a4 : rhoInf β2 - 4 ≠ 0 := by linarith
    have a5 : rhoInf β2 - 2 ≠ 0 := by linarith
    field_simp
  · rw [if_neg h5, if_neg h5]

theorem radamStepSize_pos {β1 β2 : ℝ} (h1 : 0 ≤ β1 ∧ β1 < 1) (h2 : 0 ≤ β2 ∧ β2 < 1) {t : ℕ} (ht : t ≠ 0)
    (h5 : ¬ 5 ≤ rho β2 t) : radamStepSize β1 β2 t > 0 := by
  rw [radamStepSize_eq h1 h2 ht, if_neg h5]
  have := one_sub_pow_pos h1.1 h1.2 ht
  positivity

/-- What one RAdam call returns, given the history of effective gradients. -/
def RadamResult (cfg : OptCfg κ) (β1 β2 : ℝ) (d : Nat) (E : List Vec) (r : CallRec κ) : Prop :=
  r.res.exc = none ∧ r.res.weights.length = d ∧ ∀ j < d,
    let m1 := expSum β1 (E.map fun g => g.getD j 0)
    let m2 := expSum β2 (E.map fun g => g.getD j 0 ^ 2)
    r.res.weights.getD j 0 = (r.w.getD j 0 - cfg.learnRate r.step r.key r.lastScore *
        radamStep β1 β2 (cfg.eps r.step r.key r.lastScore) (E.length + 1) m1 m2) * decayFactor cfg r

theorem AdamInv.radam_call {cfg : OptCfg κ} (hra : cfg.useRadam = true) {β1 β2 : ℝ} (h1 : 0 ≤ β1 ∧ β1 < 1) (h2 : 0 ≤ β2 ∧ β2 < 1)
    {k : κ} (hb : ∀ s k sc, cfg.b1 s k sc = β1 ∧ cfg.b2 s k sc = β2) {d : Nat}
    {E : List Vec} {st : OptState κ} (i : AdamInv β1 β2 k d E st) (hbuf : BufOk β1 β2 st.radamBuffer) {rows : Nat} (hrows : 0 < rows)
    {w g : Vec} (hw : w.length = d) (hg : g.length = d) (lrScale : ℝ) :
    let r : CallRec κ := ⟨st.step, st.lastScore, k, rows, w, g, lrScale,
      (st.call cfg k rows w g lrScale).2⟩
    AdamInv β1 β2 k d (E ++ [effGrad cfg r]) (st.call cfg k rows w g lrScale).1 ∧
      RadamResult cfg β1 β2 d (E ++ [effGrad cfg r]) r := by
  intro r
  have hreff : effGrad cfg r = regularised cfg st k w g := effGrad_eq cfg st k rows w g lrScale _
  rw [hreff]
  have hnrow : ¬ rows < 1 := by omega
  set st1 : OptState κ := { st with nrUpdate := st.nrUpdate.set k ((st.nrUpdate.get? k).getD 0 + 1) }
    with hst1
  have hcallb : st.call cfg k rows w g lrScale
      = callBody cfg st1 k w g lrScale ((st.nrUpdate.get? k).getD 0 + 1) := by
    simp only [OptState.call, hnrow, if_false, hst1]
  have hregl : (regularised cfg st k w g).length = d := by
    rw [regularised_length _ _ _ _ _ (hw.trans hg.symm), hg]
  have hreg1 : regularised cfg st1 k w g = regularised cfg st k w g := rfl
  set e := regularised cfg st k w g with he
  set n := E.length + 1 with hn
  set m1 := List.zipWith (fun m x => m * β1 + (1 - β1) * x)
    ((st.mom1.get? k).getD (List.replicate d 0)) e with hm1
  set m2 := List.zipWith (fun m x => m * β2 + (1 - β2) * x ^ 2)
    ((st.mom2.get? k).getD (List.replicate d 0)) e with hm2
  set lr := cfg.learnRate st.step k st.lastScore with hlr
  set eps := cfg.eps st.step k st.lastScore with heps
  have hn1 : n + 1 ≠ 0 := by omega
  set w' := (if 5 ≤ rho β2 (n + 1) then
      List.zipWith (fun x d => x + -radamStepSize β1 β2 (n + 1) * lr * d) w
        (List.zipWith (fun a b => a / (Real.sqrt b + eps)) m1 m2)
    else List.zipWith (fun x d => x + -radamStepSize β1 β2 (n + 1) * lr * d) w m1) with hw'
  have hnr : (st1.nrUpdate.get? k).getD 0 = n := by simp [hst1, i.nr, hn]
  obtain ⟨b1, b2⟩ := radamBuffered_ok hbuf (n + 1)
  have hau : radam cfg st1 k w e = ({ st1 with mom1 := st.mom1.set k m1, mom2 := st.mom2.set k m2, radamBuffer := (radamBuffered st.radamBuffer β1 β2 (n + 1)).1 }, w') := by
    simp only [radam, allocMissing_snd, hnr, (hb _ _ _).1, (hb _ _ _).2, allocMissing_set, hw]
    have e1 : (radamBuffered st1.radamBuffer β1 β2 (n + 1)).2.1 = _ := congrArg Prod.fst b2
    have e2 : (radamBuffered st1.radamBuffer β1 β2 (n + 1)).2.2 = _ := congrArg Prod.snd b2
    rw [e1, e2]
    simp only [radamNsma_eq, ge_iff_le]
    refine Prod.ext rfl ?_
    simp only [hw']
    by_cases h5 : 5 ≤ rho β2 (n + 1)
    · rw [if_pos h5, if_pos h5]
    · rw [if_neg h5, if_neg h5, if_pos (radamStepSize_pos h1 h2 hn1 h5)]
  set st2 : OptState κ := { st1 with mom1 := st.mom1.set k m1, mom2 := st.mom2.set k m2, radamBuffer := (radamBuffered st.radamBuffer β1 β2 (n + 1)).1 } with hst2
  have hcall : st.call cfg k rows w g lrScale = finishCall cfg st2 k w' e lrScale n := by
    rw [hcallb, i.nr]
    simp only [callBody, hra, hreg1, if_true]
    rw [hau]
  obtain ⟨f1, f2, f3, f4, f5⟩ := finishCall_moments cfg st2 k w' e lrScale n
  rw [← hcall] at f1 f2 f3 f4 f5
  have hej : ∀ j < d, e[j]? = some (e.getD j 0) := by
    intro j hj
    have : j < e.length := by omega
    simp [this]
  have hm1j : ∀ j < d, m1[j]? = some (expSum β1 ((E ++ [e]).map fun g => g.getD j 0)) := by
    intro j hj
    rw [List.map_append, List.map_singleton, expSum_snoc, hm1, getElem?_zipWith_some _ (i.m1 j hj) (hej j hj)]
    congr 2; ring
  have hm2j : ∀ j < d, m2[j]? = some (expSum β2 ((E ++ [e]).map fun g => g.getD j 0 ^ 2)) := by
    intro j hj
    rw [List.map_append, List.map_singleton, expSum_snoc, hm2,
      getElem?_zipWith_some _ (i.m2 j hj) (hej j hj)]
    congr 2; ring
  have l1 : m1.length = d := by rw [hm1, List.length_zipWith, i.len1, hregl, min_self]
  have l2 : m2.length = d := by rw [hm2, List.length_zipWith, i.len2, hregl, min_self]
  have lw : w'.length = d := by
    rw [hw']
    split <;> simp [l1, l2, hw]
  refine ⟨⟨?_, ?_, ?_, ?_, ?_⟩, ?_, ?_, ?_⟩
  · rw [f3]; simp [hst2, hst1, i.nr]
  · rw [f1]; simp [hst2, l1]
  · rw [f2]; simp [hst2, l2]
  · rw [f1]; simpa [hst2] using hm1j
  · rw [f2]; simpa [hst2] using hm2j
  · exact f4
  · show (st.call cfg k rows w g lrScale).2.weights.length = d
    rw [f5]; split <;> simp [lw]
  · intro j hj
    have hwj : w[j]? = some (w.getD j 0) := by
      have : j < w.length := by omega
      simp [this]
    have hlen : (E ++ [e]).length = n := by simp [hn]
    have hmain : w'.getD j 0 = w.getD j 0 - lr * radamStep β1 β2 eps (n + 1)
        (expSum β1 ((E ++ [e]).map fun g => g.getD j 0)) (expSum β2 ((E ++ [e]).map fun g => g.getD j 0 ^ 2)) := by
      by_cases h5 : 5 ≤ rho β2 (n + 1)
      · have hw'j := getElem?_zipWith_some (fun x d => x + -radamStepSize β1 β2 (n + 1) * lr * d) hwj
          (getElem?_zipWith_some (fun a b => a / (Real.sqrt b + eps)) (hm1j j hj) (hm2j j hj))
        rw [hw', if_pos h5, List.getD_eq_getElem?_getD, hw'j, Option.getD_some, radamStepSize_eq h1 h2 hn1, if_pos h5]
        unfold radamStep
        rw [if_pos h5]
        ring
      · have hw'j := getElem?_zipWith_some (fun x d => x + -radamStepSize β1 β2 (n + 1) * lr * d) hwj (hm1j j hj)
        rw [hw', if_neg h5, List.getD_eq_getElem?_getD, hw'j, Option.getD_some, radamStepSize_eq h1 h2 hn1, if_neg h5]
        unfold radamStep
        rw [if_neg h5]
        ring
    simp only [hlen]
    rw [show r.w.getD j 0 - cfg.learnRate r.step r.key r.lastScore * radamStep β1 β2 (cfg.eps r.step r.key r.lastScore) (n + 1)
        (expSum β1 ((E ++ [e]).map fun g => g.getD j 0)) (expSum β2 ((E ++ [e]).map fun g => g.getD j 0 ^ 2)) = w'.getD j 0 from hmain.symm]
    show (st.call cfg k rows w g lrScale).2.weights.getD j 0 = _
    replace f5 : (st.call cfg k rows w g lrScale).2.weights
      = if cfg.L2 st.step k st.lastScore ≠ 0 ∧ cfg.L2IsWeightDecay = true then
          w'.map fun x => x - lrScale * cfg.learnRate st.step k st.lastScore
            * cfg.L2 st.step k st.lastScore * x
        else w' := f5
    rw [f5]
    by_cases hwd : cfg.L2IsWeightDecay = true
    · by_cases hl2 : cfg.L2 st.step k st.lastScore = 0
      · simp [hl2, decayFactor, hwd, r]
      · have hw2 : w'[j]? = some (w'.getD j 0) := by
          have : j < w'.length := by omega
          simp [this]
        simp only [ne_eq, hl2, not_false_eq_true, hwd, and_self, if_true, decayFactor, r]
        rw [List.getD_eq_getElem?_getD, List.getElem?_map, hw2]
        simp only [Option.map_some, Option.getD_some]
        ring
    · simp [hwd, decayFactor]

theorem run_radam {cfg : OptCfg κ} (hra : cfg.useRadam = true) {β1 β2 : ℝ} (h1 : 0 ≤ β1 ∧ β1 < 1) (h2 : 0 ≤ β2 ∧ β2 < 1)
    {k : κ} (hb : ∀ s k sc, cfg.b1 s k sc = β1 ∧ cfg.b2 s k sc = β2) {d : Nat}
    (es : List (OptEvent κ))
    (hes : ∀ rows w g lr, OptEvent.call k rows w g lr ∈ es → 0 < rows ∧ w.length = d ∧ g.length = d)
    (st : OptState κ) (E : List Vec) (i : AdamInv β1 β2 k d E st) (hbuf : BufOk β1 β2 st.radamBuffer)
    (p : Nat) (r : CallRec κ)
    (hr : ((st.run cfg es).2.filter (fun r => decide (r.key = k)))[p]? = some r) :
    RadamResult cfg β1 β2 d
      (E ++ (((st.run cfg es).2.filter (fun r => decide (r.key = k))).take (p + 1)).map (effGrad cfg)) r := by
  induction es generalizing st E p with
  | nil => simp [OptState.run] at hr
  | cons e es ih =>
    have hes' : ∀ rows w g lr, OptEvent.call k rows w g lr ∈ es → 0 < rows ∧ w.length = d ∧ g.length = d :=
      fun rows w g lr h => hes rows w g lr (List.mem_cons_of_mem _ h)
    cases e with
    | stepSchedules =>
      exact ih hes' { st with step := st.step + 1 } E ⟨i.nr, i.len1, i.len2, i.m1, i.m2⟩ hbuf p hr
    | setScore x =>
      exact ih hes' { st with lastScore := some (st.step, x) } E ⟨i.nr, i.len1, i.len2, i.m1, i.m2⟩ hbuf p hr
    | call k' rows w g lr =>
      have hbuf' : BufOk β1 β2 (st.call cfg k' rows w g lr).1.radamBuffer :=
        (call_agree cfg (fun _ => hb) (Agree.refl k' st) (fun _ => hbuf) (fun _ => hbuf) rows w g lr).2.2 hra
      simp only [OptState.run, OptState.event, Option.toList_some, List.cons_append,
        List.nil_append] at hr ⊢
      by_cases hk : k' = k
      · subst hk
        obtain ⟨h3, h4, h5⟩ := hes rows w g lr List.mem_cons_self
        obtain ⟨i', res⟩ := i.radam_call hra h1 h2 hb hbuf h3 h4 h5 lr
        rw [List.filter_cons_of_pos (by simp)] at hr ⊢
        cases p with
        | zero =>
          simp only [List.getElem?_cons_zero, Option.some.injEq] at hr
          subst hr
          simpa using res
        | succ p =>
          rw [List.getElem?_cons_succ] at hr
          have := ih hes' _ _ i' hbuf' p hr
          simpa using this
      · rw [List.filter_cons_of_neg (by simpa using hk)] at hr ⊢
        exact ih hes' _ E (i.congr (call_other cfg hk st rows w g lr)) hbuf' p hr

/-- **C109 (partial).**  RAdam with the same constant betas for all keys: in every history, interleaved with any calls for other
keys, the `p`-th call for `k` (counted from 0) succeeds and computes, for every element, the published update from the
exponentially weighted sums of all (regularised and clipped) gradients seen so far and of their squares, followed by weight decay,
but with the corrections of step `p + 2`.
Missing from the full property: the published update has the corrections of step `p + 1`, and `lr_scale` should scale the step; see
`C109_first_step_violated` and `C109_lr_scale_violated`. -/
theorem C109_radam_partial (cfg : OptCfg κ) (hra : cfg.useRadam = true) {β1 β2 : ℝ} (h1 : 0 ≤ β1 ∧ β1 < 1) (h2 : 0 ≤ β2 ∧ β2 < 1)
    (hb : ∀ s k sc, cfg.b1 s k sc = β1 ∧ cfg.b2 s k sc = β2) (k : κ)
    (d : Nat) (useAverages : Bool) (es : List (OptEvent κ))
    (hes : ∀ rows w g lr, OptEvent.call k rows w g lr ∈ es → 0 < rows ∧ w.length = d ∧ g.length = d)
    (p : Nat) (r : CallRec κ)
    (hr : (((OptState.init useAverages).run cfg es).2.filter (fun r => decide (r.key = k)))[p]?
      = some r) :
    let calls := ((OptState.init useAverages).run cfg es).2.filter (fun r => decide (r.key = k))
    let grads := (calls.take (p + 1)).map (effGrad cfg)
    r.res.exc = none ∧ r.res.weights.length = d ∧ ∀ j < d,
      let m := expSum β1 (grads.map fun g => g.getD j 0)
      let v := expSum β2 (grads.map fun g => g.getD j 0 ^ 2)
      r.res.weights.getD j 0 = (r.w.getD j 0 - cfg.learnRate r.step r.key r.lastScore *
          radamStep β1 β2 (cfg.eps r.step r.key r.lastScore) (p + 2) m v) * decayFactor cfg r := by
  intro calls grads
  have hz : ∀ (b : ℝ) (f : Vec → ℝ) (j : Nat), j < d →
      (List.replicate d (0:ℝ))[j]? = some (expSum b (([] : List Vec).map f)) := by
    intro b f j hj
    simp [hj, expSum]
  have := run_radam hra h1 h2 hb es hes (OptState.init useAverages) []
    ⟨rfl, by simp [OptState.init], by simp [OptState.init],
      fun j hj => hz β1 _ j hj,
      fun j hj => hz β2 _ j hj⟩ (by intro i n a b h; simp [OptState.init] at h) p r hr
  obtain ⟨h3, h4, h5⟩ := this
  refine ⟨h3, h4, fun j hj => ?_⟩
  have h := h5 j hj
  have hlen : grads.length = p + 1 := by
    have : p < calls.length := (List.getElem?_eq_some_iff.1 hr).1
    simp [grads]; omega
  simp only [List.nil_append] at h
  change _ = (_ - _ * radamStep _ _ _ (grads.length + 1) _ _) * _ at h
  rw [hlen] at h
  exact h

/-- An RAdam configuration with the default betas, learning rate 1, no regularisation and no clipping. -/
noncomputable def exRadam : OptCfg Nat where
  learnRate _ _ _ := 1
  b1 _ _ _ := 9 / 10
  b2 _ _ _ := 999 / 1000
  eps _ _ _ := 1
  L2 _ _ _ := 0
  gradClip _ _ _ := 0
  useRadam := true
  L2IsWeightDecay := true

-- `C109_radam_partial` applies to two calls for one parameter with a call for another between them.
example : ∃ r, (((OptState.init true).run exRadam [.call 0 1 [0] [1] 1, .call 1 2 [0, 3] [1, 2] 1, .stepSchedules,
      .call 0 1 [0] [1] 1]).2.filter (fun r => decide (r.key = 0)))[1]? = some r ∧ r.res.exc = none := by
  have hr : ∃ r, (((OptState.init true).run exRadam [.call 0 1 [0] [1] 1, .call 1 2 [0, 3] [1, 2] 1, .stepSchedules,
      .call 0 1 [0] [1] 1]).2.filter (fun r => decide (r.key = 0)))[1]? = some r := by
    simp [OptState.run, OptState.event]
  obtain ⟨r, hr⟩ := hr
  refine ⟨r, hr, (C109_radam_partial (β1 := 9 / 10) (β2 := 999 / 1000) exRadam rfl (by norm_num) (by norm_num)
    (fun _ _ _ => ⟨rfl, rfl⟩) 0 1 true _ ?_ 1 r hr).1⟩
  intro rows w g lr h
  simp only [List.mem_cons, OptEvent.call.injEq, reduceCtorEq, List.not_mem_nil, or_false, false_or] at h
  rcases h with ⟨-, rfl, rfl, rfl, -⟩ | ⟨h, -⟩ | ⟨-, rfl, rfl, rfl, -⟩
  · simp
  · cases h
  · simp

theorem expSum_one (b x : ℝ) : expSum b [x] = (1 - b) * x := by simp [expSum]

/-- **C109, violated.**  The first update of the published algorithm moves a weight by the learning rate times the gradient; the
code moves it by only 10/19 of that with the default betas. -/
theorem C109_first_step_violated :
    (((OptState.init true).run exRadam [.call 0 1 [0] [1] 1]).2.map fun r => r.res.weights) = [[-(10 / 19)]] ∧
    (0 : ℝ) - 1 * radamStep (9 / 10) (999 / 1000) 1 1 (expSum (9 / 10) [1]) (expSum (999 / 1000) [1 ^ 2]) = -1 := by
  constructor
  · have hrun : ((OptState.init true).run exRadam [.call 0 1 [0] [1] 1]).2 =
        [⟨0, none, 0, 1, [0], [1], 1, ((OptState.init true).call exRadam 0 1 [0] [1] 1).2⟩] := rfl
    have hf : (((OptState.init true).run exRadam [.call 0 1 [0] [1] 1]).2.filter (fun r => decide (r.key = 0))) =
        [⟨0, none, 0, 1, [0], [1], 1, ((OptState.init true).call exRadam 0 1 [0] [1] 1).2⟩] := rfl
    obtain ⟨-, h2, h3⟩ := C109_radam_partial (β1 := 9 / 10) (β2 := 999 / 1000) exRadam rfl (by norm_num) (by norm_num)
      (fun _ _ _ => ⟨rfl, rfl⟩) 0 1 true [.call 0 1 [0] [1] 1] (by
        intro rows w g lr h
        simp only [List.mem_cons, OptEvent.call.injEq, List.not_mem_nil, or_false] at h
        obtain ⟨-, rfl, rfl, rfl, -⟩ := h
        simp) 0 _ (by rw [hf]; rfl)
    have h3 := h3 0 (by norm_num)
    rw [hrun]
    have h5 : ¬ 5 ≤ rho (999 / 1000) 2 := by
      unfold rho rhoInf
      norm_num
    have he : effGrad exRadam ⟨0, none, 0, 1, [0], [1], 1, ((OptState.init true).call exRadam 0 1 [0] [1] 1).2⟩ = [1] := by
      simp [effGrad, exRadam]
    rw [hf] at h3
    simp only [List.take_succ_cons, List.take_zero, List.map_cons, List.map_nil, he] at h3
    simp only [List.map_cons, List.map_nil]
    congr 1
    revert h2 h3
    generalize ((OptState.init true).call exRadam 0 1 [0] [1] 1).2.weights = W
    intro h2 h3
    obtain ⟨x, rfl⟩ := List.length_eq_one_iff.1 h2
    simp only [List.getD_cons_zero, radamStep, if_neg h5, expSum_one, decayFactor, exRadam, if_true] at h3
    rw [h3]
    norm_num
  · have h5 : ¬ 5 ≤ rho (999 / 1000) 1 := by
      rw [(C109_phases (by norm_num)).1]
      norm_num
    unfold radamStep
    rw [if_neg h5, expSum_one]
    norm_num

/-- **C109, violated.**  The learning rate scale of a call does not change the step of RAdam: with weight decay off, a call returns the
same weights for all scales. -/
theorem C109_lr_scale_violated (cfg : OptCfg κ) (hra : cfg.useRadam = true) (hL : ∀ s k sc, cfg.L2 s k sc = 0)
    (st : OptState κ) (k : κ) (rows : Nat) (w g : Vec) (a b : ℝ) :
    (st.call cfg k rows w g a).2.weights = (st.call cfg k rows w g b).2.weights := by
  unfold OptState.call
  split
  · rfl
  · simp only [callBody, hra, if_true, finishCall_moments, hL]
    simp

example : ((OptState.init false).call exRadam 0 1 [0] [1] 1000).2.weights = ((OptState.init false).call exRadam 0 1 [0] [1] 1).2.weights :=
  C109_lr_scale_violated exRadam rfl (fun _ _ _ => rfl) _ 0 1 [0] [1] 1000 1

end Thinc
