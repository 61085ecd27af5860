import Verif.Props.Optimizer
/-!
# C21: parameter averages; a worked history for C20
-/
namespace Thinc
variable {κ : Type} [DecidableEq κ]

namespace Spec

/-- The decay used at update number `t` (from 1). -/
noncomputable def decayAt (t : Nat) : ℝ := min ((1 + t) / (10 + t)) 0.9999

/-- The weight of the `i`-th of `n` seen values (from 0) in the average. -/
noncomputable def avgCoeff (n i : Nat) : ℝ :=
  (1 - decayAt (i + 1)) * ∏ t ∈ Finset.Ico (i + 1) n, decayAt (t + 1)

/-- The weighted sum of the seen values. -/
noncomputable def avgSum (xs : List ℝ) : ℝ :=
  ∑ i ∈ Finset.range xs.length, avgCoeff xs.length i * xs.getD i 0

end Spec
open Spec

theorem avgDecay_eq (t : Nat) : avgDecay t = decayAt t := by
  simp only [avgDecay, decayAt]
  split
  · next h => rw [min_eq_right h.le]
  · next h => rw [min_eq_left (not_lt.1 h)]

theorem decayAt_pos (t : Nat) : 0 < decayAt t := lt_min (by positivity) (by norm_num)
theorem decayAt_lt (t : Nat) : decayAt t ≤ 0.9999 := min_le_right _ _

theorem avgCoeff_nonneg (n i : Nat) : 0 ≤ avgCoeff n i := by
  unfold avgCoeff
  have := decayAt_lt (i + 1)
  exact mul_nonneg (by norm_num at this ⊢; linarith)
    (Finset.prod_nonneg fun t _ => (decayAt_pos _).le)

theorem avgCoeff_succ {n i : Nat} (h : i < n) : avgCoeff (n + 1) i = avgCoeff n i * decayAt (n + 1) := by
  unfold avgCoeff
  rw [Finset.prod_Ico_succ_top (by omega)]; ring

theorem avgCoeff_self (n : Nat) : avgCoeff (n + 1) n = 1 - decayAt (n + 1) := by simp [avgCoeff]

theorem avgSum_snoc (xs : List ℝ) (x : ℝ) :
    avgSum (xs ++ [x]) = avgSum xs - (1 - decayAt (xs.length + 1)) * (avgSum xs - x) := by
  unfold avgSum
  rw [List.length_append, List.length_singleton, Finset.sum_range_succ]
  have : ∑ i ∈ Finset.range xs.length, avgCoeff (xs.length + 1) i * (xs ++ [x]).getD i 0
      = (∑ i ∈ Finset.range xs.length, avgCoeff xs.length i * xs.getD i 0) * decayAt (xs.length + 1) := by
    rw [Finset.sum_mul]
    apply Finset.sum_congr rfl
    intro i hi
    have hi := Finset.mem_range.1 hi
    rw [avgCoeff_succ hi]
    simp [List.getElem?_append_left hi]
    ring
  rw [this, avgCoeff_self]
  simp
  ring

/-- The coefficients are non-negative and add up to 1 minus what is left of the initial zero. -/
theorem avgCoeff_sum (n : Nat) :
    ∑ i ∈ Finset.range n, avgCoeff n i = 1 - ∏ t ∈ Finset.range n, decayAt (t + 1) := by
  induction n with
  | zero => simp
  | succ n ih =>
    rw [Finset.sum_range_succ, Finset.prod_range_succ, avgCoeff_self]
    have : ∑ i ∈ Finset.range n, avgCoeff (n + 1) i
        = (∑ i ∈ Finset.range n, avgCoeff n i) * decayAt (n + 1) := by
      rw [Finset.sum_mul]
      exact Finset.sum_congr rfl fun i hi => avgCoeff_succ (Finset.mem_range.1 hi)
    rw [this, ih]; ring

theorem finishCall_avg (cfg : OptCfg κ) (st : OptState κ) (k : κ) (w g : Vec) (lr : ℝ) (n : Nat)
    {A : PyDict κ Vec} (hA : st.averages = some A) :
    (finishCall cfg st k w g lr n).1.averages = some (A.set k
      (updateAverages ((A.get? k).getD
        (List.replicate (finishCall cfg st k w g lr n).2.weights.length 0))
        (finishCall cfg st k w g lr n).2.weights n)) := by
  unfold finishCall
  rw [hA]
  simp only [allocMissing_set, allocMissing_snd]

theorem callBody_avg (cfg : OptCfg κ) (st : OptState κ) (k : κ) (w g : Vec) (lr : ℝ) (n : Nat)
    {A : PyDict κ Vec} (hA : st.averages = some A) (h : (callBody cfg st k w g lr n).2.exc = none) :
    (callBody cfg st k w g lr n).1.averages = some (A.set k
      (updateAverages ((A.get? k).getD
        (List.replicate (callBody cfg st k w g lr n).2.weights.length 0))
        (callBody cfg st k w g lr n).2.weights n)) := by
  unfold callBody at h ⊢
  revert h
  generalize regularised cfg st k w g = g
  simp only
  split
  · intro _; exact finishCall_avg cfg _ k _ g lr n hA
  · split
    · have ha : (adamUpdate cfg st k w g lr n).1.averages = st.averages := by
        simp only [adamUpdate]; generalize adam w g _ _ _ _ _ _ = r; cases r <;> rfl
      rcases hx : adamUpdate cfg st k w g lr n with ⟨s1, r1⟩
      rw [hx] at ha
      cases r1 with
      | error e => intro h; cases h
      | ok w' => intro _; exact finishCall_avg cfg _ k _ g lr n (ha.trans hA)
    · split
      · intro h; cases h
      · intro _; exact finishCall_avg cfg _ k _ g lr n hA

/-- The average of key `k` (zeros if there is none yet) is the weighted sum of the weights `W`. -/
structure AvgInv (k : κ) (d : Nat) (W : List Vec) (st : OptState κ) : Prop where
  nr : (st.nrUpdate.get? k).getD 0 = W.length
  avg : ∃ A, st.averages = some A ∧ ((A.get? k).getD (List.replicate d 0)).length = d ∧
    (W ≠ [] → (A.get? k).isSome) ∧
    ∀ j < d, ((A.get? k).getD (List.replicate d 0))[j]? = some (avgSum (W.map fun w => w.getD j 0))

theorem AvgInv.congr {k : κ} {d : Nat} {W : List Vec} {s t : OptState κ}
    (i : AvgInv k d W s) (a : Agree k t s) : AvgInv k d W t := by
  obtain ⟨A, hA, h1, h2, h3⟩ := i.avg
  have := a.avg
  rw [hA] at this
  cases ht : t.averages with
  | none => rw [ht] at this; cases this
  | some B =>
    rw [ht] at this
    simp only [Option.map_some, Option.some.injEq] at this
    exact ⟨by rw [a.nr]; exact i.nr, B, ht, by rw [this]; exact h1, by rw [this]; exact h2,
      by rw [this]; exact h3⟩

theorem AvgInv.call {cfg : OptCfg κ} {k : κ} {d : Nat} {W : List Vec} {st : OptState κ}
    (i : AvgInv k d W st) {rows : Nat} (hrows : 0 < rows) (w g : Vec) (lr : ℝ)
    (he : (st.call cfg k rows w g lr).2.exc = none)
    (hl : (st.call cfg k rows w g lr).2.weights.length = d) :
    AvgInv k d (W ++ [(st.call cfg k rows w g lr).2.weights]) (st.call cfg k rows w g lr).1 := by
  have hn : ¬ rows < 1 := by omega
  simp only [OptState.call, hn, if_false] at he hl ⊢
  obtain ⟨A, hA, h1, h2, h3⟩ := i.avg
  have hav := callBody_avg cfg { st with nrUpdate := st.nrUpdate.set k ((st.nrUpdate.get? k).getD 0 + 1) }
    k w g lr ((st.nrUpdate.get? k).getD 0 + 1) hA he
  rw [hl] at hav
  set w' := (callBody cfg { st with nrUpdate := st.nrUpdate.set k ((st.nrUpdate.get? k).getD 0 + 1) }
    k w g lr ((st.nrUpdate.get? k).getD 0 + 1)).2.weights with hw'
  refine ⟨by rw [callBody_nr]; simp [i.nr], _, hav, ?_, fun _ => by simp, fun j hj => ?_⟩
  · simp [updateAverages, h1, hl]
  · have hwj : w'[j]? = some (w'.getD j 0) := by
      have : j < w'.length := by omega
      simp [this]
    rw [PyDict.get?_set_self, Option.getD_some]
    have := getElem?_zipWith_some
      (fun e w => e - (1 - avgDecay ((st.nrUpdate.get? k).getD 0 + 1)) * (e - w)) (h3 j hj) hwj
    rw [updateAverages, this, List.map_append, List.map_singleton, avgSum_snoc, avgDecay_eq, i.nr,
      List.length_map]

theorem run_avg (cfg : OptCfg κ) {k : κ} {d : Nat} (es : List (OptEvent κ)) (st : OptState κ)
    (W : List Vec) (i : AvgInv k d W st)
    (hes : ∀ r ∈ (st.run cfg es).2.filter (fun r => decide (r.key = k)),
      0 < r.rows ∧ r.res.exc = none ∧ r.res.weights.length = d) :
    AvgInv k d (W ++ ((st.run cfg es).2.filter (fun r => decide (r.key = k))).map (fun r => r.res.weights))
      (st.run cfg es).1 := by
  induction es generalizing st W with
  | nil => simpa [OptState.run] using i
  | cons e es ih =>
    cases e with
    | stepSchedules => exact ih { st with step := st.step + 1 } W ⟨i.nr, i.avg⟩ hes
    | setScore x => exact ih { st with lastScore := some (st.step, x) } W ⟨i.nr, i.avg⟩ hes
    | call k' rows w g lr =>
      simp only [OptState.run, OptState.event, Option.toList_some, List.cons_append,
        List.nil_append] at hes ⊢
      by_cases hk : k' = k
      · subst hk
        rw [List.filter_cons_of_pos (by simp)] at hes ⊢
        obtain ⟨h1, h2, h3⟩ := hes _ List.mem_cons_self
        have := ih _ _ (i.call h1 w g lr h2 h3) (fun r hr => hes r (List.mem_cons_of_mem _ hr))
        simpa using this
      · rw [List.filter_cons_of_neg (by simpa using hk)] at hes ⊢
        exact ih _ W (i.congr (call_other cfg hk st rows w g lr)) hes

/-- With `use_averages`, after any history in which the calls for key `k` succeeded, and there was at
least one, the average kept for `k` is, in every element, a weighted sum of the weights returned by
those calls, with non-negative coefficients that add up to `1 - ∏ decay`.  So it is a convex
combination of the weights seen and of the initial zero, and lies between their bounds.
Missing from the full property: the initial zero has a positive coefficient (see
`C21_constant_not_reproduced`); `C21_zero_fades` bounds it. -/
theorem C21_average_partial (cfg : OptCfg κ) (k : κ) (d : Nat) (es : List (OptEvent κ))
    (hes : ∀ r ∈ ((OptState.init true).run cfg es).2.filter (fun r => decide (r.key = k)),
      0 < r.rows ∧ r.res.exc = none ∧ r.res.weights.length = d)
    (hne : ((OptState.init true).run cfg es).2.filter (fun r => decide (r.key = k)) ≠ []) :
    let seen := (((OptState.init true).run cfg es).2.filter (fun r => decide (r.key = k))).map
      (fun r => r.res.weights)
    ∃ A avg, ((OptState.init true).run cfg es).1.averages = some A ∧ A.get? k = some avg ∧
      avg.length = d ∧ ∃ c : Nat → ℝ, (∀ i, 0 ≤ c i) ∧
        ∑ i ∈ Finset.range seen.length, c i
          = 1 - ∏ t ∈ Finset.range seen.length, decayAt (t + 1) ∧
        ∀ j < d, avg.getD j 0 = ∑ i ∈ Finset.range seen.length, c i * (seen.getD i []).getD j 0 ∧
          (∀ lo hi, lo ≤ 0 → 0 ≤ hi → (∀ v ∈ seen, lo ≤ v.getD j 0 ∧ v.getD j 0 ≤ hi) →
            lo ≤ avg.getD j 0 ∧ avg.getD j 0 ≤ hi) := by
  intro seen
  have i := run_avg cfg es (OptState.init true) ([] : List Vec)
    (k := k) (d := d) ⟨rfl, [], rfl, by simp, by simp, fun j hj => by simp [hj, avgSum]⟩ hes
  rw [List.nil_append] at i
  obtain ⟨A, hA, h1, h2, h3⟩ := i.avg
  obtain ⟨avg, havg⟩ := Option.isSome_iff_exists.1 (h2 (by simpa using hne))
  rw [havg, Option.getD_some] at h1
  refine ⟨A, avg, hA, havg, h1, avgCoeff seen.length, avgCoeff_nonneg _, avgCoeff_sum _,
    fun j hj => ?_⟩
  have hj' := h3 j hj
  rw [havg, Option.getD_some] at hj'
  have heq : avg.getD j 0 = ∑ i ∈ Finset.range seen.length, avgCoeff seen.length i * (seen.getD i []).getD j 0 := by
    rw [List.getD_eq_getElem?_getD, hj', Option.getD_some, avgSum, List.length_map]
    apply Finset.sum_congr rfl
    intro i hi
    have hi := Finset.mem_range.1 hi
    congr 1
    show (List.map _ seen).getD i 0 = _
    simp [show i < seen.length from hi]
  refine ⟨heq, fun lo hi hlo hhi hb => ?_⟩
  rw [heq]
  have hsum := avgCoeff_sum seen.length
  have hprod : 0 ≤ ∏ t ∈ Finset.range seen.length, decayAt (t + 1) :=
    Finset.prod_nonneg fun t _ => (decayAt_pos _).le
  have hbi : ∀ i ∈ Finset.range seen.length, lo ≤ (seen.getD i []).getD j 0 ∧ (seen.getD i []).getD j 0 ≤ hi := by
    intro i hi'
    have hi' := Finset.mem_range.1 hi'
    have : seen.getD i [] ∈ seen := by simp [hi']
    exact hb _ this
  constructor
  · have : ∑ i ∈ Finset.range seen.length, avgCoeff seen.length i * lo
        ≤ ∑ i ∈ Finset.range seen.length, avgCoeff seen.length i * (seen.getD i []).getD j 0 :=
      Finset.sum_le_sum fun i hi' => mul_le_mul_of_nonneg_left (hbi i hi').1 (avgCoeff_nonneg _ _)
    rw [← Finset.sum_mul, hsum] at this
    nlinarith
  · have : ∑ i ∈ Finset.range seen.length, avgCoeff seen.length i * (seen.getD i []).getD j 0
        ≤ ∑ i ∈ Finset.range seen.length, avgCoeff seen.length i * hi :=
      Finset.sum_le_sum fun i hi' => mul_le_mul_of_nonneg_left (hbi i hi').2 (avgCoeff_nonneg _ _)
    rw [← Finset.sum_mul, hsum] at this
    nlinarith

/-- The coefficient of the initial zero after `n` updates is positive but at most `0.9999 ^ n`. -/
theorem C21_zero_fades (n : Nat) :
    0 < ∏ t ∈ Finset.range n, decayAt (t + 1) ∧
    ∏ t ∈ Finset.range n, decayAt (t + 1) ≤ 0.9999 ^ n := by
  refine ⟨Finset.prod_pos fun t _ => decayAt_pos _, ?_⟩
  calc ∏ t ∈ Finset.range n, decayAt (t + 1) ≤ ∏ _t ∈ Finset.range n, (0.9999 : ℝ) :=
        Finset.prod_le_prod (fun t _ => (decayAt_pos _).le) fun t _ => decayAt_lt _
    _ = 0.9999 ^ n := by simp

/-- Plain SGD with a zero learning rate. -/
noncomputable def exSgdCfg (lr : ℝ) : OptCfg Nat where
  learnRate _ _ _ := lr
  b1 _ _ _ := 0
  b2 _ _ _ := 0
  eps _ _ _ := 1
  L2 _ _ _ := 0
  gradClip _ _ _ := 0
  useRadam := false
  L2IsWeightDecay := true

/-- Constant weights are not reproduced by the average: weights that stay at 11 have the average 9
after the first update. -/
theorem C21_constant_not_reproduced :
    let out := (OptState.init true).run (exSgdCfg 0) [.call 0 1 [11] [1] 1]
    out.2.map (fun r => r.res.weights) = [[11]] ∧
    out.1.averages.map (fun A => A.get? 0) = some (some [9]) := by
  constructor
  · simp [OptState.run, OptState.event, OptState.call, callBody, regularised, exSgdCfg,
      OptState.init, allocMissing, finishCall]
  · simp [OptState.run, OptState.event, OptState.call, callBody, regularised, exSgdCfg,
      OptState.init, allocMissing, finishCall, updateAverages, avgDecay_eq, decayAt, PyDict.get?,
      PyDict.set]
    norm_num

/-- The hypotheses of `C21_average_partial` are met by that run. -/
example : ∀ r ∈ ((OptState.init true).run (exSgdCfg 0) [.call 0 1 [11] [1] 1]).2.filter
    (fun r => decide (r.key = 0)), 0 < r.rows ∧ r.res.exc = none ∧ r.res.weights.length = 1 := by
  simp [OptState.run, OptState.event, OptState.call, callBody, regularised, exSgdCfg,
      OptState.init, allocMissing, finishCall]

/-- An Adam configuration, for the hypotheses of `C20_adam`. -/
noncomputable def exAdamCfg : OptCfg Nat :=
  { exSgdCfg 1 with b1 := fun _ _ _ => 1/2, b2 := fun _ _ _ => 1/2, L2 := fun _ _ _ => 1/4 }

/-- `C20_adam` applied to a history with two keys: the second call for key 0 takes its step from the
weighted sums of both gradients. -/
example : ∃ r, (((OptState.init true).run exAdamCfg
      [.call 0 1 [1, 2] [1, 0] 1, .call 1 1 [5] [5] 1, .stepSchedules, .call 0 1 [3, 4] [0, 2] 1]).2.filter
        (fun r => decide (r.key = 0)))[1]? = some r ∧
    r.res.weights.getD 0 0 = (3 - Real.sqrt (3/4) / (3/4) * ((1/4) / (Real.sqrt (1/4) + 1))) * (3/4) := by
  have hrun : ∃ r, (((OptState.init true).run exAdamCfg
      [.call 0 1 [1, 2] [1, 0] 1, .call 1 1 [5] [5] 1, .stepSchedules, .call 0 1 [3, 4] [0, 2] 1]).2.filter
        (fun r => decide (r.key = 0)))[1]? = some r ∧ r.w = [3, 4] ∧ r.lrScale = 1 := by
    simp [OptState.run, OptState.event]
  obtain ⟨r, hr, hw, hlr⟩ := hrun
  refine ⟨r, hr, ?_⟩
  have h := (C20_adam exAdamCfg rfl (1/2) (1/2) (by norm_num) (by norm_num) 0 (fun _ _ => ⟨rfl, rfl⟩) 2
    true _ (by
      intro rows w g lr h
      simp at h
      rcases h with ⟨rfl, rfl, rfl, rfl⟩ | ⟨rfl, rfl, rfl, rfl⟩ <;> simp) 1 r hr).2.2 0 (by norm_num)
  simp only [hw, hlr] at h
  rw [h]
  simp [OptState.run, OptState.event, effGrad, exAdamCfg, exSgdCfg, expSum, Finset.sum_range_succ,
    decayFactor, hlr]
  norm_num
  have h4 : Real.sqrt 4 = 2 := by rw [show (4 : ℝ) = 2 ^ 2 by norm_num, Real.sqrt_sq (by norm_num)]
  rw [← mul_inv, Real.mul_self_sqrt (by norm_num), h4]

end Thinc
