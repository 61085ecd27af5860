import Verif.Lemmas.Optimizer
import Mathlib.Algebra.BigOperators.Intervals
import Mathlib.Algebra.Order.BigOperators.Ring.Finset
/-!
# C17 - C21: optimizers
-/
namespace Thinc
variable {κ : Type} [DecidableEq κ]

/-! ### C17 -/

/-- The event is not a call for a key other than `k`. -/
def Spec.concerns (k : κ) : OptEvent κ → Bool
  | .call k' _ _ _ _ => decide (k' = k)
  | _ => true

theorem run_agree (cfg : OptCfg κ) {β1 β2 : ℝ} (hc : ConstBetas cfg β1 β2) (k : κ)
    (es : List (OptEvent κ)) (s t : OptState κ) (a : Agree k s t)
    (hs : cfg.useRadam = true → BufOk β1 β2 s.radamBuffer)
    (ht : cfg.useRadam = true → BufOk β1 β2 t.radamBuffer) :
    (s.run cfg es).2.filter (fun r => decide (r.key = k))
      = (t.run cfg (es.filter (Spec.concerns k))).2 := by
  induction es generalizing s t with
  | nil => rfl
  | cons e es ih =>
    cases e with
    | stepSchedules =>
      simp only [OptState.run, OptState.event, Option.toList_none, List.nil_append]
      exact ih _ _ ⟨by simp [a.step], a.score, a.m1, a.m2, a.avg, a.nr⟩ hs ht
    | setScore x =>
      simp only [OptState.run, OptState.event, Option.toList_none, List.nil_append]
      exact ih _ _ ⟨a.step, by simp [a.step], a.m1, a.m2, a.avg, a.nr⟩ hs ht
    | call k' rows w g lr =>
      by_cases hk : k' = k
      · subst hk
        obtain ⟨h1, h2, h3⟩ := call_agree cfg hc a hs ht rows w g lr
        obtain ⟨_, _, h4⟩ := call_agree cfg hc a.symm ht hs rows w g lr
        have hcons : (OptEvent.call k' rows w g lr :: es).filter (Spec.concerns k')
            = .call k' rows w g lr :: es.filter (Spec.concerns k') := by
          rw [List.filter_cons_of_pos]; simp [Spec.concerns]
        rw [hcons]
        simp only [OptState.run, OptState.event, Option.toList_some, List.cons_append,
          List.nil_append]
        rw [List.filter_cons_of_pos (by simp), ih _ _ h2 h3 h4, h1, a.step, a.score]
      · have ho := call_other cfg hk s rows w g lr
        have hb : cfg.useRadam = true → BufOk β1 β2 (s.call cfg k' rows w g lr).1.radamBuffer :=
          fun hr => (call_agree cfg hc (Agree.refl k' s) hs hs rows w g lr).2.2 hr
        have hcons : (OptEvent.call k' rows w g lr :: es).filter (Spec.concerns k)
            = es.filter (Spec.concerns k) := by
          rw [List.filter_cons_of_neg]; simp [Spec.concerns, hk]
        rw [hcons]
        simp only [OptState.run, OptState.event, Option.toList_some, List.cons_append,
          List.nil_append]
        rw [List.filter_cons_of_neg (by simpa using hk)]
        exact ih _ _ (ho.trans a) hb ht

/-- In every history of calls, schedule steps and scores, what the calls for key `k` return and do to
their arrays is exactly what they would return and do if all calls for other keys were left out.
This covers SGD and Adam with any schedules, and RAdam with constant betas.
Missing from the full property: RAdam with betas that change (see `C17_radam_shared_buffer`). -/
theorem C17_per_parameter_partial (cfg : OptCfg κ) (useAverages : Bool)
    (hr : cfg.useRadam = true → ∃ β1 β2, ∀ s k sc, cfg.b1 s k sc = β1 ∧ cfg.b2 s k sc = β2)
    (k : κ) (es : List (OptEvent κ)) :
    ((OptState.init useAverages).run cfg es).2.filter (fun r => decide (r.key = k))
      = ((OptState.init useAverages).run cfg (es.filter (Spec.concerns k))).2 := by
  by_cases hra : cfg.useRadam = true
  · obtain ⟨β1, β2, h⟩ := hr hra
    exact run_agree cfg (fun _ => h) k es _ _ (Agree.refl k _)
      (fun _ => by intro i n a b h; simp [OptState.init] at h)
      (fun _ => by intro i n a b h; simp [OptState.init] at h)
  · exact run_agree (β1 := 0) (β2 := 0) cfg (fun h => absurd h hra) k es _ _ (Agree.refl k _)
      (fun h => absurd h hra) (fun h => absurd h hra)

/-- An RAdam configuration whose first beta changes after the first step. -/
noncomputable def exRadamCfg : OptCfg Nat where
  learnRate _ _ _ := 1
  b1 s _ _ := if s = 0 then 1/2 else 1/4
  b2 _ _ _ := 1/2
  eps _ _ _ := 1
  L2 _ _ _ := 0
  gradClip _ _ _ := 0
  useRadam := true
  L2IsWeightDecay := true

theorem radamNsma_half : radamNsma (1/2) 2 = 5/3 := by unfold radamNsma; norm_num

theorem radamStepSize_half (b : ℝ) : radamStepSize b (1/2) 2 = 1 / (1 - b ^ 2) := by
  unfold radamStepSize; simp only [radamNsma_half]; norm_num

/-- With RAdam and a changing beta, a call for one key changes what a later call for another key
returns: both read the same buffer slot, which is only refreshed when the update count differs. -/
theorem C17_radam_shared_buffer :
    let call0 : OptEvent Nat := .call 0 1 [0] [1] 1
    let call1 : OptEvent Nat := .call 1 1 [0] [1] 1
    let with0 := ((OptState.init false).run exRadamCfg [call0, .stepSchedules, call1]).2
    let without0 := ((OptState.init false).run exRadamCfg [.stepSchedules, call1]).2
    (with0.filter (fun r => decide (r.key = 1))).map (fun r => r.res.weights) = [[-1]] ∧
    without0.map (fun r => r.res.weights) = [[-(4/5)]] := by
  have n1 : (1 + 1) % 10 = 2 := rfl
  constructor
  · simp [OptState.run, OptState.event, OptState.call, callBody, regularised, exRadamCfg,
      radam, OptState.init, allocMissing, radamBuffered, finishCall, PyDict.get?, PyDict.set]
    rw [show (2 : ℝ)⁻¹ = 1 / 2 by norm_num, radamNsma_half, radamStepSize_half]
    norm_num
  · simp [OptState.run, OptState.event, OptState.call, callBody, regularised, exRadamCfg,
      radam, OptState.init, allocMissing, radamBuffered, finishCall, PyDict.get?, PyDict.set]
    rw [show (2 : ℝ)⁻¹ = 1 / 2 by norm_num, radamNsma_half, radamStepSize_half]
    norm_num

/-! ### C18 -/

/-- What every call does to the gradient and to the update counts, from any optimizer state (so after
any history).  With an empty gradient nothing at all changes.  Otherwise the count of the key goes up
by one and no other count changes, and if the call returns, the gradient is zero everywhere. -/
theorem C18_consumes_gradient (cfg : OptCfg κ) (st : OptState κ) (key : κ) (rows : Nat) (w g : Vec)
    (hwg : w.length = g.length) (lrScale : ℝ) :
    (rows = 0 → st.call cfg key rows w g lrScale = (st, ⟨w, g, none⟩)) ∧
    (0 < rows →
      ((st.call cfg key rows w g lrScale).1.nrUpdate.get? key).getD 0
        = (st.nrUpdate.get? key).getD 0 + 1 ∧
      (∀ k, k ≠ key → (st.call cfg key rows w g lrScale).1.nrUpdate.get? k = st.nrUpdate.get? k) ∧
      ((st.call cfg key rows w g lrScale).2.exc = none →
        (st.call cfg key rows w g lrScale).2.gradient = List.replicate g.length 0)) := by
  constructor
  · rintro rfl; simp [OptState.call]
  · intro h
    have hn : ¬ rows < 1 := by omega
    simp only [OptState.call, hn, if_false, callBody_nr]
    refine ⟨by simp, fun k hk => by simp [get?_set', hk], fun he => ?_⟩
    rw [callBody_grad _ _ _ _ _ _ _ he, regularised_length _ _ _ _ _ hwg]

/-- A call raises only for the unsupported combination `b1 <= 0 < b2` without RAdam, or when an
array's length differs from the moments kept for that key. -/
theorem C18_when_it_raises (cfg : OptCfg κ) (st : OptState κ) (key : κ) (rows : Nat) (w g : Vec)
    (lrScale : ℝ) (hwg : w.length = g.length) (e : PyErr)
    (h : (st.call cfg key rows w g lrScale).2.exc = some e) :
    cfg.useRadam = false ∧
    ((e = .notImplementedError ∧ cfg.b1 st.step key st.lastScore ≤ 0 ∧
        0 < cfg.b2 st.step key st.lastScore) ∨
      (e = .valueError ∧ ((∃ m, st.mom1.get? key = some m ∧ m.length ≠ w.length) ∨
        ∃ m, st.mom2.get? key = some m ∧ m.length ≠ w.length))) := by
  have hf (st : OptState κ) (w g : Vec) (n) : (finishCall cfg st key w g lrScale n).2.exc = none := by
    unfold finishCall; cases st.averages <;> rfl
  unfold OptState.call at h
  split at h
  · cases h
  simp only [callBody] at h
  split at h
  · rw [hf] at h; cases h
  next hra =>
    refine ⟨by simpa using hra, ?_⟩
    split at h
    · next hb =>
      right
      have hl := regularised_length cfg { st with nrUpdate := st.nrUpdate.set key ((st.nrUpdate.get? key).getD 0 + 1) } key w g hwg
      revert h
      generalize regularised cfg _ key w g = g' at *
      by_cases hcond : w.length ≠ g'.length ∨
          w.length ≠ ((st.mom1.get? key).getD (List.replicate w.length 0)).length ∨
          w.length ≠ ((st.mom2.get? key).getD (List.replicate w.length 0)).length
      · simp only [adamUpdate, adam, allocMissing_snd]
        rw [if_pos hcond]
        intro h
        simp only [Option.some.injEq] at h
        refine ⟨h.symm, ?_⟩
        rcases hcond with h1 | h1 | h1
        · exact absurd (hwg.trans hl.symm) h1
        · left
          cases hm : st.mom1.get? key with
          | none => simp [hm] at h1
          | some m => exact ⟨m, rfl, fun h => h1 (by simp [hm, h])⟩
        · right
          cases hm : st.mom2.get? key with
          | none => simp [hm] at h1
          | some m => exact ⟨m, rfl, fun h => h1 (by simp [hm, h])⟩
      · simp only [adamUpdate, adam, allocMissing_snd]
        rw [if_neg hcond]
        intro h
        simp only at h
        rw [hf] at h; cases h
    · next hb =>
      left
      split at h
      · next hb2 =>
        simp only [Option.some.injEq] at h
        exact ⟨h.symm, not_lt.1 fun hh => hb ⟨hh, hb2⟩, hb2⟩
      · rw [hf] at h; cases h

/-! ### C19 -/

theorem Vec.norm_nonneg (g : Vec) : 0 ≤ g.norm := Real.sqrt_nonneg _

theorem Vec.norm_scale (g : Vec) (c : ℝ) (hc : 0 ≤ c) : Vec.norm (g.map fun x => x * c) = c * g.norm := by
  unfold Vec.norm
  have : ((g.map fun x => x * c).map fun x => x ^ 2).sum = c ^ 2 * (g.map fun x => x ^ 2).sum := by
    rw [List.map_map, ← List.sum_map_mul_left]
    congr 1
    apply List.map_congr_left
    intro x _
    simp only [Function.comp]
    ring
  rw [this, Real.sqrt_mul (sq_nonneg c), Real.sqrt_sq hc]

/-- `clip_gradient(g, t)` with `t > 0`: a non-negative multiple of `g` (in particular of the same
length); `g` itself when its norm is below `t`; never of norm above `t`, and of norm exactly `t`
when `g` has at least that norm. -/
theorem C19_clip_gradient (g : Vec) (t : ℝ) (ht : 0 < t) :
    (∃ c, 0 ≤ c ∧ c ≤ 1 ∧ clipGradient g t = g.map (fun x => x * c)) ∧
    (g.norm < t → clipGradient g t = g) ∧
    Vec.norm (clipGradient g t) ≤ t ∧
    (t ≤ g.norm → Vec.norm (clipGradient g t) = t) := by
  have hbig : t ≤ g.norm → clipGradient g t = g.map (fun x => x * (t / g.norm)) := by
    intro h; simp [clipGradient, h]
  have hnorm : t ≤ g.norm → Vec.norm (clipGradient g t) = t := by
    intro h
    have hg : 0 < g.norm := lt_of_lt_of_le ht h
    rw [hbig h, Vec.norm_scale _ _ (by positivity), div_mul_cancel₀ _ hg.ne']
  have hsmall : g.norm < t → clipGradient g t = g := by
    intro h; simp [clipGradient, not_le.2 h]
  refine ⟨?_, hsmall, ?_, hnorm⟩
  · rcases lt_or_ge g.norm t with h | h
    · exact ⟨1, zero_le_one, le_rfl, by rw [hsmall h]; simp⟩
    · have hg : 0 < g.norm := lt_of_lt_of_le ht h
      exact ⟨t / g.norm, by positivity, by rw [div_le_one hg]; exact h, hbig h⟩
  · rcases lt_or_ge g.norm t with h | h
    · rw [hsmall h]; exact h.le
    · exact (hnorm h).le

/-- In the optimizer: with a positive `grad_clip` the gradient that reaches the update rule has norm
at most `grad_clip`. -/
theorem C19_optimizer_clips (cfg : OptCfg κ) (st : OptState κ) (key : κ) (w g : Vec)
    (h : 0 < cfg.gradClip st.step key st.lastScore) :
    Vec.norm (regularised cfg st key w g) ≤ cfg.gradClip st.step key st.lastScore := by
  simp only [regularised, ne_eq, h.ne', not_false_eq_true, if_true]
  exact (C19_clip_gradient _ _ h).2.2.1

example : clipGradient [3, 4] 1 = [3/5, 4/5] := by
  have : Vec.norm [3, 4] = 5 := by
    unfold Vec.norm
    rw [show ([3, 4] : List ℝ).map (fun x => x ^ 2) = [9, 16] by norm_num]
    rw [show ([9, 16] : List ℝ).sum = 5 ^ 2 by norm_num, Real.sqrt_sq (by norm_num)]
  simp [clipGradient, this]; norm_num

/-! ### C20 -/

namespace Spec

/-- The exponentially weighted sum `(1-b) * sum_i b^(n-1-i) * x_i` of a history `x_0 .. x_(n-1)`. -/
noncomputable def expSum (b : ℝ) (xs : List ℝ) : ℝ :=
  ∑ i ∈ Finset.range xs.length, (1 - b) * b ^ (xs.length - 1 - i) * xs.getD i 0

/-- The gradient that a recorded call passes to the update rule: with L2 regularisation added
(unless L2 is used as weight decay) and clipped. -/
noncomputable def effGrad (cfg : OptCfg κ) (r : CallRec κ) : Vec :=
  let l2 := cfg.L2 r.step r.key r.lastScore
  let clip := cfg.gradClip r.step r.key r.lastScore
  let g := if l2 = 0 ∨ cfg.L2IsWeightDecay then r.g else List.zipWith (fun x y => x + l2 * y) r.g r.w
  if clip = 0 then g else clipGradient g clip

/-- The factor by which weight decay shrinks the weights. -/
noncomputable def decayFactor (cfg : OptCfg κ) (r : CallRec κ) : ℝ :=
  if cfg.L2IsWeightDecay then
    1 - r.lrScale * cfg.learnRate r.step r.key r.lastScore * cfg.L2 r.step r.key r.lastScore
  else 1

end Spec
open Spec

theorem expSum_snoc (b : ℝ) (xs : List ℝ) (x : ℝ) :
    expSum b (xs ++ [x]) = expSum b xs * b + x * (1 - b) := by
  unfold expSum
  rw [List.length_append, List.length_singleton, Finset.sum_range_succ, Finset.sum_mul]
  congr 1
  · apply Finset.sum_congr rfl
    intro i hi
    have hi := Finset.mem_range.1 hi
    rw [show xs.length + 1 - 1 - i = (xs.length - 1 - i) + 1 by omega, pow_succ]
    simp [List.getElem?_append_left hi]
    ring
  · simp; ring

theorem effGrad_eq (cfg : OptCfg κ) (st : OptState κ) (key : κ) (rows) (w g : Vec) (lr : ℝ) (res) :
    effGrad cfg ⟨st.step, st.lastScore, key, rows, w, g, lr, res⟩ = regularised cfg st key w g := by
  unfold effGrad regularised
  simp only
  by_cases h1 : cfg.L2 st.step key st.lastScore = 0 <;>
    by_cases h2 : cfg.L2IsWeightDecay = true <;>
    by_cases h3 : cfg.gradClip st.step key st.lastScore = 0 <;> simp [h1, h2, h3]

/-- The moments of key `k` are the weighted sums of the effective gradients `E` so far. -/
structure AdamInv (β1 β2 : ℝ) (k : κ) (d : Nat) (E : List Vec) (st : OptState κ) : Prop where
  nr : (st.nrUpdate.get? k).getD 0 = E.length
  len1 : ((st.mom1.get? k).getD (List.replicate d 0)).length = d
  len2 : ((st.mom2.get? k).getD (List.replicate d 0)).length = d
  m1 : ∀ j < d, ((st.mom1.get? k).getD (List.replicate d 0))[j]?
    = some (expSum β1 (E.map fun g => g.getD j 0))
  m2 : ∀ j < d, ((st.mom2.get? k).getD (List.replicate d 0))[j]?
    = some (expSum β2 (E.map fun g => g.getD j 0 ^ 2))

theorem AdamInv.congr {β1 β2 : ℝ} {k : κ} {d : Nat} {E : List Vec} {s t : OptState κ}
    (i : AdamInv β1 β2 k d E s) (a : Agree k t s) : AdamInv β1 β2 k d E t :=
  ⟨by rw [a.nr]; exact i.nr, by rw [a.m1]; exact i.len1, by rw [a.m2]; exact i.len2,
    by rw [a.m1]; exact i.m1, by rw [a.m2]; exact i.m2⟩

theorem finishCall_moments (cfg : OptCfg κ) (st : OptState κ) (k : κ) (w g : Vec) (lr : ℝ) (n : Nat) :
    (finishCall cfg st k w g lr n).1.mom1 = st.mom1 ∧ (finishCall cfg st k w g lr n).1.mom2 = st.mom2 ∧
    (finishCall cfg st k w g lr n).1.nrUpdate = st.nrUpdate ∧
    (finishCall cfg st k w g lr n).2.exc = none ∧
    (finishCall cfg st k w g lr n).2.weights
      = if cfg.L2 st.step k st.lastScore ≠ 0 ∧ cfg.L2IsWeightDecay then
          w.map fun x => x - lr * cfg.learnRate st.step k st.lastScore * cfg.L2 st.step k st.lastScore * x
        else w := by
  unfold finishCall
  cases st.averages <;> exact ⟨rfl, rfl, rfl, rfl, rfl⟩

theorem getElem?_zipWith_some {α β γ : Type} (f : α → β → γ) {l : List α} {l' : List β} {j : Nat} {a b}
    (h : l[j]? = some a) (h' : l'[j]? = some b) : (List.zipWith f l l')[j]? = some (f a b) := by
  rw [List.getElem?_zipWith, h, h']

/-- What one Adam call returns, given the history of effective gradients. -/
def AdamResult (cfg : OptCfg κ) (β1 β2 : ℝ) (d : Nat) (E : List Vec) (r : CallRec κ) : Prop :=
  r.res.exc = none ∧ r.res.weights.length = d ∧ ∀ j < d,
    let n := E.length
    let m1 := expSum β1 (E.map fun g => g.getD j 0)
    let m2 := expSum β2 (E.map fun g => g.getD j 0 ^ 2)
    let lr := cfg.learnRate r.step r.key r.lastScore * r.lrScale
    r.res.weights.getD j 0 = (r.w.getD j 0
        - lr * (Real.sqrt (1 - β2 ^ n) / (1 - β1 ^ n)) * (m1 / (Real.sqrt m2 + cfg.eps r.step r.key r.lastScore)))
      * decayFactor cfg r

theorem AdamInv.call {cfg : OptCfg κ} (hra : cfg.useRadam = false) {β1 β2 : ℝ} (hβ1 : 0 < β1)
    (hβ2 : 0 < β2) {k : κ} (hb : ∀ s sc, cfg.b1 s k sc = β1 ∧ cfg.b2 s k sc = β2) {d : Nat}
    {E : List Vec} {st : OptState κ} (i : AdamInv β1 β2 k d E st) {rows : Nat} (hrows : 0 < rows)
    {w g : Vec} (hw : w.length = d) (hg : g.length = d) (lrScale : ℝ) :
    let r : CallRec κ := ⟨st.step, st.lastScore, k, rows, w, g, lrScale,
      (st.call cfg k rows w g lrScale).2⟩
    AdamInv β1 β2 k d (E ++ [effGrad cfg r]) (st.call cfg k rows w g lrScale).1 ∧
      AdamResult cfg β1 β2 d (E ++ [effGrad cfg r]) r := by
  intro r
  have hreff : effGrad cfg r = regularised cfg st k w g := effGrad_eq cfg st k rows w g lrScale _
  rw [hreff]
  have hnrow : ¬ rows < 1 := by omega
  set st1 : OptState κ := { st with nrUpdate := st.nrUpdate.set k ((st.nrUpdate.get? k).getD 0 + 1) }
    with hst1
  have hcallb : st.call cfg k rows w g lrScale
      = callBody cfg st1 k w g lrScale ((st.nrUpdate.get? k).getD 0 + 1) := by
    simp only [OptState.call, hnrow, if_false, hst1]
  have hregl : (regularised cfg st k w g).length = d := by
    rw [regularised_length _ _ _ _ _ (hw.trans hg.symm), hg]
  have hreg1 : regularised cfg st1 k w g = regularised cfg st k w g := rfl
  set e := regularised cfg st k w g with he
  set n := E.length + 1 with hn
  set m1 := List.zipWith (fun m x => m * β1 + x * (1 - β1))
    ((st.mom1.get? k).getD (List.replicate d 0)) e with hm1
  set m2 := List.zipWith (fun m x => m * β2 + x * x * (1 - β2))
    ((st.mom2.get? k).getD (List.replicate d 0)) e with hm2
  set lr := cfg.learnRate st.step k st.lastScore * Real.sqrt (1 - β2 ^ n) / (1 - β1 ^ n) with hlr
  set eps := cfg.eps st.step k st.lastScore
  set w' := List.zipWith (fun x d => x - lr * lrScale * d) w
      (List.zipWith (fun a b => a / (1 * Real.sqrt b + eps)) m1 m2) with hw'
  have hau : adamUpdate cfg st1 k w e lrScale n
      = ({ st1 with mom1 := st.mom1.set k m1, mom2 := st.mom2.set k m2 }, .ok w') := by
    have hcond : ¬ (w.length ≠ e.length ∨
        w.length ≠ ((st.mom1.get? k).getD (List.replicate w.length 0)).length ∨
        w.length ≠ ((st.mom2.get? k).getD (List.replicate w.length 0)).length) := by
      rw [hw]
      push Not
      exact ⟨hregl.symm, i.len1.symm, i.len2.symm⟩
    simp only [adamUpdate, adam, allocMissing_snd, hst1]
    rw [if_neg hcond]
    simp only [allocMissing_set, (hb _ _).1, (hb _ _).2, hw]
    rfl
  have hcall : st.call cfg k rows w g lrScale
      = finishCall cfg { st1 with mom1 := st.mom1.set k m1, mom2 := st.mom2.set k m2 } k w' e lrScale n := by
    rw [hcallb, i.nr]
    simp only [callBody, hra, (hb _ _).1, (hb _ _).2, hreg1]
    simp only [Bool.false_eq_true, if_false, gt_iff_lt, hβ1, hβ2, and_self, if_true]
    rw [hau]
  obtain ⟨f1, f2, f3, f4, f5⟩ := finishCall_moments cfg
    { st1 with mom1 := st.mom1.set k m1, mom2 := st.mom2.set k m2 } k w' e lrScale n
  rw [← hcall] at f1 f2 f3 f4 f5
  have hej : ∀ j < d, e[j]? = some (e.getD j 0) := by
    intro j hj
    have : j < e.length := by omega
    simp [this]
  have hm1j : ∀ j < d, m1[j]? = some (expSum β1 ((E ++ [e]).map fun g => g.getD j 0)) := by
    intro j hj
    rw [List.map_append, List.map_singleton, expSum_snoc]
    exact getElem?_zipWith_some _ (i.m1 j hj) (hej j hj)
  have hm2j : ∀ j < d, m2[j]? = some (expSum β2 ((E ++ [e]).map fun g => g.getD j 0 ^ 2)) := by
    intro j hj
    rw [List.map_append, List.map_singleton, expSum_snoc, hm2,
      getElem?_zipWith_some _ (i.m2 j hj) (hej j hj)]
    congr 2; ring
  have l1 : m1.length = d := by rw [hm1, List.length_zipWith, i.len1, hregl, min_self]
  have l2 : m2.length = d := by rw [hm2, List.length_zipWith, i.len2, hregl, min_self]
  have lw : w'.length = d := by simp [hw', l1, l2, hw]
  refine ⟨⟨?_, ?_, ?_, ?_, ?_⟩, ?_, ?_, ?_⟩
  · rw [f3]; simp [hst1, i.nr]
  · rw [f1]; simp [l1]
  · rw [f2]; simp [l2]
  · rw [f1]; simpa using hm1j
  · rw [f2]; simpa using hm2j
  · exact f4
  · show (st.call cfg k rows w g lrScale).2.weights.length = d
    rw [f5]; split <;> simp [lw]
  · intro j hj
    have hwj : w[j]? = some (w.getD j 0) := by
      have : j < w.length := by omega
      simp [this]
    have hw'j := getElem?_zipWith_some (fun x d => x - lr * lrScale * d) hwj
      (getElem?_zipWith_some (fun a b => a / (1 * Real.sqrt b + eps)) (hm1j j hj) (hm2j j hj))
    rw [← hw'] at hw'j
    have hlen : (E ++ [e]).length = n := by simp [hn]
    have hmain : w'.getD j 0 = w.getD j 0 - cfg.learnRate st.step k st.lastScore * lrScale *
        (Real.sqrt (1 - β2 ^ n) / (1 - β1 ^ n)) *
        (expSum β1 ((E ++ [e]).map fun g => g.getD j 0) /
          (Real.sqrt (expSum β2 ((E ++ [e]).map fun g => g.getD j 0 ^ 2)) + eps)) := by
      rw [List.getD_eq_getElem?_getD, hw'j, Option.getD_some, one_mul, hlr]
      ring
    simp only [hlen]
    rw [← hmain]
    show (st.call cfg k rows w g lrScale).2.weights.getD j 0 = _
    replace f5 : (st.call cfg k rows w g lrScale).2.weights
      = if cfg.L2 st.step k st.lastScore ≠ 0 ∧ cfg.L2IsWeightDecay = true then
          w'.map fun x => x - lrScale * cfg.learnRate st.step k st.lastScore
            * cfg.L2 st.step k st.lastScore * x
        else w' := f5
    rw [f5]
    by_cases hwd : cfg.L2IsWeightDecay = true
    · by_cases hl2 : cfg.L2 st.step k st.lastScore = 0
      · simp [hl2, decayFactor, hwd, r]
      · have hw2 : w'[j]? = some (w'.getD j 0) := by
          have : j < w'.length := by omega
          simp [this]
        simp only [ne_eq, hl2, not_false_eq_true, hwd, and_self, if_true, decayFactor, r]
        rw [List.getD_eq_getElem?_getD, List.getElem?_map, hw2]
        simp only [Option.map_some, Option.getD_some]
        ring
    · simp [hwd, decayFactor]

theorem run_adam {cfg : OptCfg κ} (hra : cfg.useRadam = false) {β1 β2 : ℝ} (hβ1 : 0 < β1)
    (hβ2 : 0 < β2) {k : κ} (hb : ∀ s sc, cfg.b1 s k sc = β1 ∧ cfg.b2 s k sc = β2) {d : Nat}
    (es : List (OptEvent κ))
    (hes : ∀ rows w g lr, OptEvent.call k rows w g lr ∈ es → 0 < rows ∧ w.length = d ∧ g.length = d)
    (st : OptState κ) (E : List Vec) (i : AdamInv β1 β2 k d E st)
    (p : Nat) (r : CallRec κ)
    (hr : ((st.run cfg es).2.filter (fun r => decide (r.key = k)))[p]? = some r) :
    AdamResult cfg β1 β2 d
      (E ++ (((st.run cfg es).2.filter (fun r => decide (r.key = k))).take (p + 1)).map (effGrad cfg)) r := by
  induction es generalizing st E p with
  | nil => simp [OptState.run] at hr
  | cons e es ih =>
    have hes' : ∀ rows w g lr, OptEvent.call k rows w g lr ∈ es → 0 < rows ∧ w.length = d ∧ g.length = d :=
      fun rows w g lr h => hes rows w g lr (List.mem_cons_of_mem _ h)
    cases e with
    | stepSchedules =>
      exact ih hes' { st with step := st.step + 1 } E ⟨i.nr, i.len1, i.len2, i.m1, i.m2⟩ p hr
    | setScore x =>
      exact ih hes' { st with lastScore := some (st.step, x) } E ⟨i.nr, i.len1, i.len2, i.m1, i.m2⟩ p hr
    | call k' rows w g lr =>
      simp only [OptState.run, OptState.event, Option.toList_some, List.cons_append,
        List.nil_append] at hr ⊢
      by_cases hk : k' = k
      · subst hk
        obtain ⟨h1, h2, h3⟩ := hes rows w g lr List.mem_cons_self
        obtain ⟨i', res⟩ := i.call hra hβ1 hβ2 hb h1 h2 h3 lr
        rw [List.filter_cons_of_pos (by simp)] at hr ⊢
        cases p with
        | zero =>
          simp only [List.getElem?_cons_zero, Option.some.injEq] at hr
          subst hr
          simpa using res
        | succ p =>
          rw [List.getElem?_cons_succ] at hr
          have := ih hes' _ _ i' p hr
          simpa using this
      · rw [List.filter_cons_of_neg (by simpa using hk)] at hr ⊢
        exact ih hes' _ E (i.congr (call_other cfg hk st rows w g lr)) p hr

/-- For a key `k` on which Adam is used with betas `β1`, `β2`: in every history, interleaved with
any calls for other keys, the `p`-th call for `k` succeeds and computes, for every element, Adam's
update from the exponentially weighted sums of all (regularised and clipped) gradients seen so far
and of their squares, with the bias correction for `p + 1` updates, followed by weight decay. -/
theorem C20_adam (cfg : OptCfg κ) (hra : cfg.useRadam = false) (β1 β2 : ℝ) (hβ1 : 0 < β1)
    (hβ2 : 0 < β2) (k : κ) (hb : ∀ s sc, cfg.b1 s k sc = β1 ∧ cfg.b2 s k sc = β2)
    (d : Nat) (useAverages : Bool) (es : List (OptEvent κ))
    (hes : ∀ rows w g lr, OptEvent.call k rows w g lr ∈ es → 0 < rows ∧ w.length = d ∧ g.length = d)
    (p : Nat) (r : CallRec κ)
    (hr : (((OptState.init useAverages).run cfg es).2.filter (fun r => decide (r.key = k)))[p]?
      = some r) :
    let calls := ((OptState.init useAverages).run cfg es).2.filter (fun r => decide (r.key = k))
    let grads := (calls.take (p + 1)).map (effGrad cfg)
    r.res.exc = none ∧ r.res.weights.length = d ∧ ∀ j < d,
      let m1 := expSum β1 (grads.map fun g => g.getD j 0)
      let m2 := expSum β2 (grads.map fun g => g.getD j 0 ^ 2)
      let lr := cfg.learnRate r.step r.key r.lastScore * r.lrScale
      r.res.weights.getD j 0 = (r.w.getD j 0
          - lr * (Real.sqrt (1 - β2 ^ (p + 1)) / (1 - β1 ^ (p + 1)))
            * (m1 / (Real.sqrt m2 + cfg.eps r.step r.key r.lastScore)))
        * decayFactor cfg r := by
  intro calls grads
  have hz : ∀ (b : ℝ) (f : Vec → ℝ) (j : Nat), j < d →
      (List.replicate d (0:ℝ))[j]? = some (expSum b (([] : List Vec).map f)) := by
    intro b f j hj
    simp [hj, expSum]
  have := run_adam hra hβ1 hβ2 hb es hes (OptState.init useAverages) []
    ⟨rfl, by simp [OptState.init], by simp [OptState.init],
      fun j hj => hz β1 _ j hj,
      fun j hj => hz β2 _ j hj⟩ p r hr
  obtain ⟨h1, h2, h3⟩ := this
  refine ⟨h1, h2, fun j hj => ?_⟩
  have h := h3 j hj
  have hlen : grads.length = p + 1 := by
    have : p < calls.length := (List.getElem?_eq_some_iff.1 hr).1
    simp [grads]; omega
  simp only [List.nil_append] at h
  change _ = (_ - _ * (Real.sqrt (1 - β2 ^ grads.length) / (1 - β1 ^ grads.length)) * _) * _ at h
  rw [hlen] at h
  exact h

/-- The step of `C20_adam` is the textbook one: with the bias-corrected moments `m1 / (1 - β1^n)` and
`m2 / (1 - β2^n)` it is `m̂1 / (sqrt m̂2 + ε')`, where `ε' = ε / sqrt (1 - β2^n)`. -/
theorem C20_bias_correction (β1 β2 eps m1 m2 : ℝ) (n : Nat) (hn : 0 < n) (h1 : 0 < β1) (h1' : β1 < 1)
    (h2 : 0 < β2) (h2' : β2 < 1) (he : 0 < eps) (hm2 : 0 ≤ m2) :
    (Real.sqrt (1 - β2 ^ n) / (1 - β1 ^ n)) * (m1 / (Real.sqrt m2 + eps))
      = (m1 / (1 - β1 ^ n))
        / (Real.sqrt (m2 / (1 - β2 ^ n)) + eps / Real.sqrt (1 - β2 ^ n)) := by
  have f1 : 0 < 1 - β1 ^ n := by have := pow_lt_one₀ h1.le h1' hn.ne'; linarith
  have f2 : 0 < 1 - β2 ^ n := by have := pow_lt_one₀ h2.le h2' hn.ne'; linarith
  have hs : 0 < Real.sqrt (1 - β2 ^ n) := Real.sqrt_pos.2 f2
  have hd : 0 < Real.sqrt m2 + eps := by have := Real.sqrt_nonneg m2; linarith
  rw [Real.sqrt_div hm2]
  field_simp

/-- The bias correction makes a constant gradient come out exactly: the corrected weighted sum of
`n ≥ 1` copies of `x` is `x`. -/
theorem C20_constant_gradient (b x : ℝ) (hb0 : 0 ≤ b) (hb : b < 1) (n : Nat) (hn : 0 < n) :
    expSum b (List.replicate n x) / (1 - b ^ n) = x := by
  have f1 : 0 < 1 - b ^ n := by have := pow_lt_one₀ hb0 hb hn.ne'; linarith
  have : expSum b (List.replicate n x) = (1 - b ^ n) * x := by
    clear hn f1
    induction n with
    | zero => simp [expSum]
    | succ n ih => rw [List.replicate_succ', expSum_snoc, ih]; ring
  rw [this]; field_simp

/-- The fused CPU kernel, for arrays of any number `n` of elements: every element of the buffers is
updated as in the elementwise definition (`Ops.adam`), the gradient is cleared, and nothing at or
beyond index `n` is touched. -/
theorem C20_fused_kernel (b1 b2 eps lr : ℝ) (n : Nat) (w : Nat → ℝ) (m : AdamMem) (i : Nat) :
    let m1 := m.mom1 i * b1 + m.grad i * (1 - b1)
    let m2 := m.mom2 i * b2 + m.grad i * m.grad i * (1 - b2)
    let out := numpyAdam b1 b2 eps lr n w m
    (i < n → out.1 i = w i - lr * (m1 / (1 * Real.sqrt m2 + eps)) ∧ out.2.mom1 i = m1 ∧
      out.2.mom2 i = m2 ∧ out.2.grad i = 0) ∧
    (n ≤ i → out.1 i = w i ∧ out.2.mom1 i = m.mom1 i ∧ out.2.mom2 i = m.mom2 i ∧
      out.2.grad i = m.grad i) := by
  have key : ∀ (steps idx : Nat) (m : AdamMem), idx ≤ n → n ≤ idx + steps * 64 →
      adamBlocks b1 b2 eps n steps idx m = adamBlock b1 b2 eps idx (n - idx) m := by
    intro steps
    induction steps with
    | zero =>
      intro idx m h1 h2
      have : n - idx = 0 := by omega
      simp only [adamBlocks, adamBlock, this, Nat.add_zero]
      have hf : ∀ i, ¬ (idx ≤ i ∧ i < idx) := by intro i; omega
      simp [hf]
    | succ steps ih =>
      intro idx m h1 h2
      simp only [adamBlocks]
      rw [ih (idx + min 64 (n - idx)) _ (by omega) (by
        rcases Nat.le_total 64 (n - idx) with h | h
        · rw [Nat.min_eq_left h]; omega
        · rw [Nat.min_eq_right h]; omega)]
      set sz := min 64 (n - idx) with hsz
      have hle : sz ≤ n - idx := Nat.min_le_right _ _
      simp only [adamBlock]
      congr 1
      · funext i
        by_cases hA : idx ≤ i ∧ i < idx + sz
        · have hB : ¬ (idx + sz ≤ i ∧ i < idx + sz + (n - (idx + sz))) := by omega
          have hC : idx ≤ i ∧ i < idx + (n - idx) := by omega
          simp only [if_pos hA, if_neg hB, if_pos hC]
        · by_cases hB : idx + sz ≤ i ∧ i < idx + sz + (n - (idx + sz))
          · have hC : idx ≤ i ∧ i < idx + (n - idx) := by omega
            simp only [if_neg hA, if_pos hB, if_pos hC]
          · have hC : ¬ (idx ≤ i ∧ i < idx + (n - idx)) := by omega
            simp only [if_neg hA, if_neg hB, if_neg hC]
      · funext i
        by_cases hA : idx ≤ i ∧ i < idx + sz
        · have hB : ¬ (idx + sz ≤ i ∧ i < idx + sz + (n - (idx + sz))) := by omega
          have hC : idx ≤ i ∧ i < idx + (n - idx) := by omega
          simp only [if_pos hA, if_neg hB, if_pos hC]
        · by_cases hB : idx + sz ≤ i ∧ i < idx + sz + (n - (idx + sz))
          · have hC : idx ≤ i ∧ i < idx + (n - idx) := by omega
            simp only [if_neg hA, if_pos hB, if_pos hC]
          · have hC : ¬ (idx ≤ i ∧ i < idx + (n - idx)) := by omega
            simp only [if_neg hA, if_neg hB, if_neg hC]
      · funext i
        by_cases hA : idx ≤ i ∧ i < idx + sz
        · have hB : ¬ (idx + sz ≤ i ∧ i < idx + sz + (n - (idx + sz))) := by omega
          have hC : idx ≤ i ∧ i < idx + (n - idx) := by omega
          simp only [if_pos hA, if_neg hB, if_pos hC]
        · by_cases hB : idx + sz ≤ i ∧ i < idx + sz + (n - (idx + sz))
          · have hC : idx ≤ i ∧ i < idx + (n - idx) := by omega
            simp only [if_neg hA, if_pos hB, if_pos hC]
          · have hC : ¬ (idx ≤ i ∧ i < idx + (n - idx)) := by omega
            simp only [if_neg hA, if_neg hB, if_neg hC]
  have hmom : adamMomentum b1 b2 eps n m = adamBlock b1 b2 eps 0 n m := by
    simp only [adamMomentum]
    rw [key _ 0 m (Nat.zero_le _) (by split <;> omega), Nat.sub_zero]
  simp only [numpyAdam, hmom, adamBlock, Nat.zero_le, true_and, Nat.zero_add]
  constructor
  · intro h
    simp only [h, if_true, one_mul]
    refine ⟨?_, by ring, by ring, trivial⟩
    rw [show b1 * m.mom1 i + (1 - b1) * m.grad i = m.mom1 i * b1 + m.grad i * (1 - b1) by ring,
      show b2 * m.mom2 i + (1 - b2) * m.grad i ^ 2 = m.mom2 i * b2 + m.grad i * m.grad i * (1 - b2) by ring]
    ring
  · intro h
    simp only [not_lt.2 h, if_false, and_self]

end Thinc
