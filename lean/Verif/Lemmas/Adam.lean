import Verif.Props.Sgd
import Verif.Spec.Adam
/-!
# One call of the optimizer, on arrays
-/
namespace Thinc
open Spec Spec.Tensor

section
variable {n m : ℕ}

theorem isFlat_replicate : IsFlat (List.replicate (n * m) (0:ℝ)) (0 : Fin n → Fin m → ℝ) := by
  refine ⟨by simp, fun i j => ?_⟩
  have hlt : (i : ℕ) * m + j < n * m := by
    calc (i : ℕ) * m + j < (i : ℕ) * m + m := by omega
      _ = ((i : ℕ) + 1) * m := by ring
      _ ≤ n * m := Nat.mul_le_mul_right _ i.2
  simp [List.getElem?_replicate, hlt]

theorem isFlat_ravel {X : Mat ℝ} {x : Fin n → Fin m → ℝ} (h : IsMat X x) : IsFlat X.ravel x :=
  ⟨by rw [ravel_length, h.1, h.2.1], ravel_get h⟩

theorem Spec.IsFlat.isMat {l : Vec} {x : Fin n → Fin m → ℝ} (h : IsFlat l x) : IsMat (Mat.ofVec n m l) x := isMat_ofVec h.2

theorem Spec.IsFlat.isMat' {l : Vec} {x : Fin n → Fin m → ℝ} {n' m' : ℕ} (h : IsFlat l x) (hn : n' = n) (hm : m' = m) :
    IsMat (Mat.ofVec n' m' l) x := by
  subst hn hm
  exact h.isMat

theorem Spec.IsFlat.map {l : Vec} {x : Fin n → Fin m → ℝ} (h : IsFlat l x) (f : ℝ → ℝ) :
    IsFlat (l.map f) (fun i j => f (x i j)) :=
  ⟨by rw [List.length_map, h.1], fun i j => by rw [List.getElem?_map, h.2 i j, Option.map_some]⟩

theorem Spec.IsFlat.zipWith {l l' : Vec} {x y : Fin n → Fin m → ℝ} (h : IsFlat l x) (h' : IsFlat l' y) (f : ℝ → ℝ → ℝ) :
    IsFlat (List.zipWith f l l') (fun i j => f (x i j) (y i j)) :=
  ⟨by rw [List.length_zipWith, h.1, h'.1, min_self], fun i j => by rw [List.getElem?_zipWith, h.2 i j, h'.2 i j]⟩

theorem Spec.IsFlat.congr {l : Vec} {x y : Fin n → Fin m → ℝ} (h : IsFlat l x) (e : ∀ i j, x i j = y i j) : IsFlat l y :=
  ⟨h.1, fun i j => by rw [h.2 i j, e i j]⟩

theorem Spec.IsFlat.norm {l : Vec} {x : Fin n → Fin m → ℝ} (h : IsFlat l x) : l.norm = entryNorm x := by
  have e : (Mat.ofVec n m l).ravel = l := by
    apply List.ext_getElem?
    intro k
    by_cases hk : k < n * m
    · have hm : 0 < m := by
        rcases Nat.eq_zero_or_pos m with h0 | h0
        · subst h0; simp at hk
        · exact h0
      have h1 := (isFlat_ravel h.isMat).2 ⟨k / m, Nat.div_lt_of_lt_mul (by rwa [Nat.mul_comm])⟩ ⟨k % m, Nat.mod_lt _ hm⟩
      have h2 := h.2 ⟨k / m, Nat.div_lt_of_lt_mul (by rwa [Nat.mul_comm])⟩ ⟨k % m, Nat.mod_lt _ hm⟩
      have h3 : k / m * m + k % m = k := Nat.div_add_mod' k m
      simp only [h3] at h1 h2
      rw [h1, h2]
    · rw [List.getElem?_eq_none (by rw [(isFlat_ravel h.isMat).1]; omega), List.getElem?_eq_none (by rw [h.1]; omega)]
  rw [← ravel_norm h.isMat, e]

theorem isFlat_clip {l : Vec} {x : Fin n → Fin m → ℝ} (h : IsFlat l x) (c : ℝ) :
    IsFlat (if c ≠ 0 then clipGradient l c else l) (clipTo c x) := by
  unfold clipTo clipGradient
  rw [h.norm]
  by_cases hc : c = 0
  · simp only [hc, ne_eq, not_true_eq_false, false_and, if_false]
    exact h
  · by_cases hc2 : c ≤ entryNorm x
    · simp only [hc, ne_eq, not_false_eq_true, hc2, ge_iff_le, if_true, and_self]
      refine (h.map _).congr fun i j => ?_
      rw [Pi.smul_apply, Pi.smul_apply, smul_eq_mul, mul_comm]
    · simp only [hc, ne_eq, not_false_eq_true, hc2, ge_iff_le, if_true, if_false, and_false]
      exact h

variable {κ : Type} [DecidableEq κ]

/-- The hyperparameters at a moment. -/
def OptCfg.hyper (cfg : OptCfg κ) (t : ℕ) (k : κ) (score : Option (ℕ × ℝ)) : Hyper :=
  ⟨cfg.learnRate t k score, cfg.b1 t k score, cfg.b2 t k score, cfg.eps t k score, cfg.L2 t k score, cfg.gradClip t k score⟩

theorem isFlat_regularised {cfg : OptCfg κ} {st : OptState κ} {k : κ} {lw lg : Vec} {w g : Fin n → Fin m → ℝ} (hw : IsFlat lw w)
    (hg : IsFlat lg g) :
    IsFlat (regularised cfg st k lw lg) (penalised (cfg.hyper st.step k st.lastScore) cfg.L2IsWeightDecay w g) := by
  unfold regularised penalised
  refine isFlat_clip ?_ _
  show IsFlat (if cfg.L2 st.step k st.lastScore ≠ 0 ∧ ¬ cfg.L2IsWeightDecay = true then _ else _) _
  by_cases hd : cfg.L2IsWeightDecay = true
  · simp only [hd, not_true_eq_false, and_false, if_false, if_true]
    exact hg
  · simp only [hd, not_false_eq_true, and_true, Bool.false_eq_true, if_false]
    by_cases hl : cfg.L2 st.step k st.lastScore = 0
    · simp only [hl, ne_eq, not_true_eq_false, if_false]
      refine hg.congr fun i j => ?_
      simp [OptCfg.hyper, hl]
    · simp only [hl, ne_eq, not_false_eq_true, if_true]
      refine (hg.zipWith hw _).congr fun i j => ?_
      simp [OptCfg.hyper]

theorem avgDecay_spec (t : ℕ) : avgDecay t = averageDecay t := by
  unfold avgDecay averageDecay
  simp only
  split
  · next h => rw [min_eq_right h.le]
  · next h => rw [min_eq_left (not_lt.1 h)]

/-- The end of a call. -/
theorem finishCall_remembers {cfg : OptCfg κ} {st : OptState κ} {k : κ} {lw lg l1 l2 : Vec} {v : Var n m}
    {w e m1 m2 : Fin n → Fin m → ℝ} (hw : IsFlat lw w) (hg : IsFlat lg e)
    (hn : (st.nrUpdate.get? k).getD 0 = v.count + 1) (e1 : (st.mom1.get? k).getD (List.replicate (n * m) 0) = l1) (h1 : IsFlat l1 m1)
    (e2 : (st.mom2.get? k).getD (List.replicate (n * m) 0) = l2) (h2 : IsFlat l2 m2)
    (ha : ∀ avgs, st.averages = some avgs → IsFlat ((avgs.get? k).getD (List.replicate (n * m) 0)) v.avg) :
    let r := finishCall cfg st k lw lg 1 (v.count + 1)
    let v' := v.finish (cfg.hyper st.step k st.lastScore) cfg.L2IsWeightDecay w m1 m2
    Remembers r.1 k v' ∧ IsFlat r.2.weights v'.w ∧ IsFlat r.2.gradient (0 : Fin n → Fin m → ℝ) := by
  intro r v'
  have hw' : IsFlat (if cfg.L2 st.step k st.lastScore ≠ 0 ∧ cfg.L2IsWeightDecay = true then
      lw.map fun x => x - 1 * cfg.learnRate st.step k st.lastScore * cfg.L2 st.step k st.lastScore * x else lw) v'.w := by
    show IsFlat _ (if cfg.L2IsWeightDecay = true then (1 - cfg.learnRate st.step k st.lastScore * cfg.L2 st.step k st.lastScore) • w else w)
    by_cases hd : cfg.L2IsWeightDecay = true
    · simp only [hd, and_true, if_true]
      by_cases hl : cfg.L2 st.step k st.lastScore = 0
      · simp only [hl, ne_eq, not_true_eq_false, if_false]
        exact hw.congr fun i j => by simp
      · simp only [hl, ne_eq, not_false_eq_true, if_true]
        refine (hw.map _).congr fun i j => ?_
        simp only [Pi.smul_apply, smul_eq_mul]
        ring
    · simp only [hd, and_false, if_false, Bool.false_eq_true]
      exact hw
  have hg' : IsFlat (lg.map fun x => x * 0) (0 : Fin n → Fin m → ℝ) := (hg.map _).congr fun i j => by simp
  obtain ⟨lw', hlw'⟩ : ∃ l, l = (if cfg.L2 st.step k st.lastScore ≠ 0 ∧ cfg.L2IsWeightDecay = true then
      lw.map fun x => x - 1 * cfg.learnRate st.step k st.lastScore * cfg.L2 st.step k st.lastScore * x else lw) := ⟨_, rfl⟩
  rw [← hlw'] at hw'
  cases hav : st.averages with
  | none =>
    have hr : r = (st, ⟨lw', lg.map fun x => x * 0, none⟩) := by
      simp only [r, finishCall, hav, hlw']
    rw [hr]
    exact ⟨⟨hn, e1 ▸ h1, e2 ▸ h2, fun avgs h => by rw [hav] at h; cases h⟩, hw', hg'⟩
  | some avgs =>
    have hema := ha avgs hav
    have hr : r = ({ st with averages := some (avgs.set k (updateAverages ((avgs.get? k).getD (List.replicate (n * m) 0)) lw' (v.count + 1))) },
        ⟨lw', lg.map fun x => x * 0, none⟩) := by
      simp only [r, finishCall, hav, allocMissing_snd, allocMissing_set]
      rw [← hlw', hw'.1]
    rw [hr]
    refine ⟨⟨hn, e1 ▸ h1, e2 ▸ h2, fun avgs' h => ?_⟩, hw', hg'⟩
    cases h
    rw [get?_set', if_pos rfl, Option.getD_some]
    refine (hema.zipWith hw' _).congr fun i j => ?_
    show _ = averageDecay (v.count + 1) * v.avg i j + (1 - averageDecay (v.count + 1)) * v'.w i j
    rw [avgDecay_spec]
    ring

/-- One call for a parameter that the optimizer remembers. -/
theorem call_step {cfg : OptCfg κ} (hra : cfg.useRadam = false) {st : OptState κ} {k : κ} {rows : ℕ} (hrows : 0 < rows)
    (hb : 0 < cfg.b2 st.step k st.lastScore → 0 < cfg.b1 st.step k st.lastScore) {v : Var n m} (hv : Remembers st k v)
    {lw lg : Vec} {g : Fin n → Fin m → ℝ} (hw : IsFlat lw v.w) (hg : IsFlat lg g) :
    let r := st.call cfg k rows lw lg 1
    let v' := v.step (cfg.hyper st.step k st.lastScore) cfg.L2IsWeightDecay g
    Remembers r.1 k v' ∧ IsFlat r.2.weights v'.w ∧ IsFlat r.2.gradient (0 : Fin n → Fin m → ℝ) := by
  intro r v'
  obtain ⟨st1, hst1⟩ : ∃ s : OptState κ, s = { st with nrUpdate := st.nrUpdate.set k (v.count + 1) } := ⟨_, rfl⟩
  have hs1 : st1.step = st.step := by rw [hst1]
  have hs2 : st1.lastScore = st.lastScore := by rw [hst1]
  have hs3 : st1.mom1 = st.mom1 := by rw [hst1]
  have hs4 : st1.mom2 = st.mom2 := by rw [hst1]
  have hs5 : st1.averages = st.averages := by rw [hst1]
  have hs6 : st1.nrUpdate.get? k = some (v.count + 1) := by rw [hst1]; simp
  have hcall : r = callBody cfg st1 k lw lg 1 (v.count + 1) := by
    simp only [r, OptState.call, if_neg (show ¬ rows < 1 by omega), hv.count, hst1]
  have he : IsFlat (regularised cfg st1 k lw lg) (penalised (cfg.hyper st.step k st.lastScore) cfg.L2IsWeightDecay v.w g) := by
    have := isFlat_regularised (cfg := cfg) (st := st1) (k := k) hw hg
    rwa [hs1, hs2] at this
  obtain ⟨le, hle⟩ : ∃ l, l = regularised cfg st1 k lw lg := ⟨_, rfl⟩
  rw [← hle] at he
  by_cases hadam : 0 < cfg.b1 st.step k st.lastScore ∧ 0 < cfg.b2 st.step k st.lastScore
  · have hv' : v' = v.adam (cfg.hyper st.step k st.lastScore) cfg.L2IsWeightDecay g := by
      simp only [v', Var.step]
      exact if_pos hadam
    have hm1 := hv.m1.zipWith he (fun a x => a * cfg.b1 st.step k st.lastScore + x * (1 - cfg.b1 st.step k st.lastScore))
    have hm2 := hv.m2.zipWith he (fun a x => a * cfg.b2 st.step k st.lastScore + x * x * (1 - cfg.b2 st.step k st.lastScore))
    obtain ⟨l1, hl1⟩ : ∃ l, l = List.zipWith (fun a x => a * cfg.b1 st.step k st.lastScore + x * (1 - cfg.b1 st.step k st.lastScore))
      ((st.mom1.get? k).getD (List.replicate (n * m) 0)) le := ⟨_, rfl⟩
    obtain ⟨l2, hl2⟩ : ∃ l, l = List.zipWith (fun a x => a * cfg.b2 st.step k st.lastScore + x * x * (1 - cfg.b2 st.step k st.lastScore))
      ((st.mom2.get? k).getD (List.replicate (n * m) 0)) le := ⟨_, rfl⟩
    rw [← hl1] at hm1
    rw [← hl2] at hm2
    have hdir := hm1.zipWith hm2 (fun a b => a / (1 * Real.sqrt b + cfg.eps st.step k st.lastScore))
    have hnew := hw.zipWith hdir (fun x d => x - cfg.learnRate st.step k st.lastScore *
      Real.sqrt (1 - cfg.b2 st.step k st.lastScore ^ (v.count + 1)) / (1 - cfg.b1 st.step k st.lastScore ^ (v.count + 1)) * 1 * d)
    obtain ⟨lw', hlw'⟩ : ∃ l, l = List.zipWith (fun x d => x - cfg.learnRate st.step k st.lastScore *
      Real.sqrt (1 - cfg.b2 st.step k st.lastScore ^ (v.count + 1)) / (1 - cfg.b1 st.step k st.lastScore ^ (v.count + 1)) * 1 * d) lw
      (List.zipWith (fun a b => a / (1 * Real.sqrt b + cfg.eps st.step k st.lastScore)) l1 l2) := ⟨_, rfl⟩
    rw [← hlw'] at hnew
    have hau : adamUpdate cfg st1 k lw le 1 (v.count + 1) =
        ({ st1 with mom1 := st.mom1.set k l1, mom2 := st.mom2.set k l2 }, .ok lw') := by
      have hcond : ¬ (lw.length ≠ le.length ∨
          lw.length ≠ ((st.mom1.get? k).getD (List.replicate lw.length 0)).length ∨
          lw.length ≠ ((st.mom2.get? k).getD (List.replicate lw.length 0)).length) := by
        rw [hw.1, he.1, hv.m1.1, hv.m2.1]
        simp
      simp only [adamUpdate, adam, allocMissing_snd, hs1, hs2, hs3, hs4]
      rw [if_neg hcond]
      simp only [allocMissing_set, hw.1, hl1, hl2, hlw']
    have hr : r = finishCall cfg { st1 with mom1 := st.mom1.set k l1, mom2 := st.mom2.set k l2 } k lw' le 1 (v.count + 1) := by
      rw [hcall]
      simp only [callBody, hra, Bool.false_eq_true, if_false, hs1, hs2, gt_iff_lt, hadam, and_self, if_true, ← hle, hau]
    have hfin := finishCall_remembers (cfg := cfg) (st := { st1 with mom1 := st.mom1.set k l1, mom2 := st.mom2.set k l2 })
      (k := k) (lw := lw') (lg := le) (l1 := l1) (l2 := l2) (v := v) hnew he (by simp [hs6]) (by simp) hm1 (by simp) hm2
      (fun avgs h => hv.avg avgs (hs5 ▸ h))
    rw [hr, hv']
    simp only [hs1, hs2] at hfin ⊢
    have hm1' : (fun (i : Fin n) (j : Fin m) => v.m1 i j * cfg.b1 st.step k st.lastScore +
        penalised (cfg.hyper st.step k st.lastScore) cfg.L2IsWeightDecay v.w g i j * (1 - cfg.b1 st.step k st.lastScore)) =
        fun i j => cfg.b1 st.step k st.lastScore * v.m1 i j + (1 - cfg.b1 st.step k st.lastScore) *
          penalised (cfg.hyper st.step k st.lastScore) cfg.L2IsWeightDecay v.w g i j := by
      funext i j; ring
    have hm2' : (fun (i : Fin n) (j : Fin m) => v.m2 i j * cfg.b2 st.step k st.lastScore +
        penalised (cfg.hyper st.step k st.lastScore) cfg.L2IsWeightDecay v.w g i j *
          penalised (cfg.hyper st.step k st.lastScore) cfg.L2IsWeightDecay v.w g i j * (1 - cfg.b2 st.step k st.lastScore)) =
        fun i j => cfg.b2 st.step k st.lastScore * v.m2 i j + (1 - cfg.b2 st.step k st.lastScore) *
          penalised (cfg.hyper st.step k st.lastScore) cfg.L2IsWeightDecay v.w g i j ^ 2 := by
      funext i j; ring
    simp only [one_mul, mul_one] at hfin
    simp only [congrFun (congrFun hm1' _) _, congrFun (congrFun hm2' _) _] at hfin
    exact hfin
  · have hb2 : ¬ 0 < cfg.b2 st.step k st.lastScore := fun h => hadam ⟨hb h, h⟩
    have hv' : v' = v.sgd (cfg.hyper st.step k st.lastScore) cfg.L2IsWeightDecay g := by
      simp only [v', Var.step]
      exact if_neg hadam
    have hnew := hw.zipWith he (fun x y => x - 1 * cfg.learnRate st.step k st.lastScore * y)
    have hr : r = finishCall cfg st1 k (List.zipWith (fun x y => x - 1 * cfg.learnRate st.step k st.lastScore * y) lw le) le 1
        (v.count + 1) := by
      rw [hcall]
      simp only [callBody, hra, Bool.false_eq_true, if_false, hs1, hs2, gt_iff_lt, hb2, and_false, ← hle]
    have hfin := finishCall_remembers (cfg := cfg) (st := st1) (k := k) (v := v) hnew he (by simp [hs6]) (by rw [hs3]) hv.m1
      (by rw [hs4]) hv.m2 (fun avgs h => hv.avg avgs (hs5 ▸ h))
    rw [hr, hv']
    simp only [hs1, hs2] at hfin
    have hw2 : (fun (i : Fin n) (j : Fin m) => v.w i j - 1 * cfg.learnRate st.step k st.lastScore *
        penalised (cfg.hyper st.step k st.lastScore) cfg.L2IsWeightDecay v.w g i j) =
        v.w - cfg.learnRate st.step k st.lastScore • penalised (cfg.hyper st.step k st.lastScore) cfg.L2IsWeightDecay v.w g := by
      funext i j
      simp
    rw [hw2] at hfin
    exact hfin
end

theorem optimizerFn_step {n m : ℕ} {cfg : OptCfg (Nat × String)} (hra : cfg.useRadam = false) (hn : 0 < n)
    {st : OptState (Nat × String)} {k : Nat × String}
    (hb : 0 < cfg.b2 st.step k st.lastScore → 0 < cfg.b1 st.step k st.lastScore) {v : Var n m} (hv : Remembers st k v) {W D : Mat ℝ}
    {g : Fin n → Fin m → ℝ} (hW : IsMat W v.w) (hD : IsMat D g) :
    let r := optimizerFn cfg st k W D
    let v' := v.step (cfg.hyper st.step k st.lastScore) cfg.L2IsWeightDecay g
    Remembers r.1 k v' ∧ IsMat r.2.1 v'.w ∧ IsMat r.2.2 (0 : Fin n → Fin m → ℝ) := by
  intro r v'
  obtain ⟨h1, h2, h3⟩ := call_step hra (rows := D.rows) (by rw [hD.1]; exact hn) hb hv (isFlat_ravel hW) (isFlat_ravel hD)
  refine ⟨h1, ?_, ?_⟩
  · exact h2.isMat' hW.1 hW.2.1
  · exact h3.isMat' hD.1 hD.2.1

theorem Spec.Remembers.congr {n m : ℕ} {κ : Type} [DecidableEq κ] {s t : OptState κ} {k : κ} {v : Var n m} (h : Remembers s k v)
    (a : Agree k t s) : Remembers t k v := by
  refine ⟨by rw [a.nr]; exact h.count, by rw [a.m1]; exact h.m1, by rw [a.m2]; exact h.m2, fun avgs he => ?_⟩
  have h1 := a.avg
  rw [he, Option.map_some] at h1
  cases hs : s.averages with
  | none => rw [hs] at h1; cases h1
  | some avgs' =>
    rw [hs, Option.map_some] at h1
    rw [Option.some.inj h1]
    exact h.avg avgs' hs

/-- Among calls with different keys, each sees what the optimizer remembered for its key before, and leaves what it remembers
after. -/
theorem runCalls_keys {cfg : OptCfg (Nat × String)} (st : OptState (Nat × String)) (calls : List (OptCall (Mat ℝ)))
    (hnd : (calls.map fun c => (c.id, c.name)).Nodup) :
    (∀ k, k ∉ (calls.map fun c => (c.id, c.name)) → Agree k (runCalls (optimizerFn cfg) st calls).1 st) ∧
    ∀ (i : ℕ) c, calls[i]? = some c → ∃ st' : OptState (Nat × String), Agree (c.id, c.name) st' st ∧
      (runCalls (optimizerFn cfg) st calls).2[i]? = some (optimizerFn cfg st' (c.id, c.name) c.param c.grad).2 ∧
      Agree (c.id, c.name) (runCalls (optimizerFn cfg) st calls).1 (optimizerFn cfg st' (c.id, c.name) c.param c.grad).1 := by
  induction calls generalizing st with
  | nil => exact ⟨fun k _ => Agree.refl k st, fun i c h => by simp at h⟩
  | cons c cs ih =>
    rw [List.map_cons, List.nodup_cons] at hnd
    obtain ⟨h1, h2⟩ := ih (optimizerFn cfg st (c.id, c.name) c.param c.grad).1 hnd.2
    have hother : ∀ k, (c.id, c.name) ≠ k → Agree k (optimizerFn cfg st (c.id, c.name) c.param c.grad).1 st :=
      fun k hk => call_other cfg hk st _ _ _ _
    refine ⟨?_, ?_⟩
    · intro k hk
      rw [List.map_cons, List.mem_cons, not_or] at hk
      exact (h1 k hk.2).trans (hother k (Ne.symm hk.1))
    · intro i d hd
      cases i with
      | zero =>
        simp at hd
        subst hd
        exact ⟨st, Agree.refl _ _, rfl, h1 _ hnd.1⟩
      | succ i =>
        have hd' : cs[i]? = some d := by simpa using hd
        obtain ⟨st', e1, e2, e3⟩ := h2 i d hd'
        refine ⟨st', e1.trans (hother _ fun h => hnd.1 ?_), by simpa [runCalls] using e2, e3⟩
        rw [h]
        exact List.mem_map.2 ⟨d, List.mem_of_getElem? hd', rfl⟩

end Thinc
