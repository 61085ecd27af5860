import Verif.Model.Optimizer
import Verif.Lemmas.PyDict
import Mathlib.Tactic.Linarith
import Mathlib.Tactic.Ring
import Mathlib.Tactic.FieldSimp
import Mathlib.Tactic.NormNum
import Mathlib.Tactic.Positivity
/-!
# Lemmas about the optimizer model
-/
namespace Thinc
variable {κ : Type} [DecidableEq κ]

theorem allocMissing_snd (d : PyDict κ Vec) (key : κ) (n : Nat) :
    (allocMissing d key n).2 = (d.get? key).getD (List.replicate n 0) := by
  unfold allocMissing; cases d.get? key <;> rfl

theorem allocMissing_set (d : PyDict κ Vec) (key : κ) (n : Nat) (v : Vec) :
    (allocMissing d key n).1.set key v = d.set key v := by
  unfold allocMissing; cases d.get? key
  · exact PyDict.set_set _ _ _ _
  · rfl

theorem allocMissing_get (d : PyDict κ Vec) (key k : κ) (n : Nat) :
    (allocMissing d key n).1.get? k
      = if k = key then some ((d.get? key).getD (List.replicate n 0)) else d.get? k := by
  unfold allocMissing
  cases h : d.get? key with
  | none =>
    simp only [PyDict.get?_set, Option.getD_none]
    by_cases hk : k = key
    · subst hk; simp
    · simp [hk, Ne.symm hk]
  | some v =>
    by_cases hk : k = key
    · subst hk; simp [h]
    · simp [hk]

theorem get?_set' {α : Type} (d : PyDict κ α) (k k' : κ) (v : α) :
    (d.set k v).get? k' = if k' = k then some v else d.get? k' := by
  rw [PyDict.get?_set]
  by_cases h : k' = k
  · subst h; simp
  · simp [h, Ne.symm h]

/-! ### The part of the state that belongs to one key -/

/-- The two states agree on everything that concerns key `k` (the shared RAdam buffer aside). -/
structure Agree (k : κ) (s t : OptState κ) : Prop where
  step : s.step = t.step
  score : s.lastScore = t.lastScore
  m1 : s.mom1.get? k = t.mom1.get? k
  m2 : s.mom2.get? k = t.mom2.get? k
  avg : s.averages.map (PyDict.get? · k) = t.averages.map (PyDict.get? · k)
  nr : s.nrUpdate.get? k = t.nrUpdate.get? k

theorem Agree.refl (k : κ) (s : OptState κ) : Agree k s s := ⟨rfl, rfl, rfl, rfl, rfl, rfl⟩

theorem Agree.symm {k : κ} {s t : OptState κ} (a : Agree k s t) : Agree k t s :=
  ⟨a.step.symm, a.score.symm, a.m1.symm, a.m2.symm, a.avg.symm, a.nr.symm⟩

theorem Agree.trans {k : κ} {s t u : OptState κ} (a : Agree k s t) (b : Agree k t u) :
    Agree k s u :=
  ⟨a.step.trans b.step, a.score.trans b.score, a.m1.trans b.m1, a.m2.trans b.m2,
    a.avg.trans b.avg, a.nr.trans b.nr⟩

/-- The buffer holds what would be computed with these betas. -/
def BufOk (β1 β2 : ℝ) (buf : Nat → Option (Nat × ℝ × ℝ)) : Prop :=
  ∀ i n a b, buf i = some (n, a, b) → a = radamNsma β2 n ∧ b = radamStepSize β1 β2 n

theorem radamBuffered_ok {β1 β2 : ℝ} {buf} (h : BufOk β1 β2 buf) (step : Nat) :
    BufOk β1 β2 (radamBuffered buf β1 β2 step).1 ∧
      (radamBuffered buf β1 β2 step).2 = (radamNsma β2 step, radamStepSize β1 β2 step) := by
  have hupd : BufOk β1 β2 (Function.update buf (step % 10)
      (some (step, radamNsma β2 step, radamStepSize β1 β2 step))) := by
    intro i n a b hi
    by_cases hs : i = step % 10
    · subst hs
      simp only [Function.update_self] at hi
      cases hi; exact ⟨rfl, rfl⟩
    · rw [Function.update_of_ne hs] at hi
      exact h i n a b hi
  unfold radamBuffered
  cases hb : buf (step % 10) with
  | none => exact ⟨hupd, rfl⟩
  | some p =>
    obtain ⟨s, n, z⟩ := p
    simp only
    split
    · next hs =>
      subst hs
      obtain ⟨h1, h2⟩ := h _ _ _ _ hb
      exact ⟨h, by rw [h1, h2]⟩
    · exact ⟨hupd, rfl⟩

/-- The betas used with this configuration, when RAdam is used, are the constants `β1`, `β2`. -/
def ConstBetas (cfg : OptCfg κ) (β1 β2 : ℝ) : Prop :=
  cfg.useRadam = true → ∀ s k sc, cfg.b1 s k sc = β1 ∧ cfg.b2 s k sc = β2

theorem regularised_congr (cfg : OptCfg κ) {k : κ} {s t : OptState κ} (a : Agree k s t) (w g : Vec) :
    regularised cfg s k w g = regularised cfg t k w g := by
  unfold regularised; rw [a.step, a.score]

theorem finishCall_agree (cfg : OptCfg κ) {k : κ} {s t : OptState κ} (a : Agree k s t) (w g : Vec)
    (lr : ℝ) (n : Nat) :
    (finishCall cfg s k w g lr n).2 = (finishCall cfg t k w g lr n).2 ∧
      Agree k (finishCall cfg s k w g lr n).1 (finishCall cfg t k w g lr n).1 ∧
      (finishCall cfg s k w g lr n).1.radamBuffer = s.radamBuffer := by
  have havg := a.avg
  have e1 : cfg.L2 s.step k s.lastScore = cfg.L2 t.step k t.lastScore := by rw [a.step, a.score]
  have e2 : cfg.learnRate s.step k s.lastScore = cfg.learnRate t.step k t.lastScore := by
    rw [a.step, a.score]
  unfold finishCall
  rw [e1, e2]
  cases hs : s.averages with
  | none =>
    rw [hs] at havg
    cases ht : t.averages with
    | none => exact ⟨rfl, a, rfl⟩
    | some y => rw [ht] at havg; cases havg
  | some x =>
    rw [hs] at havg
    cases ht : t.averages with
    | none => rw [ht] at havg; cases havg
    | some y =>
      rw [ht] at havg
      simp only [Option.map_some, Option.some.injEq] at havg
      refine ⟨rfl, ⟨a.step, a.score, a.m1, a.m2, ?_, a.nr⟩, rfl⟩
      simp only [allocMissing_snd, havg, Option.map_some, PyDict.get?_set_self]

theorem finishCall_other (cfg : OptCfg κ) {k k' : κ} (hk : k' ≠ k) (s : OptState κ) (w g : Vec)
    (lr : ℝ) (n : Nat) : Agree k (finishCall cfg s k' w g lr n).1 s := by
  unfold finishCall
  cases hs : s.averages with
  | none => exact Agree.refl k s
  | some x =>
    refine ⟨rfl, rfl, rfl, rfl, ?_, rfl⟩
    simp only [allocMissing_set, Option.map_some, get?_set', hs, hk.symm, if_false]

theorem radam_agree (cfg : OptCfg κ) {β1 β2 : ℝ} (hc : ∀ s k sc, cfg.b1 s k sc = β1 ∧ cfg.b2 s k sc = β2)
    {k : κ} {s t : OptState κ} (a : Agree k s t) (hs : BufOk β1 β2 s.radamBuffer)
    (ht : BufOk β1 β2 t.radamBuffer) (w g : Vec) :
    (radam cfg s k w g).2 = (radam cfg t k w g).2 ∧ Agree k (radam cfg s k w g).1 (radam cfg t k w g).1 ∧
      BufOk β1 β2 (radam cfg s k w g).1.radamBuffer := by
  have h1 : ∀ s k sc, cfg.b1 s k sc = β1 := fun s k sc => (hc s k sc).1
  have h2 : ∀ s k sc, cfg.b2 s k sc = β2 := fun s k sc => (hc s k sc).2
  obtain ⟨bs1, bs2⟩ := radamBuffered_ok hs ((s.nrUpdate.get? k).getD 0 + 1)
  obtain ⟨bt1, bt2⟩ := radamBuffered_ok ht ((t.nrUpdate.get? k).getD 0 + 1)
  have bs3 := congrArg Prod.fst bs2
  have bs4 := congrArg Prod.snd bs2
  have bt3 := congrArg Prod.fst bt2
  have bt4 := congrArg Prod.snd bt2
  rw [a.nr] at bs1 bs3 bs4
  simp only [radam, allocMissing_snd, h1, h2, a.m1, a.m2, a.step, a.score, a.nr]
  rw [bs3, bs4, bt3, bt4]
  refine ⟨rfl, ⟨rfl, rfl, ?_, ?_, a.avg, a.nr⟩, bs1⟩
  · simp [get?_set']
  · simp [get?_set']

theorem radam_other (cfg : OptCfg κ) {k k' : κ} (hk : k' ≠ k) (s : OptState κ) (w g : Vec) :
    Agree k (radam cfg s k' w g).1 s := by
  refine ⟨rfl, rfl, ?_, ?_, rfl, rfl⟩
  · simp only [radam, get?_set', hk.symm, if_false, allocMissing_get]
  · simp only [radam, get?_set', hk.symm, if_false, allocMissing_get]

theorem adamUpdate_agree (cfg : OptCfg κ) {k : κ} {s t : OptState κ} (a : Agree k s t) (w g : Vec)
    (lr : ℝ) (n : Nat) :
    (adamUpdate cfg s k w g lr n).2 = (adamUpdate cfg t k w g lr n).2 ∧
      Agree k (adamUpdate cfg s k w g lr n).1 (adamUpdate cfg t k w g lr n).1 ∧
      (adamUpdate cfg s k w g lr n).1.radamBuffer = s.radamBuffer := by
  simp only [adamUpdate, allocMissing_snd, a.m1, a.m2, a.step, a.score]
  generalize adam w g _ _ _ _ _ _ = r
  cases r with
  | error e =>
    refine ⟨rfl, ⟨rfl, rfl, ?_, ?_, a.avg, a.nr⟩, rfl⟩
    · simp [allocMissing_get, a.m1]
    · simp [allocMissing_get, a.m2]
  | ok r =>
    refine ⟨rfl, ⟨rfl, rfl, ?_, ?_, a.avg, a.nr⟩, rfl⟩
    · simp [get?_set']
    · simp [get?_set']

theorem adamUpdate_other (cfg : OptCfg κ) {k k' : κ} (hk : k' ≠ k) (s : OptState κ) (w g : Vec)
    (lr : ℝ) (n : Nat) : Agree k (adamUpdate cfg s k' w g lr n).1 s := by
  simp only [adamUpdate]
  generalize adam w g _ _ _ _ _ _ = r
  cases r with
  | error e =>
    refine ⟨rfl, rfl, ?_, ?_, rfl, rfl⟩
    · simp only [allocMissing_get, hk.symm, if_false]
    · simp only [allocMissing_get, hk.symm, if_false]
  | ok r =>
    refine ⟨rfl, rfl, ?_, ?_, rfl, rfl⟩
    · simp only [get?_set', allocMissing_get, hk.symm, if_false]
    · simp only [get?_set', allocMissing_get, hk.symm, if_false]

theorem callBody_agree (cfg : OptCfg κ) {β1 β2 : ℝ} (hc : ConstBetas cfg β1 β2) {k : κ}
    {s t : OptState κ} (a : Agree k s t) (hs : cfg.useRadam = true → BufOk β1 β2 s.radamBuffer)
    (ht : cfg.useRadam = true → BufOk β1 β2 t.radamBuffer) (w g : Vec) (lr : ℝ) (n : Nat) :
    (callBody cfg s k w g lr n).2 = (callBody cfg t k w g lr n).2 ∧
      Agree k (callBody cfg s k w g lr n).1 (callBody cfg t k w g lr n).1 ∧
      (cfg.useRadam = true → BufOk β1 β2 (callBody cfg s k w g lr n).1.radamBuffer) := by
  unfold callBody
  rw [regularised_congr cfg a]
  generalize regularised cfg t k w g = g
  by_cases hra : cfg.useRadam = true
  · simp only [hra, if_true]
    obtain ⟨h1, h2, h3⟩ := radam_agree cfg (hc hra) a (hs hra) (ht hra) w g
    rw [h1]
    obtain ⟨f1, f2, f3⟩ := finishCall_agree cfg h2 (radam cfg t k w g).2 g lr n
    exact ⟨f1, f2, fun _ => by rw [f3]; exact h3⟩
  have e1 : cfg.b1 s.step k s.lastScore = cfg.b1 t.step k t.lastScore := by rw [a.step, a.score]
  have e2 : cfg.b2 s.step k s.lastScore = cfg.b2 t.step k t.lastScore := by rw [a.step, a.score]
  have e3 : cfg.learnRate s.step k s.lastScore = cfg.learnRate t.step k t.lastScore := by
    rw [a.step, a.score]
  simp only [hra, e1, e2, e3]
  simp only [Bool.false_eq_true, if_false, false_imp_iff, and_true]
  split
  · obtain ⟨h1, h2, _⟩ := adamUpdate_agree cfg a w g lr n
    rcases hx : adamUpdate cfg s k w g lr n with ⟨s1, r1⟩
    rcases hy : adamUpdate cfg t k w g lr n with ⟨t1, r2⟩
    rw [hx, hy] at h1 h2
    simp only at h1 h2
    subst h1
    cases r1 with
    | error e => exact ⟨rfl, h2⟩
    | ok w' =>
      obtain ⟨f1, f2, _⟩ := finishCall_agree cfg h2 w' g lr n
      exact ⟨f1, f2⟩
  · split
    · exact ⟨rfl, a⟩
    · obtain ⟨f1, f2, _⟩ := finishCall_agree cfg a
        (List.zipWith (fun x y => x - lr * cfg.learnRate t.step k t.lastScore * y) w g) g lr n
      exact ⟨f1, f2⟩

theorem call_agree (cfg : OptCfg κ) {β1 β2 : ℝ} (hc : ConstBetas cfg β1 β2) {k : κ}
    {s t : OptState κ} (a : Agree k s t) (hs : cfg.useRadam = true → BufOk β1 β2 s.radamBuffer)
    (ht : cfg.useRadam = true → BufOk β1 β2 t.radamBuffer) (rows : Nat) (w g : Vec) (lr : ℝ) :
    (s.call cfg k rows w g lr).2 = (t.call cfg k rows w g lr).2 ∧
      Agree k (s.call cfg k rows w g lr).1 (t.call cfg k rows w g lr).1 ∧
      (cfg.useRadam = true → BufOk β1 β2 (s.call cfg k rows w g lr).1.radamBuffer) := by
  unfold OptState.call
  by_cases hr : rows < 1
  · simp only [hr, if_true]; exact ⟨trivial, a, hs⟩
  simp only [hr, if_false]
  have a' : Agree k { s with nrUpdate := s.nrUpdate.set k ((s.nrUpdate.get? k).getD 0 + 1) }
      { t with nrUpdate := t.nrUpdate.set k ((t.nrUpdate.get? k).getD 0 + 1) } :=
    ⟨a.step, a.score, a.m1, a.m2, a.avg, by simp [a.nr]⟩
  have := callBody_agree cfg hc a' hs ht w g lr ((t.nrUpdate.get? k).getD 0 + 1)
  rw [a.nr] at this ⊢
  exact this

theorem callBody_other (cfg : OptCfg κ) {k k' : κ} (hk : k' ≠ k) (s : OptState κ) (w g : Vec)
    (lr : ℝ) (n : Nat) : Agree k (callBody cfg s k' w g lr n).1 s := by
  unfold callBody
  generalize regularised cfg s k' w g = g
  simp only
  split
  · exact (finishCall_other cfg hk _ _ _ _ _).trans (radam_other cfg hk s w g)
  · split
    · have := adamUpdate_other cfg hk s w g lr n
      rcases hx : adamUpdate cfg s k' w g lr n with ⟨s1, r1⟩
      rw [hx] at this
      cases r1 with
      | error e => exact this
      | ok w' => exact (finishCall_other cfg hk _ _ _ _ _).trans this
    · split
      · exact Agree.refl k s
      · exact finishCall_other cfg hk _ _ _ _ _

theorem call_other (cfg : OptCfg κ) {k k' : κ} (hk : k' ≠ k) (s : OptState κ) (rows : Nat)
    (w g : Vec) (lr : ℝ) : Agree k (s.call cfg k' rows w g lr).1 s := by
  unfold OptState.call
  split
  · exact Agree.refl k s
  · refine (callBody_other cfg hk _ w g lr _).trans ⟨rfl, rfl, rfl, rfl, rfl, ?_⟩
    simp only [get?_set', hk.symm, if_false]

/-- The number of updates after a call. -/
theorem callBody_nr (cfg : OptCfg κ) (k : κ) (s : OptState κ) (w g : Vec) (lr : ℝ) (n : Nat) :
    (callBody cfg s k w g lr n).1.nrUpdate = s.nrUpdate := by
  have hf (st : OptState κ) (w g : Vec) : (finishCall cfg st k w g lr n).1.nrUpdate = st.nrUpdate := by
    unfold finishCall; cases st.averages <;> rfl
  have ha (g : Vec) : (adamUpdate cfg s k w g lr n).1.nrUpdate = s.nrUpdate := by
    simp only [adamUpdate]; generalize adam w g _ _ _ _ _ _ = r; cases r <;> rfl
  unfold callBody
  generalize regularised cfg s k w g = g
  simp only
  split
  · rw [hf]; rfl
  · split
    · have := ha g
      rcases hx : adamUpdate cfg s k w g lr n with ⟨s1, r1⟩
      rw [hx] at this
      cases r1 with
      | error e => exact this
      | ok w' => simp only; rw [hf]; exact this
    · split
      · rfl
      · rw [hf]

theorem callBody_step (cfg : OptCfg κ) (k : κ) (s : OptState κ) (w g : Vec) (lr : ℝ) (n : Nat) :
    (callBody cfg s k w g lr n).1.step = s.step ∧
      (callBody cfg s k w g lr n).1.lastScore = s.lastScore := by
  have hf (st : OptState κ) (w g : Vec) : (finishCall cfg st k w g lr n).1.step = st.step ∧
      (finishCall cfg st k w g lr n).1.lastScore = st.lastScore := by
    unfold finishCall; cases st.averages <;> exact ⟨rfl, rfl⟩
  have ha (g : Vec) : (adamUpdate cfg s k w g lr n).1.step = s.step ∧
      (adamUpdate cfg s k w g lr n).1.lastScore = s.lastScore := by
    simp only [adamUpdate]; generalize adam w g _ _ _ _ _ _ = r; cases r <;> exact ⟨rfl, rfl⟩
  unfold callBody
  generalize regularised cfg s k w g = g
  simp only
  split
  · exact ⟨(hf _ _ _).1, (hf _ _ _).2⟩
  · split
    · have := ha g
      rcases hx : adamUpdate cfg s k w g lr n with ⟨s1, r1⟩
      rw [hx] at this
      cases r1 with
      | error e => exact this
      | ok w' => exact ⟨(hf _ _ _).1.trans this.1, (hf _ _ _).2.trans this.2⟩
    · split
      · exact ⟨rfl, rfl⟩
      · exact hf _ _ _

/-- After a call that returns, the gradient is zero. -/
theorem callBody_grad (cfg : OptCfg κ) (k : κ) (s : OptState κ) (w g : Vec) (lr : ℝ) (n : Nat)
    (h : (callBody cfg s k w g lr n).2.exc = none) :
    (callBody cfg s k w g lr n).2.gradient
      = List.replicate (regularised cfg s k w g).length 0 := by
  have hf (st : OptState κ) (w g : Vec) :
      (finishCall cfg st k w g lr n).2.gradient = List.replicate g.length 0 := by
    have : (g.map fun x => x * 0) = List.replicate g.length 0 := by simp [List.map_const']
    unfold finishCall; cases st.averages <;> exact this
  unfold callBody at h ⊢
  revert h
  generalize regularised cfg s k w g = g
  simp only
  split
  · intro _; exact hf _ _ _
  · split
    · rcases hx : adamUpdate cfg s k w g lr n with ⟨s1, r1⟩
      cases r1 with
      | error e => intro h; cases h
      | ok w' => intro _; exact hf _ _ _
    · split
      · intro h; cases h
      · intro _; exact hf _ _ _

theorem clipGradient_length (g : Vec) (t : ℝ) : (clipGradient g t).length = g.length := by
  unfold clipGradient; split <;> simp

theorem regularised_length (cfg : OptCfg κ) (s : OptState κ) (k : κ) (w g : Vec)
    (h : w.length = g.length) : (regularised cfg s k w g).length = g.length := by
  unfold regularised
  simp only
  split <;> split <;> simp [clipGradient_length, h]

end Thinc
