import Verif.Spec.Concurrent
import Mathlib.Tactic.ByContra
/-!
# C130: threads that share a model
-/
namespace Thinc
open Conc Random Spec.Conc

section Reading
variable {R : Type}

/-- What a thread returns if no one interferes (it does not write parameters or gradients), and how many steps it takes. -/
private def alone : Code Nat (Mat ℝ) R → ParamVals → (Nat → Bool) → Option R × Nat
  | .ret r, _, _ => (some r, 0)
  | .get k next, P, f => ((alone (next (P k)) P f).1, (alone (next (P k)) P f).2 + 1)
  | .setMode m b next, P, f => ((alone next P (Function.update f m b)).1, (alone next P (Function.update f m b)).2 + 1)
  | .callModule m next, P, f => ((alone (next (f m)) P f).1, (alone (next (f m)) P f).2 + 1)
  | _, _, _ => (none, 0)

/-- The thread reads parameters and uses its own modules. -/
private inductive Uses (mine : Nat → Prop) : Code Nat (Mat ℝ) R → Prop
  | ret (r : R) : Uses mine (.ret r)
  | get (k next) (h : ∀ v, Uses mine (next v)) : Uses mine (.get k next)
  | setMode (m b next) (own : mine m) (h : Uses mine next) : Uses mine (.setMode m b next)
  | callModule (m next) (own : mine m) (h : ∀ b, Uses mine (next b)) : Uses mine (.callModule m next)

private theorem alone_congr {mine : Nat → Prop} {c : Code Nat (Mat ℝ) R} (h : Uses mine c) (P : ParamVals) :
    ∀ f f' : Nat → Bool, (∀ m, mine m → f m = f' m) → alone c P f = alone c P f' := by
  induction h with
  | ret r => exact fun _ _ _ => rfl
  | get k next h ih => exact fun f f' hf => by simp only [alone, ih _ f f' hf]
  | setMode m b next own h ih =>
    intro f f' hf
    have := ih (Function.update f m b) (Function.update f' m b) fun m' hm' => by
      by_cases e : m' = m
      · subst e; simp
      · simp [e, hf m' hm']
    simp only [alone, this]
  | callModule m next own h ih => exact fun f f' hf => by simp only [alone, hf m own, ih _ f f' hf]

/-- A step of the thread itself. -/
private theorem alone_step {mine : Nat → Prop} {c : Code Nat (Mat ℝ) R} (h : Uses mine c) (add) (s : Shared Nat (Mat ℝ)) :
    Uses mine (c.step add s).1 ∧ (c.step add s).2.params = s.params ∧ (c.step add s).2.grads = s.grads ∧
    (∀ m, ¬ mine m → (c.step add s).2.training m = s.training m) ∧
    (alone (c.step add s).1 (c.step add s).2.params (c.step add s).2.training).1 = (alone c s.params s.training).1 ∧
    (alone (c.step add s).1 (c.step add s).2.params (c.step add s).2.training).2 = (alone c s.params s.training).2 - 1 := by
  cases h with
  | ret r => exact ⟨.ret r, rfl, rfl, fun _ _ => rfl, rfl, rfl⟩
  | get k next h => exact ⟨h _, rfl, rfl, fun _ _ => rfl, rfl, rfl⟩
  | setMode m b next own h =>
    refine ⟨h, rfl, rfl, fun m' hm' => ?_, rfl, rfl⟩
    have : m' ≠ m := fun e => hm' (e ▸ own)
    simp [Code.step, this]
  | callModule m next own h => exact ⟨h _, rfl, rfl, fun _ _ => rfl, rfl, rfl⟩

private theorem alone_zero {mine : Nat → Prop} {c : Code Nat (Mat ℝ) R} (h : Uses mine c) (P : ParamVals) (f : Nat → Bool)
    (h0 : (alone c P f).2 = 0) : ∃ r, c = .ret r ∧ (alone c P f).1 = some r := by
  cases h with
  | ret r => exact ⟨r, rfl, rfl⟩
  | get k next h => simp [alone] at h0
  | setMode m b next own h => simp [alone] at h0
  | callModule m next own h => simp [alone] at h0

private theorem readAll_uses {mine : Nat → Prop} (keys : List Nat) : ∀ (P : ParamVals) (next : ParamVals → Code Nat (Mat ℝ) R),
    (∀ P, Uses mine (next P)) → Uses mine (readAll keys P next) := by
  induction keys with
  | nil => exact fun P next h => h P
  | cons k keys ih => exact fun P next h => .get _ _ fun v => ih _ next h

private theorem readAll_alone (keys : List Nat) (P : ParamVals) (f : Nat → Bool) : ∀ (Q : ParamVals) (next : ParamVals → Code Nat (Mat ℝ) R),
    ∃ Q' : ParamVals, (∀ k, (k ∈ keys → Q' k = P k) ∧ (k ∉ keys → Q' k = Q k)) ∧ (alone (readAll keys Q next) P f).1 = (alone (next Q') P f).1 := by
  induction keys with
  | nil => exact fun Q next => ⟨Q, by simp, rfl⟩
  | cons k keys ih =>
    intro Q next
    obtain ⟨Q', h1, h2⟩ := ih (Function.update Q k (P k)) next
    refine ⟨Q', fun k' => ⟨fun hk => ?_, fun hk => ?_⟩, h2⟩
    · by_cases hin : k' ∈ keys
      · exact (h1 k').1 hin
      · have e : k' = k := by simpa [hin] using hk
        rw [(h1 k').2 hin, e]; simp
    · simp only [List.mem_cons, not_or] at hk
      rw [(h1 k').2 hk.2]; simp [hk.1]

private theorem network_uses {mine : Nat → Prop} {C : CLayer R} {L : Layer} (h : Spec.Conc.Network mine C L) :
    ∀ train X (next : After R), (∀ r, Uses mine (next r)) → Uses mine (C train X next) := by
  induction h with
  | leaf keys L reads => exact fun train X next hn => readAll_uses keys _ _ fun P => hn _
  | torch m M own =>
    intro train X next hn
    cases train with
    | true => exact .setMode _ _ _ own (.callModule _ _ own fun b => hn _)
    | false =>
      refine .setMode _ _ _ own (.callModule _ _ own fun b => ?_)
      cases M b X with
      | error e => exact hn _
      | ok r => exact .setMode _ _ _ own (hn _)
  | @combine tree comb calls Cs Ls len nets ih =>
    intro train X next hn
    have hcall : ∀ i x (next : After R), (∀ r, Uses mine (next r)) → Uses mine (callLayerC Cs train i x next) := by
      intro i x next hn
      simp only [callLayerC]
      by_cases hi : i < Cs.length
      · have hi' : i < Ls.length := len ▸ hi
        rw [List.getElem?_eq_getElem hi]
        refine ih (Cs[i], Ls[i]) ?_ train x next hn
        rw [← List.getElem_zip (h := by simpa using ⟨hi, hi'⟩)]
        exact List.getElem_mem _
      · rw [List.getElem?_eq_none (by omega)]
        exact hn _
    have hrun : ∀ t : CallTree, Uses mine (treeC (callLayerC Cs train) t next) := by
      intro t
      induction t with
      | done r => exact hn r
      | call i x rest iht =>
        rw [treeC]
        refine hcall i x _ fun r => ?_
        cases r with
        | error e => exact hn _
        | ok r => exact iht r
    exact hrun _

private theorem network_alone {mine : Nat → Prop} {C : CLayer R} {L : Layer} (h : Spec.Conc.Network mine C L) (P : ParamVals) :
    ∀ train X (next : After R) (f : Nat → Bool), ∃ f', (alone (C train X next) P f).1 = (alone (next (L train P X)) P f').1 := by
  induction h with
  | leaf keys L reads =>
    intro train X next f
    obtain ⟨Q', h1, h2⟩ := readAll_alone keys P f (fun _ => Mat.zeros 0 0) fun P => next (L train P X)
    exact ⟨f, h2.trans (by rw [reads Q' P (fun k hk => (h1 k).1 hk)])⟩
  | torch m M own =>
    intro train X next f
    cases train with
    | true => exact ⟨Function.update f m true, by simp [torchC, alone]⟩
    | false =>
      have h1 : (alone (torchC m M false X next) P f).1 = (alone (finishPredict m next (M false X)) P (Function.update f m false)).1 := by
        show (alone (finishPredict m next (M (Function.update f m false m) X)) P (Function.update f m false)).1 = _
        rw [Function.update_self]
      rw [h1]
      show ∃ f', _ = (alone (next (M false X)) P f').1
      cases M false X with
      | error e => exact ⟨_, rfl⟩
      | ok r => exact ⟨_, rfl⟩
  | @combine tree comb calls Cs Ls len nets ih =>
    intro train X next f
    rw [calls Ls train P X, ← len]
    have hcall : ∀ i x (next : After R) f, ∃ f', (alone (callLayerC Cs train i x next) P f).1 = (alone (next (callLayer Ls train P i x)) P f').1 := by
      intro i x next f
      simp only [callLayerC, callLayer]
      by_cases hi : i < Cs.length
      · have hi' : i < Ls.length := len ▸ hi
        rw [List.getElem?_eq_getElem hi, List.getElem?_eq_getElem hi']
        refine ih (Cs[i], Ls[i]) ?_ train x next f
        rw [← List.getElem_zip (h := by simpa using ⟨hi, hi'⟩)]
        exact List.getElem_mem _
      · rw [List.getElem?_eq_none (by omega), List.getElem?_eq_none (by omega)]
        exact ⟨f, rfl⟩
    have hrun : ∀ (t : CallTree) f, ∃ f', (alone (treeC (callLayerC Cs train) t next) P f).1 = (alone (next (t.run (callLayer Ls train P))) P f').1 := by
      intro t
      induction t with
      | done r => exact fun f => ⟨f, rfl⟩
      | call i x rest iht =>
        intro f
        rw [treeC, CallTree.run]
        obtain ⟨f', h'⟩ := hcall i x (orRaise next fun r => treeC (callLayerC Cs train) (rest r) next) f
        rw [h']
        cases callLayer Ls train P i x with
        | error e => exact ⟨f', rfl⟩
        | ok r => exact iht r f'
    exact hrun _ f

end Reading

/-- **C130.**  Threads that call models at the same time, for predictions or for training, get what they would get alone: whatever the
models share and in whatever order the scheduler lets the threads go on, thread `i` is finished after a number of its own steps that does not
depend on the others, with the output of its model.  The parameters and gradients do not change.  This needs that no two threads
call the same wrapped module. -/
theorem C130_calls_partial (callers : List Caller) (hnet : ∀ c ∈ callers, Spec.Conc.Network c.modules c.model c.computes)
    (apart : ∀ i j (hi : i < callers.length) (hj : j < callers.length), i ≠ j → ∀ m, callers[i].modules m → ¬ callers[j].modules m)
    (add : Mat ℝ → Mat ℝ → Mat ℝ) (s : Shared Nat (Mat ℝ)) :
    ∃ enough : Nat → Nat, ∀ schedule : List Nat,
      let final := Conf.run add ⟨s, callers.map Caller.thread⟩ schedule
      final.shared.params = s.params ∧ final.shared.grads = s.grads ∧
      ∀ i (hi : i < callers.length),
        (∀ r, final.threads[i]? = some (.ret r) → r = callers[i].computes callers[i].train s.params callers[i].input) ∧
        (enough i ≤ schedule.count i →
          final.threads[i]? = some (.ret (callers[i].computes callers[i].train s.params callers[i].input))) := by
  refine ⟨fun i => ((callers.map Caller.thread)[i]?.map fun t => (alone t s.params s.training).2).getD 0, fun schedule => ?_⟩
  -- the invariant
  have key : ∀ schedule : List Nat, let final := Conf.run add ⟨s, callers.map Caller.thread⟩ schedule
      final.shared.params = s.params ∧ final.shared.grads = s.grads ∧ final.threads.length = callers.length ∧
      ∀ i (hi : i < callers.length), ∃ t, final.threads[i]? = some t ∧ Uses callers[i].modules t ∧
        (alone t final.shared.params final.shared.training).1 =
          some (callers[i].computes callers[i].train s.params callers[i].input) ∧
        (alone t final.shared.params final.shared.training).2 =
          ((callers.map Caller.thread)[i]?.map fun t => (alone t s.params s.training).2).getD 0 - schedule.count i := by
    intro schedule
    induction schedule using List.reverseRecOn with
    | nil =>
      refine ⟨rfl, rfl, by simp [Conf.run], fun i hi => ⟨callers[i].thread, by simp [Conf.run, hi], ?_, ?_, ?_⟩⟩
      · exact network_uses (hnet _ (List.getElem_mem hi)) _ _ _ fun r => .ret r
      · obtain ⟨f', h'⟩ := network_alone (hnet _ (List.getElem_mem hi)) s.params callers[i].train callers[i].input .ret s.training
        exact h'
      · simp [hi, Conf.run]
    | append_singleton schedule j ih =>
      obtain ⟨h1, h2, h3, h4⟩ := ih
      have hr : Conf.run add ⟨s, callers.map Caller.thread⟩ (schedule ++ [j]) =
          (Conf.run add ⟨s, callers.map Caller.thread⟩ schedule).step add j := by simp [Conf.run]
      dsimp only
      rw [hr]
      generalize Conf.run add ⟨s, callers.map Caller.thread⟩ schedule = c at h1 h2 h3 h4 ⊢
      by_cases hj : j < callers.length
      · obtain ⟨t, ht, hu, ha, hb⟩ := h4 j hj
        obtain ⟨g1, g2, g3, g4, g5, g6⟩ := alone_step hu add c.shared
        have hs : c.step add j = ⟨(t.step add c.shared).2, c.threads.set j (t.step add c.shared).1⟩ := by
          simp only [Conf.step, ht]
        rw [hs]
        refine ⟨g2.trans h1, g3.trans h2, by simpa using h3, fun i hi => ?_⟩
        by_cases hij : i = j
        · subst hij
          refine ⟨(t.step add c.shared).1, by simp [h3, hi], g1, g5.trans ha, ?_⟩
          rw [g6, hb, List.count_append]
          simp; omega
        · obtain ⟨u, hu1, hu2, hu3, hu4⟩ := h4 i hi
          have hcount : (schedule ++ [j]).count i = schedule.count i := by
            rw [List.count_append, List.count_singleton]
            simp [Ne.symm hij]
          refine ⟨u, ?_, hu2, ?_, ?_⟩
          · rw [List.getElem?_set_ne (Ne.symm hij), hu1]
          · rw [← hu3]
            have := alone_congr hu2 c.shared.params (t.step add c.shared).2.training c.shared.training fun m hm =>
              g4 m (apart i j hi hj hij m hm)
            show (alone u (t.step add c.shared).2.params _).1 = _
            rw [g2, this]
          · rw [hcount, ← hu4]
            have := alone_congr hu2 c.shared.params (t.step add c.shared).2.training c.shared.training fun m hm =>
              g4 m (apart i j hi hj hij m hm)
            show (alone u (t.step add c.shared).2.params _).2 = _
            rw [g2, this]
      · have hs : c.step add j = c := by
          simp only [Conf.step, List.getElem?_eq_none (by omega : c.threads.length ≤ j)]
        rw [hs]
        refine ⟨h1, h2, h3, fun i hi => ?_⟩
        obtain ⟨u, hu1, hu2, hu3, hu4⟩ := h4 i hi
        have hcount : (schedule ++ [j]).count i = schedule.count i := by
          rw [List.count_append, List.count_singleton]
          have : j ≠ i := by omega
          simp [this]
        exact ⟨u, hu1, hu2, hu3, by rw [hcount]; exact hu4⟩
  obtain ⟨h1, h2, h3, h4⟩ := key schedule
  refine ⟨h1, h2, fun i hi => ?_⟩
  obtain ⟨t, ht, hu, ha, hb⟩ := h4 i hi
  refine ⟨fun r hr => ?_, fun hn => ?_⟩
  · rw [ht] at hr
    obtain rfl : t = .ret r := by simpa using hr
    simpa [alone] using ha
  · have h0 : (alone t (Conf.run add ⟨s, callers.map Caller.thread⟩ schedule).shared.params
        (Conf.run add ⟨s, callers.map Caller.thread⟩ schedule).shared.training).2 = 0 := by
      rw [hb]; exact Nat.sub_eq_zero_of_le hn
    obtain ⟨r, rfl, hr⟩ := alone_zero hu _ _ h0
    rw [ht]
    rw [hr] at ha
    simpa using ha

end Thinc
