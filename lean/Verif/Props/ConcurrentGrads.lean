import Verif.Spec.Concurrent
import Mathlib.Data.List.Perm.Basic
import Mathlib.Tactic.SplitIfs
/-!
# C130: gradients of several threads; where threads interfere
-/
namespace Thinc
open Conc Random Spec.Conc
variable {K V R : Type} [DecidableEq K]

/-- The same as `Increments`, with the number of steps. -/
private inductive Inc (P : K → V) : Code K V R → R → List (K × V) → Nat → Prop
  | ret (r : R) : Inc P (.ret r) r [] 0
  | get (k : K) (next : V → Code K V R) (r : R) (l : List (K × V)) (n : Nat) (h : Inc P (next (P k)) r l n) : Inc P (.get k next) r l (n + 1)
  | inc (k : K) (v : V) (err next : Code K V R) (r : R) (l : List (K × V)) (n : Nat) (h : Inc P next r l n) :
      Inc P (incC k v err next) r ((k, v) :: l) (n + 2)

private theorem Inc.of {P : K → V} {c : Code K V R} {r : R} {l : List (K × V)} (h : Increments P c r l) : ∃ n, Inc P c r l n := by
  induction h with
  | ret r => exact ⟨_, .ret r⟩
  | get k next r l h ih => obtain ⟨n, ih⟩ := ih; exact ⟨_, .get k next r l n ih⟩
  | inc k v err next r l h ih => obtain ⟨n, ih⟩ := ih; exact ⟨_, .inc k v err next r l n ih⟩

/-- A thread between two steps: what remains to be added. -/
private inductive Pending (P : K → V) (G : K → Option V) : Code K V R → R → List (K × V) → Nat → Prop
  | start (c : Code K V R) (r : R) (l : List (K × V)) (n : Nat) (h : Inc P c r l n) : Pending P G c r l n
  | put (k : K) (v : V) (next : Code K V R) (r : R) (l : List (K × V)) (n : Nat) (hG : G k = none) (h : Inc P next r l n) :
      Pending P G (.putGrad k v next) r ((k, v) :: l) (n + 1)
  | add (k : K) (v : V) (err next : Code K V R) (r : R) (l : List (K × V)) (n : Nat) (hG : G k ≠ none) (h : Inc P next r l n) :
      Pending P G (.addGrad k v fun ok => if ok then next else err) r ((k, v) :: l) (n + 1)

/-- Another thread's step. -/
private theorem Pending.stable {P : K → V} {G G' : K → Option V} (hsome : ∀ k, G k ≠ none → G' k ≠ none) {c : Code K V R} {r : R}
    {l : List (K × V)} {n : Nat} (h : Pending P G c r l n) (hnone : ∀ k ∈ l.map Prod.fst, G k = none → G' k = none) :
    Pending P G' c r l n := by
  cases h with
  | start _ _ _ _ h => exact .start _ _ _ _ h
  | put k v next _ l n hG h => exact .put k v next r l n (hnone k (by simp) hG) h
  | add k v err next _ l n hG h => exact .add k v err next r l n (hsome k hG) h

private theorem Pending.zero {P : K → V} {G : K → Option V} {c : Code K V R} {r : R} {l : List (K × V)} (h : Pending P G c r l 0) :
    c = .ret r ∧ l = [] := by
  cases h with
  | start _ _ _ _ h => cases h; exact ⟨rfl, rfl⟩

private theorem ofKey_cons (k k' : K) (v : V) (l : List (K × V)) : ofKey k ((k', v) :: l) = if k' = k then v :: ofKey k l else ofKey k l := by
  by_cases h : k' = k <;> simp [ofKey, h]

/-- The thread's own step. -/
private theorem Pending.step {P : K → V} (add : V → V → V) {s : Shared K V} (hP : s.params = P) {c : Code K V R} {r : R} {l : List (K × V)}
    {n : Nat} (h : Pending P s.grads c r l n) :
    ∃ l', Pending P (c.step add s).2.grads (c.step add s).1 r l' (n - 1) ∧ (c.step add s).2.params = P ∧
      (∀ k ∈ l'.map Prod.fst, k ∈ l.map Prod.fst) ∧
      (∀ k, (ofKey k l').foldl (plus add) ((c.step add s).2.grads k) = (ofKey k l).foldl (plus add) (s.grads k)) ∧
      (∀ k, s.grads k ≠ none → (c.step add s).2.grads k ≠ none) ∧
      (∀ k, k ∉ l.map Prod.fst → s.grads k = none → (c.step add s).2.grads k = none) := by
  cases h with
  | start _ _ _ _ h =>
    cases h with
    | ret => exact ⟨[], .start _ _ _ _ (.ret r), hP, by simp, fun _ => rfl, fun _ h => h, fun _ _ h => h⟩
    | get k next _ _ n h => exact ⟨l, .start _ _ _ _ (by simpa [Code.step, hP] using h), hP, fun _ h => h, fun _ => rfl, fun _ h => h, fun _ _ h => h⟩
    | inc k v err next _ l n h =>
      refine ⟨(k, v) :: l, ?_, hP, fun _ h => h, fun _ => rfl, fun _ h => h, fun _ _ h => h⟩
      show Pending P s.grads (if (s.grads k).isSome then _ else _) r ((k, v) :: l) (n + 1)
      cases hk : s.grads k with
      | none => exact .put k v next r l n hk h
      | some g => exact .add k v err next r l n (by simp [hk]) h
  | put k v next _ l n hG h =>
    refine ⟨l, .start _ _ _ _ h, hP, fun k' hk' => by simp only [List.map_cons, List.mem_cons]; exact Or.inr hk', fun k' => ?_, fun k' hk' => ?_,
      fun k' hk' h0 => ?_⟩
    · rw [ofKey_cons]
      by_cases e : k = k'
      · subst e; simp [Code.step, hG, plus]
      · simp [Code.step, e, Ne.symm e]
    · by_cases e : k' = k
      · subst e; simp [Code.step]
      · simpa [Code.step, e] using hk'
    · have e : k' ≠ k := fun e => hk' (by simp [e])
      simpa [Code.step, e] using h0
  | add k v err next _ l n hG h =>
    obtain ⟨g, hg⟩ := Option.ne_none_iff_exists'.1 hG
    have hs : (Code.addGrad k v fun ok => if ok then next else err : Code K V R).step add s =
        (next, { s with grads := Function.update s.grads k (some (add g v)) }) := by
      simp [Code.step, hg]
    rw [hs]
    refine ⟨l, .start _ _ _ _ h, hP, fun k' hk' => by simp only [List.map_cons, List.mem_cons]; exact Or.inr hk', fun k' => ?_, fun k' hk' => ?_,
      fun k' hk' h0 => ?_⟩
    · rw [ofKey_cons]
      by_cases e : k = k'
      · subst e; simp [hg, plus]
      · simp [e, Ne.symm e]
    · by_cases e : k' = k
      · subst e; simp
      · simpa [e] using hk'
    · have e : k' ≠ k := fun e => hk' (by simp [e])
      simpa [e] using h0

private theorem plus_comm {add : V → V → V} (comm : ∀ a b, add a b = add b a) (assoc : ∀ a b c, add (add a b) c = add a (add b c))
    (G : Option V) (v w : V) : plus add (plus add G v) w = plus add (plus add G w) v := by
  cases G with
  | none => simp [plus, comm]
  | some g => simp only [plus, assoc, comm v w]

private theorem foldl_move {add : V → V → V} (comm : ∀ a b, add a b = add b a) (assoc : ∀ a b c, add (add a b) c = add a (add b c))
    (k : K) (G : Option V) (ls : List (List (K × V))) (j : Nat) (hj : j < ls.length) :
    (ofKey k ls.flatten).foldl (plus add) G =
      (ofKey k (ls.eraseIdx j).flatten).foldl (plus add) ((ofKey k ls[j]).foldl (plus add) G) := by
  have hp : (ls[j] :: ls.eraseIdx j).flatten.Perm ls.flatten := (List.getElem_cons_eraseIdx_perm hj).flatten
  have hp' : (ofKey k (ls[j] :: ls.eraseIdx j).flatten).Perm (ofKey k ls.flatten) := (hp.filter _).map _
  haveI : RightCommutative (plus add) := ⟨plus_comm comm assoc⟩
  rw [← hp'.foldl_eq]
  simp [ofKey, List.foldl_append]

/-- **C130.**  Threads that train at the same time: if every gradient that two of them increment exists before they start, then in every schedule
they end with the gradients that they would have produced one after the other, and each returns what it would have returned alone. -/
theorem C130_gradients_partial {add : V → V → V} (comm : ∀ a b, add a b = add b a) (assoc : ∀ a b c, add (add a b) c = add a (add b c))
    (s : Shared K V) (trainers : List (Trainer K V R)) (h : ∀ t ∈ trainers, Increments s.params t.code t.result t.increments)
    (exist : ∀ k, s.grads k = none → ∀ i j (hi : i < trainers.length) (hj : j < trainers.length), i ≠ j →
      k ∈ trainers[i].increments.map Prod.fst → k ∉ trainers[j].increments.map Prod.fst) :
    ∃ enough : Nat → Nat, ∀ schedule : List Nat, (∀ i < trainers.length, enough i ≤ schedule.count i) →
      let final := Conf.run add ⟨s, trainers.map Trainer.code⟩ schedule
      final.threads = trainers.map (fun t => .ret t.result) ∧ final.shared.params = s.params ∧
      ∀ k, final.shared.grads k = (ofKey k (trainers.flatMap Trainer.increments)).foldl (plus add) (s.grads k) := by
  classical
  have hn : ∀ i, ∃ n, ∀ hi : i < trainers.length, Inc s.params trainers[i].code trainers[i].result trainers[i].increments n := by
    intro i
    by_cases hi : i < trainers.length
    · obtain ⟨n, hn⟩ := Inc.of (h _ (List.getElem_mem hi))
      exact ⟨n, fun _ => hn⟩
    · exact ⟨0, fun h => absurd h hi⟩
  choose enough henough using hn
  refine ⟨enough, fun schedule hsched => ?_⟩
  have key : ∀ schedule : List Nat, let final := Conf.run add ⟨s, trainers.map Trainer.code⟩ schedule
      final.shared.params = s.params ∧ final.threads.length = trainers.length ∧
      ∃ ls : List (List (K × V)), ∃ hl : ls.length = trainers.length,
        (∀ i (hi : i < trainers.length), ∃ t, final.threads[i]? = some t ∧
          Pending s.params final.shared.grads t trainers[i].result (ls[i]'(hl ▸ hi)) (enough i - schedule.count i)) ∧
        (∀ k, final.shared.grads k = none → ∀ i j (hi : i < ls.length) (hj : j < ls.length), i ≠ j →
          k ∈ ls[i].map Prod.fst → k ∉ ls[j].map Prod.fst) ∧
        ∀ k, (ofKey k ls.flatten).foldl (plus add) (final.shared.grads k) =
          (ofKey k (trainers.flatMap Trainer.increments)).foldl (plus add) (s.grads k) := by
    intro schedule
    induction schedule using List.reverseRecOn with
    | nil =>
      refine ⟨rfl, by simp [Conf.run], trainers.map Trainer.increments, by simp, fun i hi => ?_, ?_, ?_⟩
      · refine ⟨trainers[i].code, by simp [Conf.run, hi], ?_⟩
        simpa using Pending.start _ _ _ _ (henough i hi)
      · intro k hk i j hi hj hij
        simpa using exist k hk i j (by simpa using hi) (by simpa using hj) hij
      · intro k
        simp [Conf.run, List.flatMap]
    | append_singleton schedule j ih =>
      obtain ⟨h1, h2, ls, hl, h3, h4, h5⟩ := ih
      have hr : Conf.run add ⟨s, trainers.map Trainer.code⟩ (schedule ++ [j]) =
          (Conf.run add ⟨s, trainers.map Trainer.code⟩ schedule).step add j := by simp [Conf.run]
      dsimp only
      rw [hr]
      generalize Conf.run add ⟨s, trainers.map Trainer.code⟩ schedule = c at h1 h2 h3 h4 h5 ⊢
      by_cases hj : j < trainers.length
      · obtain ⟨t, ht, hp⟩ := h3 j hj
        obtain ⟨l', g1, g2, g3, g4, g5, g6⟩ := hp.step add h1
        have hs : c.step add j = ⟨(t.step add c.shared).2, c.threads.set j (t.step add c.shared).1⟩ := by
          simp only [Conf.step, ht]
        rw [hs]
        have hjl : j < ls.length := hl ▸ hj
        refine ⟨g2, by simpa using h2, ls.set j l', by simpa using hl, fun i hi => ?_, ?_, ?_⟩
        · by_cases hij : i = j
          · subst hij
            refine ⟨(t.step add c.shared).1, by simp [h2, hi], ?_⟩
            have : enough i - (schedule ++ [i]).count i = enough i - schedule.count i - 1 := by
              rw [List.count_append]; simp; omega
            rw [this]
            simpa using g1
          · obtain ⟨u, hu1, hu2⟩ := h3 i hi
            have hcount : (schedule ++ [j]).count i = schedule.count i := by
              rw [List.count_append, List.count_singleton]
              simp [Ne.symm hij]
            refine ⟨u, by rw [List.getElem?_set_ne (Ne.symm hij), hu1], ?_⟩
            rw [hcount]
            have := hu2.stable (G' := (t.step add c.shared).2.grads) g5 fun k hk h0 =>
              g6 k (h4 k h0 i j (hl ▸ hi) hjl hij hk) h0
            simpa [List.getElem_set_ne (Ne.symm hij)] using this
        · intro k hk i i' hi hi' hne hin hin'
          have h0 : c.shared.grads k = none := by
            by_contra h0
            exact g5 k h0 hk
          have back : ∀ i (hi : i < (ls.set j l').length), k ∈ ((ls.set j l')[i]).map Prod.fst →
              k ∈ (ls[i]'(by simpa using hi)).map Prod.fst := by
            intro i hi hin
            by_cases e : j = i
            · subst e; exact g3 k (by simpa using hin)
            · simpa [List.getElem_set_ne e] using hin
          exact h4 k h0 i i' (by simpa using hi) (by simpa using hi') hne (back i hi hin) (back i' hi' hin')
        · intro k
          rw [← h5 k, foldl_move comm assoc k _ (ls.set j l') j (by simpa using hjl), foldl_move comm assoc k _ ls j hjl, List.eraseIdx_set_eq]
          simp only [List.getElem_set_self]
          rw [g4 k]
      · have hs : c.step add j = c := by
          simp only [Conf.step, List.getElem?_eq_none (by omega : c.threads.length ≤ j)]
        rw [hs]
        refine ⟨h1, h2, ls, hl, fun i hi => ?_, h4, h5⟩
        have hcount : (schedule ++ [j]).count i = schedule.count i := by
          rw [List.count_append, List.count_singleton]
          have : j ≠ i := by omega
          simp [this]
        rw [hcount]
        exact h3 i hi
  obtain ⟨h1, h2, ls, hl, h3, h4, h5⟩ := key schedule
  have hdone : ∀ i (hi : i < trainers.length),
      (Conf.run add ⟨s, trainers.map Trainer.code⟩ schedule).threads[i]? = some (.ret trainers[i].result) ∧ ls[i]'(hl ▸ hi) = [] := by
    intro i hi
    obtain ⟨t, ht, hp⟩ := h3 i hi
    rw [Nat.sub_eq_zero_of_le (hsched i hi)] at hp
    obtain ⟨rfl, hnil⟩ := hp.zero
    exact ⟨ht, hnil⟩
  refine ⟨?_, h1, fun k => ?_⟩
  · apply List.ext_getElem?
    intro i
    by_cases hi : i < trainers.length
    · rw [(hdone i hi).1]; simp [hi]
    · rw [List.getElem?_eq_none (by omega), List.getElem?_eq_none (by simpa using Nat.le_of_not_lt hi)]
  · have hf : ls.flatten = [] := by
      rw [List.flatten_eq_nil_iff]
      intro l hlm
      obtain ⟨i, hi, rfl⟩ := List.getElem_of_mem hlm
      exact (hdone i (hl ▸ hi)).2
    rw [← h5 k, hf]
    rfl

/-! ### Where threads interfere -/

/-- **C130 fails for the first gradients**: two threads that increment a gradient that does not exist yet can lose one of the increments. -/
theorem C130_gradients_wrong (add : V → V → V) (s : Shared K V) (k : K) (hk : s.grads k = none) (v w : V) (err : Code K V Unit) :
    ∃ schedule, let final := Conf.run add ⟨s, [incC k v err (.ret ()), incC k w err (.ret ())]⟩ schedule
      final.threads = [.ret (), .ret ()] ∧ final.shared.grads k = some w := by
  refine ⟨[0, 1, 0, 1], ?_⟩
  simp [Conf.run, Conf.step, incC, Code.step, hk]

/-- **C130 fails for predictions with one wrapped module**: the prediction of one thread can be computed in training mode (with dropout, for
example), because the other thread has set the module back to it. -/
theorem C130_module_wrong (add : Mat ℝ → Mat ℝ → Mat ℝ) (s : Shared Nat (Mat ℝ)) (m : Nat) (M : Bool → Val → Except PyErr (Val × Callback))
    (X X' : Val) (r r' : Val × Callback) (h : M true X = .ok r) (h' : M false X' = .ok r') :
    ∃ schedule, (Conf.run add ⟨s, [torchC m M false X .ret, torchC m M false X' .ret]⟩ schedule).threads = [.ret (.ok r), .ret (.ok r')] := by
  refine ⟨[0, 1, 1, 1, 0, 0], ?_⟩
  simp [Conf.run, Conf.step, torchC, Code.step, h, h', finishPredict]

/-- **C130 fails for predictions during an update**: a thread that reads two parameters while another thread sets them (in `finish_update` or
`use_params`) can get one old and one new, and computes with a mixture of the two models. -/
theorem C130_update_wrong (add : V → V → V) (s : Shared K V) (k k' : K) (hne : k ≠ k') (v v' : V) (result : V → V → R) (done : R) :
    ∃ schedule, (Conf.run add ⟨s, [.get k fun a => .get k' fun b => .ret (result a b), .setParam k v (.setParam k' v' (.ret done))]⟩
      schedule).threads = [.ret (result (s.params k) v'), .ret done] := by
  refine ⟨[0, 1, 1, 0], ?_⟩
  simp [Conf.run, Conf.step, Code.step]

/-! ### Instances -/

-- Two threads that read a parameter and add to one existing gradient, and to others of their own.
example := C130_gradients_partial (K := Nat) (V := Int) (R := Int) (add := (· + ·)) Int.add_comm Int.add_assoc
  ⟨fun _ => 5, fun k => if k = 0 then some 1 else none, fun _ => true⟩
  [⟨.get 0 fun w => incC 0 (w * 2) (.ret 0) (incC 1 w (.ret 0) (.ret w)), 5, [(0, 10), (1, 5)]⟩, ⟨incC 0 7 (.ret 0) (.ret 1), 1, [(0, 7)]⟩]
  (by
    intro t ht
    simp only [List.mem_cons, List.not_mem_nil, or_false] at ht
    rcases ht with rfl | rfl
    · exact .get _ _ _ _ (.inc _ _ _ _ _ _ (.inc _ _ _ _ _ _ (.ret _)))
    · exact .inc _ _ _ _ _ _ (.ret _))
  (by
    intro k hk i j hi hj hij h1 h2
    have hk0 : k ≠ 0 := by
      rintro rfl
      simp at hk
    have hi' : i = 0 ∨ i = 1 := by simp at hi; omega
    have hj' : j = 0 ∨ j = 1 := by simp at hj; omega
    rcases hi' with rfl | rfl <;> rcases hj' with rfl | rfl <;> simp [hk0] at h1 h2 hij)

end Thinc
