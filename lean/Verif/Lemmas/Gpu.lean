import Verif.Spec.Gpu
import Mathlib.Tactic.ByContra
import Mathlib.Tactic.SplitIfs
import Mathlib.Data.List.Count
/-!
# Threads that keep to their own elements do not depend on the schedule
-/
namespace Thinc.Gpu
variable {α R S : Type}

/-- Run alone from memory `m`, the program reads only elements in `rd`, writes only elements in `own`, stays inside its arrays, and
ends with a result and memory in `Q`. -/
def Prog.wp (rd own : Loc → Prop) : Prog α R → Mem α → (R → Mem α → Prop) → Prop
  | .ret r, m, Q => Q r m
  | .read p i k, m, Q => (0 ≤ i ∧ i < m.size p) ∧ rd (p, i.toNat) ∧ (k (m.get (p, i.toNat))).wp rd own m Q
  | .write p i c k, m, Q => (0 ≤ i ∧ i < m.size p) ∧ own (p, i.toNat) ∧ k.wp rd own (m.set (p, i.toNat) c) Q
  | .fault, _, _ => False

theorem wp_mono {rd own : Loc → Prop} {Q Q' : R → Mem α → Prop} (h : ∀ r m, Q r m → Q' r m) :
    ∀ {k : Prog α R} {m : Mem α}, k.wp rd own m Q → k.wp rd own m Q'
  | .ret _, _, hk => h _ _ hk
  | .read _ _ k, _, ⟨h1, h2, h3⟩ => ⟨h1, h2, wp_mono h h3⟩
  | .write _ _ _ _, _, ⟨h1, h2, h3⟩ => ⟨h1, h2, wp_mono h h3⟩
  | .fault, _, hk => hk.elim

theorem wp_weaken {rd rd' own own' : Loc → Prop} {Q : R → Mem α → Prop} (hr : ∀ l, rd l → rd' l) (ho : ∀ l, own l → own' l) :
    ∀ {k : Prog α R} {m : Mem α}, k.wp rd own m Q → k.wp rd' own' m Q
  | .ret _, _, hk => hk
  | .read _ _ _, _, ⟨h1, h2, h3⟩ => ⟨h1, hr _ h2, wp_weaken hr ho h3⟩
  | .write _ _ _ _, _, ⟨h1, h2, h3⟩ => ⟨h1, ho _ h2, wp_weaken hr ho h3⟩
  | .fault, _, hk => hk.elim

theorem wp_bind {rd own : Loc → Prop} {f : R → Prog α S} {Q : S → Mem α → Prop} :
    ∀ {k : Prog α R} {m : Mem α}, (k.bind f).wp rd own m Q ↔ k.wp rd own m (fun r m => (f r).wp rd own m Q)
  | .ret _, _ => Iff.rfl
  | .read _ _ _, _ => and_congr_right fun _ => and_congr_right fun _ => wp_bind
  | .write _ _ _ _, _ => and_congr_right fun _ => and_congr_right fun _ => wp_bind
  | .fault, _ => Iff.rfl

/-- What is not owned keeps its content, and arrays keep their size. -/
theorem wp_frame {rd own : Loc → Prop} {Q : R → Mem α → Prop} {m0 : Mem α} :
    ∀ {k : Prog α R} {m : Mem α}, k.wp rd own m Q → (∀ l, ¬ own l → m.get l = m0.get l) → m.size = m0.size →
      k.wp rd own m (fun r m => Q r m ∧ (∀ l, ¬ own l → m.get l = m0.get l) ∧ m.size = m0.size)
  | .ret _, _, hk, h, hs => ⟨hk, h, hs⟩
  | .read _ _ _, _, ⟨h1, h2, h3⟩, h, hs => ⟨h1, h2, wp_frame h3 h hs⟩
  | .write p i c _, m, ⟨h1, h2, h3⟩, h, hs => ⟨h1, h2, wp_frame h3 (fun l hl => by
      rw [← h l hl]
      unfold Mem.get Mem.set
      refine if_neg ?_
      intro e
      exact hl (by rw [show l = (p, i.toNat) from e]; exact h2)) hs⟩
  | .fault, _, hk, _, _ => hk.elim

theorem get_set_self (m : Mem α) (l : Loc) (c : Cell α) : (m.set l c).get l = c := by
  unfold Mem.get Mem.set
  exact if_pos rfl

theorem get_set_ne (m : Mem α) {l l' : Loc} (c : Cell α) (h : l' ≠ l) : (m.set l c).get l' = m.get l' := by
  unfold Mem.get Mem.set
  exact if_neg h

/-- Two memories that a program cannot tell apart. -/
def Agree (rd own : Loc → Prop) (m m' : Mem α) : Prop := m.size = m'.size ∧ ∀ l, rd l ∨ own l → m.get l = m'.get l

theorem Agree.set {rd own : Loc → Prop} {m m' : Mem α} (h : Agree rd own m m') (l : Loc) (c : Cell α) :
    Agree rd own (m.set l c) (m'.set l c) := by
  refine ⟨h.1, fun l' hl' => ?_⟩
  by_cases e : l' = l
  · rw [e, get_set_self, get_set_self]
  · rw [get_set_ne _ _ e, get_set_ne _ _ e, h.2 l' hl']

theorem wp_agree {rd own : Loc → Prop} {Q : R → Mem α → Prop} :
    ∀ {k : Prog α R} {m m' : Mem α}, k.wp rd own m Q → Agree rd own m m' →
      k.wp rd own m' (fun r m => ∃ m1, Q r m1 ∧ Agree rd own m1 m)
  | .ret _, m, _, hk, h => ⟨m, hk, h⟩
  | .read p i k, m, m', ⟨h1, h2, h3⟩, h => by
    refine ⟨by rw [← h.1]; exact h1, h2, ?_⟩
    rw [← h.2 _ (.inl h2)]
    exact wp_agree h3 h
  | .write p i c k, m, m', ⟨h1, h2, h3⟩, h => ⟨by rw [← h.1]; exact h1, h2, wp_agree h3 (h.set _ _)⟩
  | .fault, _, _, hk, _ => hk.elim

/-- The number of accesses left can be bounded although what is read decides how many there are: run alone, the program makes
exactly this many. -/
def Prog.cost : Prog α R → Mem α → Nat
  | .ret _, _ => 0
  | .read p i k, m => (k (m.get (p, i.toNat))).cost m + 1
  | .write p i c k, m => k.cost (m.set (p, i.toNat) c) + 1
  | .fault, _ => 0

theorem cost_agree {rd own : Loc → Prop} {Q : R → Mem α → Prop} :
    ∀ {k : Prog α R} {m m' : Mem α}, k.wp rd own m Q → Agree rd own m m' → k.cost m = k.cost m'
  | .ret _, _, _, _, _ => rfl
  | .read p i k, m, m', ⟨_, h2, h3⟩, h => by
    simp only [Prog.cost]
    rw [← h.2 _ (.inl h2), cost_agree h3 h]
  | .write p i c k, m, m', ⟨_, _, h3⟩, h => by
    simp only [Prog.cost]
    rw [cost_agree h3 (h.set _ _)]
  | .fault, _, _, hk, _ => hk.elim

/-- What is known in every state of an execution.  Thread `t` may read `rd t` and write `own t`, and left alone it would finish with a
memory in `Q t`, after no more accesses than at the beginning minus those made. -/
structure Inv (rd own : Nat → Loc → Prop) (Q : Nat → Mem α → Prop) (m0 : Mem α) (n : Nat → Nat) (c : Config α) : Prop where
  wp : ∀ t, (c.todo t).wp (rd t) (own t) c.mem (fun _ m => Q t m)
  out : ∀ l, (∀ t, ¬ own t l) → c.mem.get l = m0.get l
  size : c.mem.size = m0.size
  log : ∀ a ∈ c.log, if a.isWrite then own a.thread a.loc else rd a.thread a.loc
  cost : ∀ t, (c.todo t).cost c.mem = n t

/-- The threads do not interfere: what one owns, no other reads or owns.  `Q` depends only on what a thread may see. -/
structure Separate (rd own : Nat → Loc → Prop) (Q : Nat → Mem α → Prop) : Prop where
  disj : ∀ t t' l, t ≠ t' → own t l → ¬ own t' l ∧ ¬ rd t' l
  dep : ∀ t m m', Agree (rd t) (own t) m m' → Q t m → Q t m'

theorem Inv.step {rd own : Nat → Loc → Prop} {Q : Nat → Mem α → Prop} {m0 : Mem α} {n : Nat → Nat} {c : Config α}
    (hs : Separate rd own Q) (h : Inv rd own Q m0 n c) (t : Nat) :
    ∃ c', c.step t = some c' ∧ Inv rd own Q m0 (Function.update n t (n t - 1)) c' := by
  have hw := h.wp t
  have hn := h.cost t
  unfold Config.step
  cases hk : c.todo t with
  | ret r =>
    refine ⟨c, rfl, h.wp, h.out, h.size, h.log, fun t' => ?_⟩
    by_cases e : t' = t
    · subst e
      rw [hk] at hn ⊢
      rw [Function.update_self, ← hn]
      rfl
    · rw [Function.update_of_ne e]
      exact h.cost t'
  | fault =>
    rw [hk] at hw
    exact hw.elim
  | read p i k =>
    rw [hk] at hw hn
    obtain ⟨h1, h2, h3⟩ := hw
    simp only
    rw [if_pos h1]
    refine ⟨_, rfl, fun t' => ?_, h.out, h.size, fun a ha => ?_, fun t' => ?_⟩
    · by_cases e : t' = t
      · subst e
        simp only [Function.update_self]
        exact h3
      · simp only [Function.update_of_ne e]
        exact h.wp t'
    · rcases List.mem_cons.1 ha with rfl | ha
      · simpa using h2
      · exact h.log a ha
    · by_cases e : t' = t
      · subst e
        simp only [Function.update_self]
        rw [← hn]
        rfl
      · simp only [Function.update_of_ne e]
        exact h.cost t'
  | write p i x k =>
    rw [hk] at hw hn
    obtain ⟨h1, h2, h3⟩ := hw
    simp only
    rw [if_pos h1]
    have hag : ∀ t', t' ≠ t → Agree (rd t') (own t') c.mem (c.mem.set (p, i.toNat) x) := by
      intro t' e
      refine ⟨rfl, fun l hl => ?_⟩
      rw [get_set_ne]
      rintro rfl
      have := hs.disj t t' _ (Ne.symm e) h2
      rcases hl with hl | hl
      · exact this.2 hl
      · exact this.1 hl
    refine ⟨_, rfl, fun t' => ?_, fun l hl => ?_, h.size, fun a ha => ?_, fun t' => ?_⟩
    · by_cases e : t' = t
      · subst e
        simp only [Function.update_self]
        exact h3
      · simp only [Function.update_of_ne e]
        exact wp_mono (fun _ m ⟨m1, hq, ha⟩ => hs.dep t' _ _ ha hq) (wp_agree (h.wp t') (hag t' e))
    · rw [← h.out l hl]
      apply get_set_ne
      rintro rfl
      exact hl t h2
    · rcases List.mem_cons.1 ha with rfl | ha
      · simpa using h2
      · exact h.log a ha
    · by_cases e : t' = t
      · subst e
        simp only [Function.update_self]
        rw [← hn]
        rfl
      · simp only [Function.update_of_ne e]
        rw [← cost_agree (h.wp t') (hag t' e)]
        exact h.cost t'

theorem Inv.run {rd own : Nat → Loc → Prop} {Q : Nat → Mem α → Prop} {m0 : Mem α} (hs : Separate rd own Q) :
    ∀ (schedule : List Nat) {n : Nat → Nat} {c : Config α}, Inv rd own Q m0 n c →
      ∃ c', c.run schedule = some c' ∧ Inv rd own Q m0 (fun t => n t - schedule.count t) c'
  | [], n, c, h => ⟨c, rfl, by simpa using h⟩
  | t :: ts, n, c, h => by
    obtain ⟨c1, h1, h2⟩ := h.step hs t
    obtain ⟨c2, h3, h4⟩ := Inv.run hs ts h2
    refine ⟨c2, by simp only [Config.run, h1, h3], ?_⟩
    have : (fun t' => Function.update n t (n t - 1) t' - ts.count t') = (fun t' => n t' - (t :: ts).count t') := by
      funext t'
      by_cases e : t' = t
      · subst e
        rw [Function.update_self, List.count_cons_self]
        omega
      · rw [Function.update_of_ne e, List.count_cons_of_ne (Ne.symm e)]
    rw [← this]
    exact h4

theorem Inv.finished {rd own : Nat → Loc → Prop} {Q : Nat → Mem α → Prop} {m0 : Mem α} {n : Nat → Nat} {c : Config α}
    (h : Inv rd own Q m0 n c) (hn : ∀ t, n t = 0) : c.Finished := by
  intro t
  have hw := h.wp t
  have hc := h.cost t
  rw [hn t] at hc
  cases hk : c.todo t with
  | ret r => exact ⟨r, rfl⟩
  | fault => rw [hk] at hw; exact hw.elim
  | read p i k => rw [hk] at hc; simp [Prog.cost] at hc
  | write p i x k => rw [hk] at hc; simp [Prog.cost] at hc

theorem Inv.raceFree {rd own : Nat → Loc → Prop} {Q : Nat → Mem α → Prop} {m0 : Mem α} {n : Nat → Nat} {c : Config α}
    (hs : Separate rd own Q) (h : Inv rd own Q m0 n c) : RaceFree c.log := by
  have key : ∀ a ∈ c.log, ∀ b ∈ c.log, a.thread ≠ b.thread → a.loc = b.loc → a.isWrite = false := by
    intro a ha b hb hne hl
    by_contra hw
    have h1 := h.log a ha
    have h2 := h.log b hb
    rw [if_pos (by simpa using hw)] at h1
    have h3 := hs.disj a.thread b.thread a.loc hne h1
    rw [hl] at h3
    split_ifs at h2
    · exact h3.1 h2
    · exact h3.2 h2
  intro a ha b hb hne hl
  exact ⟨key a ha b hb hne hl, key b hb a ha (Ne.symm hne) hl.symm⟩

/-- A loop with an invariant for the local variables and the memory. -/
theorem wp_loop {rd own : Loc → Prop} {body : R → Nat → Prog α R} (I : Nat → R → Mem α → Prop) :
    ∀ {n : Nat} {s : R} {m : Mem α}, I 0 s m → (∀ i < n, ∀ s m, I i s m → (body s i).wp rd own m (I (i + 1))) →
      (loop n s body).wp rd own m (I n)
  | 0, _, _, h0, _ => h0
  | n + 1, s, m, h0, hb => by
    unfold loop
    rw [wp_bind]
    exact wp_mono (fun s m h => hb n (by omega) s m h) (wp_loop I h0 (fun i hi => hb i (by omega)))

/-- The items of a grid-stride loop. -/
theorem wp_gridLoop {rd own : Loc → Prop} {body : R → Nat → Prog α R} {stride B : Nat} (hst : 0 < stride)
    (I : Nat → R → Mem α → Prop) :
    ∀ {fuel start : Nat} {s : R} {m : Mem α}, B ≤ start + fuel → I start s m →
      (∀ b < B, b % stride = start % stride → ∀ s m, I b s m → (body s b).wp rd own m (I (b + stride))) →
      (gridLoop fuel start stride B s body).wp rd own m (fun s m => ∃ b, B ≤ b ∧ b % stride = start % stride ∧ I b s m)
  | 0, start, s, m, hf, h0, _ => ⟨start, hf, rfl, h0⟩
  | fuel + 1, start, s, m, hf, h0, hb => by
    unfold gridLoop
    split_ifs with h
    · rw [wp_bind]
      refine wp_mono (fun s m hi => ?_) (hb start h rfl s m h0)
      have := wp_gridLoop (fuel := fuel) (start := start + stride) hst I (by omega) hi
        (fun b hlt he => hb b hlt (by rw [he, Nat.add_mod_right]))
      exact wp_mono (fun s m ⟨b, h1, h2, h3⟩ => ⟨b, h1, by rw [h2, Nat.add_mod_right], h3⟩) this
    · exact ⟨start, by omega, rfl, h0⟩

/-- What is not owned has its old content. -/
def Frame (own : Loc → Prop) (m0 m : Mem α) : Prop := m.size = m0.size ∧ ∀ l, ¬ own l → m.get l = m0.get l

theorem Frame.refl (own : Loc → Prop) (m : Mem α) : Frame own m m := ⟨rfl, fun _ _ => rfl⟩

/-- A loop with an invariant, in which what is not owned keeps its content. -/
theorem wp_loopF {rd own : Loc → Prop} {body : R → Nat → Prog α R} {m0 : Mem α} (I : Nat → R → Mem α → Prop) {n : Nat} {s : R} {m : Mem α}
    (h0 : I 0 s m) (hf : Frame own m0 m)
    (hb : ∀ i < n, ∀ s m, I i s m → Frame own m0 m → (body s i).wp rd own m (I (i + 1))) :
    (loop n s body).wp rd own m (fun s m => I n s m ∧ Frame own m0 m) := by
  refine wp_loop (fun i s m => I i s m ∧ Frame own m0 m) ⟨h0, hf⟩ (fun i hi s m h => ?_)
  exact wp_mono (fun s m ⟨h1, h2, h3⟩ => ⟨h1, h3, h2⟩) (wp_frame (hb i hi s m h.1 h.2) h.2.2 h.2.1)

theorem wp_bind' {rd own : Loc → Prop} {f : R → Prog α S} {Q : S → Mem α → Prop} {k : Prog α R} {m : Mem α} :
    (k >>= f).wp rd own m Q ↔ k.wp rd own m (fun r m => (f r).wp rd own m Q) := wp_bind

theorem wp_pure {rd own : Loc → Prop} {Q : R → Mem α → Prop} {r : R} {m : Mem α} : (pure r : Prog α R).wp rd own m Q ↔ Q r m := Iff.rfl

theorem wp_readNum {rd own : Loc → Prop} {Q : α → Mem α → Prop} {m : Mem α} {p : Nat} {i : Int} {x : α} (n : Nat) (hi : i = n)
    (hn : n < m.size p) (hr : rd (p, n)) (hx : m.get (p, n) = .num x) (hq : Q x m) : (readNum p i).wp rd own m Q := by
  subst hi
  refine ⟨⟨by omega, by omega⟩, hr, ?_⟩
  rw [Int.toNat_natCast, hx]
  exact hq

theorem wp_readInt {rd own : Loc → Prop} {Q : Int → Mem α → Prop} {m : Mem α} {p : Nat} {i : Int} {x : Int} (n : Nat) (hi : i = n)
    (hn : n < m.size p) (hr : rd (p, n)) (hx : m.get (p, n) = .int x) (hq : Q x m) : (readInt p i).wp rd own m Q := by
  subst hi
  refine ⟨⟨by omega, by omega⟩, hr, ?_⟩
  rw [Int.toNat_natCast, hx]
  exact hq

theorem wp_writeNum {rd own : Loc → Prop} {Q : Unit → Mem α → Prop} {m : Mem α} {p : Nat} {i : Int} {x : α} (n : Nat) (hi : i = n)
    (hn : n < m.size p) (hr : own (p, n)) (hq : Q () (m.set (p, n) (.num x))) : (writeNum p i x).wp rd own m Q := by
  subst hi
  exact ⟨⟨by omega, by omega⟩, hr, hq⟩

theorem wp_writeInt {rd own : Loc → Prop} {Q : Unit → Mem α → Prop} {m : Mem α} {p : Nat} {i : Int} {x : Int} (n : Nat) (hi : i = n)
    (hn : n < m.size p) (hr : own (p, n)) (hq : Q () (m.set (p, n) (.int x))) : (writeInt p i x).wp rd own m Q := by
  subst hi
  exact ⟨⟨by omega, by omega⟩, hr, hq⟩

theorem Always.mono {k : Kernel α} {m : Mem α} {Q Q' : Mem α → Prop} (h : Always k m Q) (hq : ∀ m, Q m → Q' m) : Always k m Q' := by
  intro blocks threads hb ht
  obtain ⟨h1, h2⟩ := h blocks threads hb ht
  refine ⟨fun schedule => ?_, h2⟩
  obtain ⟨c, hc, hr, hf⟩ := h1 schedule
  exact ⟨c, hc, hr, fun h => hq _ (hf h)⟩

/-- **Grid-stride kernels.**  Item `b` owns the elements `O b`, and no two items own the same one.  All threads may read `ro`, which
nobody owns.  If the body of the loop, for any values of the local variables that the invariant `J` allows, works on what it may see
and leaves the elements of its item with the property `P b`, then after every execution the elements of all items have it
and everything else is unchanged. -/
theorem always_grid {N : Nat} {O : Nat → Loc → Prop} {ro : Loc → Prop} {P : Nat → Mem α → Prop} {m0 : Mem α} {J : Nat → R → Prop}
    (body : R → Nat → Prog α R) (s0 : R)
    (hO : ∀ b b' l, b < N → b' < N → O b l → O b' l → b = b')
    (hro : ∀ b l, b < N → O b l → ¬ ro l)
    (hP : ∀ b m m', (∀ l, O b l → m.get l = m'.get l) → P b m → P b m')
    (hJ0 : J 0 s0) (hJ : ∀ b b' s, b ≤ b' → J b s → J b' s)
    (hbody : ∀ b < N, ∀ s m, J b s → m.size = m0.size → (∀ l, ro l → m.get l = m0.get l) → (∀ l, O b l → m.get l = m0.get l) →
      (body s b).wp (fun l => ro l ∨ O b l) (O b) m (fun s m => J b s ∧ P b m)) :
    Always (grid N s0 body) m0
      (fun m => m.size = m0.size ∧ (∀ b < N, P b m) ∧ ∀ l, (∀ b < N, ¬ O b l) → m.get l = m0.get l) := by
  unfold grid
  intro blocks threads hb ht
  have hS : 0 < threads * blocks := Nat.mul_pos ht hb
  generalize hSd : threads * blocks = S at hS
  -- who owns what
  let own : Nat → Loc → Prop := fun t l => t < S ∧ ∃ b < N, b % S = t ∧ O b l
  let rd : Nat → Loc → Prop := fun t l => ro l ∨ own t l
  let Q : Nat → Mem α → Prop := fun t m => t < S → ∀ b < N, b % S = t → P b m
  have hsep : Separate rd own Q := by
    refine ⟨fun t t' l hne ho => ?_, fun t m m' hag hq hlt b hb he => ?_⟩
    · obtain ⟨_, b, hb, he, hbl⟩ := ho
      have h1 : ¬ own t' l := by
        rintro ⟨_, b', hb', he', hbl'⟩
        rw [hO b b' l hb hb' hbl hbl'] at he
        omega
      refine ⟨h1, fun hr => ?_⟩
      rcases hr with hr | hr
      · exact hro b l hb hbl hr
      · exact h1 hr
    · exact hP b m m' (fun l hl => hag.2 l (.inr ⟨hlt, b, hb, he, hl⟩)) (hq hlt b hb he)
  have hwp : ∀ t, ((launch blocks threads
      (fun start stride => (gridLoop N start stride N s0 body).bind (fun _ => Prog.ret ())) m0).todo t).wp (rd t) (own t) m0 (fun _ m => Q t m) := by
    intro t
    simp only [launch, hSd]
    split_ifs with hlt
    · rw [wp_bind]
      -- the items below `b` are done, the others untouched
      have := wp_gridLoop (rd := rd t) (own := own t) (body := body) (stride := S) (B := N) hS
        (fun b s m => J b s ∧ m.size = m0.size ∧ (∀ l, ro l → m.get l = m0.get l) ∧
          (∀ b' < N, b' % S = t → b' < b → P b' m) ∧
          (∀ b' < N, b ≤ b' → ∀ l, O b' l → m.get l = m0.get l))
        (fuel := N) (start := t) (s := s0) (m := m0) (by omega)
        ⟨hJ 0 t s0 (by omega) hJ0, rfl, fun _ _ => rfl, fun b' _ he hlt' => absurd (Nat.mod_le b' S) (by omega), fun _ _ _ _ _ => rfl⟩
        (by
          intro b hbN he s m ⟨h1, h2, h3, h4, h5⟩
          rw [Nat.mod_eq_of_lt hlt] at he
          have hbd := hbody b hbN s m h1 h2 h3 (fun l hl => h5 b hbN (Nat.le_refl b) l hl)
          refine wp_mono ?_ (wp_weaken ?_ ?_ (wp_frame hbd (m0 := m) (fun _ _ => rfl) rfl))
          · rintro s' m' ⟨⟨hj, hf⟩, hfr, hsz⟩
            refine ⟨hJ b _ _ (by omega) hj, by rw [hsz, h2], fun l hl => ?_, fun b' hb' he' hlt' => ?_, fun b' hb' hle l hl => ?_⟩
            · rw [hfr l (fun ho => hro b l hbN ho hl), h3 l hl]
            · by_cases e : b' = b
              · subst e
                exact hf
              · have hlt2 : b' < b := by
                  by_contra hge
                  have hd : b' = b + (b' - b) := by omega
                  have : (b' - b) % S = 0 := Nat.sub_mod_eq_zero_of_mod_eq (he'.trans he.symm)
                  rw [Nat.mod_eq_of_lt (by omega)] at this
                  omega
                exact hP b' m m' (fun l hl => (hfr l (fun ho => e (hO b' b l hb' hbN hl ho))).symm) (h4 b' hb' he' hlt2)
            · have e : b' ≠ b := by omega
              rw [hfr l (fun ho => e (hO b' b l hb' hbN hl ho))]
              exact h5 b' hb' (by omega) l hl
          · rintro l (hl | hl)
            · exact .inl hl
            · exact .inr ⟨hlt, b, hbN, he, hl⟩
          · exact fun l hl => ⟨hlt, b, hbN, he, hl⟩)
      refine wp_mono ?_ this
      rintro s m ⟨b, hge, _, _, _, _, h4, _⟩ _ b' hb' he'
      exact h4 b' hb' he' (by omega)
    · exact fun h => absurd h hlt
  let c0 := launch blocks threads (fun start stride => (gridLoop N start stride N s0 body).bind (fun _ => Prog.ret ())) m0
  have hinv : Inv rd own Q m0 (fun t => (c0.todo t).cost m0) c0 :=
    ⟨hwp, fun _ _ => rfl, rfl, fun a ha => by simp [c0, launch] at ha, fun _ => rfl⟩
  refine ⟨fun schedule => ?_, ?_⟩
  · obtain ⟨c, hc, hi⟩ := Inv.run hsep schedule hinv
    refine ⟨c, hc, hi.raceFree hsep, fun hfin => ⟨hi.size, fun b hb => ?_, fun l hl => ?_⟩⟩
    · obtain ⟨r, hr⟩ := hfin (b % S)
      have := hi.wp (b % S)
      rw [hr] at this
      exact this (Nat.mod_lt _ hS) b hb rfl
    · exact hi.out l (fun t ⟨_, b, hb, _, hbl⟩ => hl b hb hbl)
  · -- the largest number of accesses of a thread
    have : ∃ n, ∀ t, (c0.todo t).cost m0 ≤ n := by
      have hex : ∀ k, ∃ n, ∀ t < k, (c0.todo t).cost m0 ≤ n := by
        intro k
        induction k with
        | zero => exact ⟨0, fun t h => by omega⟩
        | succ k ih =>
          obtain ⟨n, hn⟩ := ih
          refine ⟨max n ((c0.todo k).cost m0), fun t h => ?_⟩
          by_cases e : t = k
          · subst e
            exact Nat.le_max_right _ _
          · exact Nat.le_trans (hn t (by omega)) (Nat.le_max_left _ _)
      obtain ⟨n, hn⟩ := hex S
      refine ⟨n, fun t => ?_⟩
      by_cases hlt : t < S
      · exact hn t hlt
      · simp [c0, launch, hSd, hlt, Prog.cost]
    obtain ⟨n, hn⟩ := this
    refine ⟨n, fun schedule hsch c hc => ?_⟩
    obtain ⟨c', hc', hi⟩ := Inv.run hsep schedule hinv
    have : c' = c := by
      rw [hc] at hc'
      exact (Option.some.inj hc').symm
    subst this
    apply hi.finished
    intro t
    show (c0.todo t).cost m0 - schedule.count t = 0
    by_cases hlt : t < S
    · have := hsch t hlt
      have := hn t
      omega
    · have : (c0.todo t).cost m0 = 0 := by simp [c0, launch, hSd, hlt, Prog.cost]
      omega

end Thinc.Gpu
