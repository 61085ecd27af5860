import Verif.Spec.MemSession
import Verif.Props.ArrMem
import Verif.Props.Session
/-!
# C123: a session of a user who holds arrays is a session on values
-/
namespace Thinc
open Shared Spec.Shared Spec.Tensor
variable {A : Type} {M : MLayer} {L : Layer} {N : Nat} {slot : Slots} {cfg : OptCfg (Nat × String)} {root : Addr} {o g : Bool}

theorem mem_addrs {v : RVal} {a : Nat} : a ∈ v.addrs ↔ ∃ r ∈ v.refs, r.addr = a := by
  unfold RVal.addrs
  rw [List.mem_map]

/-- What is known about a forward pass that waits for its backward pass. -/
inductive Waits (o g : Bool) (mem : ArrMem) (mine : List Nat) : Except PyErr Pass → Except PyErr (Val × Callback) → Prop
  | raised (e : PyErr) : Waits o g mem mine (.error e) (.error e)
  | gave (p : Pass) (cb : Callback) (K : Nat → Prop) (back : Backward K g mem p.callback cb) (old : ∀ a, K a → a < mem.next)
      (reach : ∀ a, K a → a ∈ mine → a ∈ p.input.addrs ∨ a ∈ p.output.addrs)
      (free : o = true → ∀ r ∈ p.output.top, ¬ K r.addr) : Waits o g mem mine (.ok p) (.ok (p.value, cb))

/-- The session on arrays and the session on values. -/
structure Linked (o g : Bool) (slot : Slots) (s : MSession A) (v : Session A) : Prop where
  train : s.train = v.train
  params : s.mem.params = readParams s.train.nodes slot
  mine : ∀ a ∈ s.mine, a < s.mem.next
  handed : List.Forall₂ (Waits o g s.mem s.mine) s.handed v.handed
  predicted : s.predicted = v.predicted

theorem Waits.grows {mem mem' : ArrMem} {mine mine' : List Nat} (hg : Spec.Shared.Grows mem mem') (hm : ∀ a ∈ mine', a ∈ mine ∨ mem.next ≤ a)
    {p : Except PyErr Pass} {r : Except PyErr (Val × Callback)} (h : Waits o g mem mine p r) : Waits o g mem' mine' p r := by
  cases h with
  | raised e => exact .raised e
  | gave p cb K back old reach free =>
    refine .gave p cb K (back.later (hg.later old)) (fun a ha => Nat.lt_of_lt_of_le (old a ha) hg.1) (fun a ha hi => ?_) free
    rcases hm a hi with h | h
    · exact reach a ha h
    · exact absurd (old a ha) (Nat.not_lt.2 h)

theorem waits_seen {mem : ArrMem} {mine : List Nat} {ps : List (Except PyErr Pass)} {rs : List (Except PyErr (Val × Callback))}
    (h : List.Forall₂ (Waits o g mem mine) ps rs) : ps.map (fun r => r.map Pass.value) = rs.map fun r => r.map Prod.fst := by
  induction h with
  | nil => rfl
  | cons h _ ih =>
    rw [List.map_cons, List.map_cons, ih]
    cases h <;> rfl

theorem Linked.seen {s : MSession A} {v : Session A} (h : Linked o g slot s v) : seenOn s = Spec.Shared.seen v := by
  unfold seenOn Spec.Shared.seen
  rw [h.train, h.predicted, waits_seen h.handed]

theorem waits_at {mem : ArrMem} {mine : List Nat} {ps : List (Except PyErr Pass)} {rs : List (Except PyErr (Val × Callback))}
    (h : List.Forall₂ (Waits o g mem mine) ps rs) (k : Nat) :
    (ps[k]? = none ∧ rs[k]? = none) ∨ ∃ p r, ps[k]? = some p ∧ rs[k]? = some r ∧ Waits o g mem mine p r := by
  induction h generalizing k with
  | nil => exact .inl ⟨rfl, rfl⟩
  | cons h _ ih =>
    cases k with
    | zero => exact .inr ⟨_, _, rfl, rfl, h⟩
    | succ k => exact ih k

theorem allowed_in {s : MSession A} {v : Session A} (h : Linked o g slot s v) {X : RVal} (hX : ∀ a ∈ X.addrs, a ∈ s.mine) : In s.mem X :=
  fun r hr => h.mine _ (hX _ (mem_addrs.2 ⟨r, hr, rfl⟩))

theorem among_mine {m : ArrMem} {X Y : RVal} {mine : List Nat} (h : Among m X Y) (hX : ∀ a ∈ X.addrs, a ∈ mine) :
    ∀ a ∈ mine ++ Y.addrs, a ∈ mine ∨ m.next ≤ a := by
  intro a ha
  rcases List.mem_append.1 ha with h1 | h1
  · exact .inl h1
  · obtain ⟨r, hr, rfl⟩ := mem_addrs.1 h1
    rcases h r hr with ⟨q, hq, e⟩ | h2
    · exact .inl (hX _ (mem_addrs.2 ⟨q, hq, e⟩))
    · exact .inr h2

theorem mine_in {m m' : ArrMem} {Y : RVal} {mine : List Nat} (hg : Spec.Shared.Grows m m') (h : ∀ a ∈ mine, a < m.next) (hY : In m' Y) :
    ∀ a ∈ mine ++ Y.addrs, a < m'.next := by
  intro a ha
  rcases List.mem_append.1 ha with h1 | h1
  · exact Nat.lt_of_lt_of_le (h a h1) hg.1
  · obtain ⟨r, hr, rfl⟩ := mem_addrs.1 h1
    exact hY r hr

theorem fresh_facts (m : ArrMem) (D : Val) : Spec.Shared.Grows m (RVal.fresh m D).2 ∧ In (RVal.fresh m D).2 (RVal.fresh m D).1 ∧
    (RVal.fresh m D).1.read (RVal.fresh m D).2 = D ∧ ∀ {mine : List Nat}, ∀ a ∈ mine ++ (RVal.fresh m D).1.addrs, a ∈ mine ∨ m.next ≤ a := by
  obtain ⟨f1, f2, f3, f4⟩ := fresh_spec m D
  refine ⟨f1, f2, f4, fun a ha => ?_⟩
  rcases List.mem_append.1 ha with h | h
  · exact .inl h
  · obtain ⟨r, hr, rfl⟩ := mem_addrs.1 h
    exact .inr (f3 r hr).1

/-- A call of a callback. -/
theorem back_linked {s : MSession A} {v : Session A} (hl : Linked o g slot s v) (k : Nat) (dY : RVal) (ha : ∀ a ∈ dY.addrs, a ∈ s.mine) :
    Spec.Shared.Agree (Linked o g slot) (s.back N slot k dY) (v.back N slot k fun _ => .ok (dY.read s.mem)) := by
  have hD : In s.mem dY := allowed_in hl ha
  obtain ⟨train, mem, mine, handed, predicted⟩ := s
  obtain ⟨train', handed', predicted'⟩ := v
  obtain ⟨h1, h2, h3, h4, h5⟩ := hl
  simp only at h1 h2 h3 h4 h5 hD ha ⊢
  subst h1 h5
  unfold MSession.back Session.back MSession.pass Session.callback
  simp only
  rcases waits_at h4 k with ⟨e1, e2⟩ | ⟨p, r, e1, e2, hw⟩
  · rw [e1, e2]
    exact (rfl : PyErr.indexError = _)
  · rw [e1, e2]
    cases hw with
    | raised e => exact (rfl : e = e)
    | gave p cb K back old reach free =>
      have hb := back mem dY (readGrads train.nodes slot) ⟨Nat.le_refl _, rfl, fun _ _ => rfl⟩ hD
      simp only [bind, Except.bind]
      refine agree_bind (α := RVal × ArrMem × GradStore) (β := Val × GradStore) hb ?_
      rintro ⟨dX, m1, G⟩ ⟨d, G'⟩ ⟨g1, g2, -, g4, g5, -⟩
      have g4 : G = G' := g4
      subst g4
      refine ⟨rfl, ?_, mine_in g1 h3 g2, h4.imp fun _ _ hw => hw.grows g1 (among_mine g5 ha), rfl⟩
      exact (g1.2.1.trans h2).trans (readParams_only (writeGrads_only slot G train.nodes N) slot).symm

/-- One call. -/
theorem call_linked (h : Faithful o g M L) {s : MSession A} {v : Session A} (hl : Linked o g slot s v) (c : MCall) (ha : Allowed o s c) :
    Spec.Shared.Agree (Linked o g slot) (s.call M N slot cfg root c) (Session.run L N slot cfg root v (callOn s.mem c)) := by
  obtain ⟨train, mem, mine, handed, predicted⟩ := s
  obtain ⟨train', handed', predicted'⟩ := v
  obtain ⟨h1, h2, h3, h4, h5⟩ := hl
  simp only at h1 h2 h3 h4 h5
  subst h1 h5
  cases c with
  | new B =>
    refine ⟨rfl, h2, ?_, h4.imp fun _ _ hw => hw.grows (grows_alloc mem B) ?_, rfl⟩
    · intro a ha
      rcases List.mem_append.1 ha with h | h
      · exact Nat.lt_succ_of_lt (h3 a h)
      · rw [List.mem_singleton.1 h]
        exact Nat.lt_succ_self _
    · intro a ha
      rcases List.mem_append.1 ha with h | h
      · exact .inl h
      · rw [List.mem_singleton.1 h]
        exact .inr (Nat.le_refl _)
  | write r B =>
    obtain ⟨hm, hp⟩ := ha
    refine ⟨rfl, h2, h3, ?_, rfl⟩
    show List.Forall₂ (Waits o g (r.put mem B) mine) handed handed'
    simp only at hp hm
    clear h2 h3
    induction h4 with
    | nil => exact .nil
    | cons hw _ ih =>
      refine .cons ?_ (ih fun p hpm => hp p (List.mem_cons_of_mem _ hpm))
      cases hw with
      | raised e => exact .raised e
      | gave p cb K back old reach free =>
        obtain ⟨n1, n2⟩ := hp p (List.mem_cons_self ..)
        refine .gave p cb K (back.later ⟨Nat.le_refl _, rfl, fun a ka => put_other mem r B fun e => ?_⟩) old reach free
        rw [e] at ka
        rcases reach _ ka hm with h | h
        · exact n1 h
        · obtain ⟨ho, ht⟩ := n2 h
          obtain ⟨q, hq, e⟩ := List.mem_map.1 ht
          exact free ho q hq (e ▸ ka)
  | predict X =>
    have hX : In mem X := allowed_in (s := ⟨train, mem, mine, handed, predicted⟩) (v := ⟨train, handed', predicted⟩) ⟨rfl, h2, h3, h4, rfl⟩ ha
    have hf := h false X mem hX
    unfold FaithfulAt at hf
    rw [h2] at hf
    show Spec.Shared.Agree _ (Except.ok (MSession.afterPredict _ (M false X mem))) (Except.ok _)
    revert hf
    cases e1 : M false X mem with
    | error e =>
      cases e2 : L false (readParams train.nodes slot) (X.read mem) with
      | error e' =>
        intro hf
        cases (show e = e' from hf)
        refine ⟨rfl, h2, h3, h4, ?_⟩
        simp only [MSession.afterPredict, e2]
        rfl
      | ok r => exact fun hf => hf.elim
    | ok out =>
      cases e2 : L false (readParams train.nodes slot) (X.read mem) with
      | error e' => exact fun hf => hf.elim
      | ok r =>
        obtain ⟨Y, c, m1⟩ := out
        rintro ⟨g1, g2, g3, g4, -⟩
        refine ⟨rfl, g1.2.1.trans h2, mine_in g1 h3 g2, h4.imp fun _ _ hw => hw.grows g1 (among_mine g4 ha), ?_⟩
        simp only [MSession.afterPredict, e2, Except.map]
        rw [show Y.read m1 = r.1 from g3]
  | beginUpdate X =>
    have hX : In mem X := allowed_in (s := ⟨train, mem, mine, handed, predicted⟩) (v := ⟨train, handed', predicted⟩) ⟨rfl, h2, h3, h4, rfl⟩ ha
    have hf := h true X mem hX
    unfold FaithfulAt at hf
    rw [h2] at hf
    show Spec.Shared.Agree _ (Except.ok (MSession.afterBegin _ X (M true X mem))) (Except.ok _)
    revert hf
    cases e1 : M true X mem with
    | error e =>
      cases e2 : L true (readParams train.nodes slot) (X.read mem) with
      | error e' =>
        intro hf
        cases (show e = e' from hf)
        refine ⟨rfl, h2, h3, ?_, rfl⟩
        simp only [MSession.afterBegin, e2]
        exact List.rel_append h4 (.cons (.raised e) .nil)
      | ok r => exact fun hf => hf.elim
    | ok out =>
      cases e2 : L true (readParams train.nodes slot) (X.read mem) with
      | error e' => exact fun hf => hf.elim
      | ok r =>
        obtain ⟨Y, c, m1⟩ := out
        obtain ⟨y, cb⟩ := r
        rintro ⟨g1, g2, g3, g4, K, k1, k2, k3, k4⟩
        have g3 : Y.read m1 = y := g3
        subst g3
        refine ⟨rfl, g1.2.1.trans h2, mine_in g1 h3 g2, ?_, rfl⟩
        simp only [MSession.afterBegin, e2]
        refine List.rel_append (h4.imp fun _ _ hw => hw.grows g1 (among_mine g4 ha)) (.cons (.gave ⟨X, Y, Y.read m1, c⟩ cb K k4 k2 ?_ fun ho => (k3 ho).2) .nil)
        intro a ka hm
        rcases k1 a ka with ⟨q, hq, e⟩ | hn
        · exact .inl (mem_addrs.2 ⟨q, hq, e⟩)
        · rcases List.mem_append.1 hm with h | h
          · exact absurd (h3 a h) (Nat.not_lt.2 hn)
          · exact .inr h
  | backprop k dY =>
    have hr : Session.run L N slot cfg root ⟨train, handed', predicted⟩ (callOn mem (.backprop k dY)) =
        Session.back N slot ⟨train, handed', predicted⟩ k fun _ => .ok (dY.read mem) := by
      show (Session.back N slot ⟨train, handed', predicted⟩ k fun _ => .ok (dY.read mem)).bind pure = _
      cases Session.back N slot ⟨train, handed', predicted⟩ k fun _ => .ok (dY.read mem) <;> rfl
    rw [hr]
    exact back_linked (s := ⟨train, mem, mine, handed, predicted⟩) ⟨rfl, h2, h3, h4, rfl⟩ k dY ha
  | backpropLoss k getGrad =>
    have hr : Session.run L N slot cfg root ⟨train, handed', predicted⟩ (callOn mem (.backpropLoss k getGrad)) =
        Session.back N slot ⟨train, handed', predicted⟩ k getGrad := by
      show (Session.back N slot ⟨train, handed', predicted⟩ k getGrad).bind pure = _
      cases Session.back N slot ⟨train, handed', predicted⟩ k getGrad <;> rfl
    show Spec.Shared.Agree _ (MSession.backLoss N slot _ k getGrad) (Session.run L N slot cfg root ⟨train, handed', predicted⟩ (callOn mem (.backpropLoss k getGrad)))
    rw [hr]
    have hall : ∀ p, handed[k]? = some (.ok p) → p.output.read mem = p.value := ha
    rcases waits_at h4 k with ⟨e1, e2⟩ | ⟨p, r, e1, e2, hw⟩
    · unfold MSession.backLoss Session.back MSession.pass Session.callback
      simp only [e1, e2]
      exact (rfl : PyErr.indexError = _)
    · cases hw with
      | raised e =>
        unfold MSession.backLoss Session.back MSession.pass Session.callback
        simp only [e1, e2]
        exact (rfl : e = e)
      | gave p cb K back old reach free =>
        have e3 : Session.back N slot ⟨train, handed', predicted⟩ k getGrad =
            (getGrad p.value).bind fun D => Session.back N slot ⟨train, handed', predicted⟩ k fun _ => .ok D := by
          unfold Session.back Session.callback
          simp only [e2]
          show (getGrad p.value).bind _ = _
          cases getGrad p.value <;> rfl
        have e4 : MSession.backLoss N slot ⟨train, mem, mine, handed, predicted⟩ k getGrad =
            (getGrad p.value).bind fun D => (MSession.got ⟨train, mem, mine, handed, predicted⟩ D).back N slot k (RVal.fresh mem D).1 := by
          unfold MSession.backLoss MSession.pass
          simp only [e1]
          show (getGrad (p.output.read mem)).bind _ = _
          rw [hall p e1]
        rw [e3, e4]
        cases getGrad p.value with
        | error e => exact (rfl : e = e)
        | ok D =>
          obtain ⟨f1, f2, f3, f4⟩ := fresh_facts mem D
          have hg : Linked o g slot (MSession.got ⟨train, mem, mine, handed, predicted⟩ D) ⟨train, handed', predicted⟩ :=
            ⟨rfl, f1.2.1.trans h2, mine_in f1 h3 f2, h4.imp fun _ _ hw => hw.grows f1 f4, rfl⟩
          have := back_linked (N := N) hg k (RVal.fresh mem D).1 fun a ha => List.mem_append_right _ ha
          rw [show RVal.read (MSession.got ⟨train, mem, mine, handed, predicted⟩ D).mem (RVal.fresh mem D).1 = D from f3] at this
          exact this
  | finishUpdate =>
    have hr : Session.run L N slot cfg root ⟨train, handed', predicted⟩ (callOn mem .finishUpdate) =
        Session.finish L N slot cfg root ⟨train, handed', predicted⟩ := by
      show (Session.finish L N slot cfg root ⟨train, handed', predicted⟩).bind pure = _
      cases Session.finish L N slot cfg root ⟨train, handed', predicted⟩ <;> rfl
    show Spec.Shared.Agree _ (MSession.finish N slot cfg root _) (Session.run L N slot cfg root ⟨train, handed', predicted⟩ (callOn mem .finishUpdate))
    rw [hr]
    unfold MSession.finish Session.finish
    rw [show trainIteration L N slot cfg root train [] = trainIteration noop N slot cfg root train [] from rfl]
    cases trainIteration noop N slot cfg root train [] with
    | error e => exact (rfl : e = e)
    | ok t => exact ⟨rfl, rfl, h3, .nil, rfl⟩

theorem run_linked (h : Faithful o g M L) (calls : List MCall) : ∀ {s : MSession A} {v : Session A}, Linked o g slot s v →
    Careful o M N slot cfg root s calls →
    Spec.Shared.Agree (Linked o g slot) (s.run M N slot cfg root calls) (Session.run L N slot cfg root v (callsOn M N slot cfg root s calls)) := by
  induction calls with
  | nil => exact fun hl _ => hl
  | cons c cs ih =>
    intro s v hl hc
    have h1 := call_linked (N := N) (cfg := cfg) (root := root) h hl c hc.1
    have e1 : s.run M N slot cfg root (c :: cs) = (s.call M N slot cfg root c).bind fun s' => s'.run M N slot cfg root cs := rfl
    have e2 : Session.run L N slot cfg root v (callsOn M N slot cfg root s (c :: cs)) = (Session.run L N slot cfg root v (callOn s.mem c)).bind fun v' =>
        Session.run L N slot cfg root v' ((s.call M N slot cfg root c).toOption.toList.flatMap fun s' => callsOn M N slot cfg root s' cs) := by
      unfold Session.run
      rw [callsOn, List.foldlM_append]
      rfl
    rw [e1, e2]
    have hc2 := hc.2
    revert h1 hc2
    cases s.call M N slot cfg root c with
    | error e =>
      cases Session.run L N slot cfg root v (callOn s.mem c) with
      | error e' => exact fun h1 _ => h1
      | ok v' => exact fun h1 => h1.elim
    | ok s' =>
      cases Session.run L N slot cfg root v (callOn s.mem c) with
      | error e' => exact fun h1 => h1.elim
      | ok v' =>
        intro h1 hc2
        have := ih h1 (hc2 s' rfl)
        simpa only [Except.bind, Except.toOption, Option.toList, List.flatMap_cons, List.flatMap_nil, List.append_nil] using this

/-- Before the first call. -/
theorem linked_start {s : MSession A} (hp : s.mem.params = readParams s.train.nodes slot) (hm : ∀ a ∈ s.mine, a < s.mem.next) (hh : s.handed = []) :
    Linked o g slot s ⟨s.train, [], s.predicted⟩ := ⟨rfl, hp, hm, by rw [hh]; exact .nil, rfl⟩

/-- Whatever a careful user does with a model and their arrays, they see what the session on values gives: the same exceptions, the same
outputs and predictions, the same model and optimizer.  Sharing arrays does not show. -/
theorem C123_session (h : Faithful o g M L) (s : MSession A) (hp : s.mem.params = readParams s.train.nodes slot) (hm : ∀ a ∈ s.mine, a < s.mem.next)
    (hh : s.handed = []) (calls : List MCall) (hc : Careful o M N slot cfg root s calls) :
    (s.run M N slot cfg root calls).map seenOn =
      (Session.run L N slot cfg root ⟨s.train, [], s.predicted⟩ (callsOn M N slot cfg root s calls)).map Spec.Shared.seen := by
  have h1 := run_linked (N := N) (cfg := cfg) (root := root) h calls (linked_start (o := o) (g := g) hp hm hh) hc
  revert h1
  cases s.run M N slot cfg root calls with
  | error e =>
    cases Session.run L N slot cfg root ⟨s.train, [], s.predicted⟩ (callsOn M N slot cfg root s calls) with
    | error e' => exact fun h1 => congrArg Except.error (show e = e' from h1)
    | ok v => exact fun h1 => h1.elim
  | ok s' =>
    cases Session.run L N slot cfg root ⟨s.train, [], s.predicted⟩ (callsOn M N slot cfg root s calls) with
    | error e' => exact fun h1 => h1.elim
    | ok v => exact fun h1 => congrArg Except.ok (Linked.seen h1)

/-- So training, with forward and backward passes in any order, is the same as going through the batches one after the other. -/
theorem C123_any_order (h : Faithful o g M L) (s : MSession A) (hp : s.mem.params = readParams s.train.nodes slot) (hm : ∀ a ∈ s.mine, a < s.mem.next)
    (hh : s.handed = []) (calls : List MCall) (hc : Careful o M N slot cfg root s calls) (hf : Spec.Fresh 0 (callsOn M N slot cfg root s calls))
    (hdone : (Spec.work [] [] (callsOn M N slot cfg root s calls)).2 = []) :
    (s.run M N slot cfg root calls).map MSession.train =
      trainLoop L N slot cfg root s.train (Spec.work [] [] (callsOn M N slot cfg root s calls)).1 := by
  have h1 := C123_session h s hp hm hh calls hc
  have h2 := C121_any_order (L := L) (N := N) (slot := slot) (cfg := cfg) (root := root) s.train s.predicted _ hf hdone
  rw [← h2]
  have e1 : (s.run M N slot cfg root calls).map MSession.train = ((s.run M N slot cfg root calls).map seenOn).map Prod.fst := by
    cases s.run M N slot cfg root calls <;> rfl
  have e2 : ∀ r : Except PyErr (Session A), r.map Session.train = (r.map Spec.Shared.seen).map Prod.fst := by
    intro r
    cases r <;> rfl
  rw [e1, e2, h1]

/-- And with SGD the parameters are those of gradient descent. -/
theorem C123_sgd {sh : Fin N → ℕ × ℕ} {key : Fin N → Nat × String} {θ : Spec.Params sh} (h : Faithful o g M L) (hra : cfg.useRadam = false)
    (hb2 : ∀ t k s, cfg.b2 t k s = 0) (hL2 : ∀ t k s, cfg.L2 t k s = 0) (s : MSession A) (hp : s.mem.params = readParams s.train.nodes slot)
    (hm : ∀ a ∈ s.mine, a < s.mem.next) (hh : s.handed = []) (calls : List MCall) (hc : Careful o M N slot cfg root s calls)
    (its : List (List (Spec.Batch sh))) (hw : Spec.WorksOn (callsOn M N slot cfg root s calls) its) (H : Spec.Wired s.train.nodes root slot key θ 0)
    (htakes : Spec.TakesAll L (fun t p => cfg.learnRate t (key p) s.train.opt.lastScore) (fun t p => cfg.gradClip t (key p) s.train.opt.lastScore)
      s.train.opt.step θ its) :
    ∃ t, s.run M N slot cfg root calls = .ok t ∧ t.train.opt.step = s.train.opt.step + its.length ∧
      Spec.Wired t.train.nodes root slot key
        (Spec.descent (fun t p => cfg.learnRate t (key p) s.train.opt.lastScore) (fun t p => cfg.gradClip t (key p) s.train.opt.lastScore)
          s.train.opt.step θ (its.map fun bs => bs.map Spec.Batch.loss)) 0 := by
  obtain ⟨s', e, h1, h2⟩ := C77_sgd hra hb2 hL2 s.train its H htakes
  have h3 := C123_any_order h s hp hm hh calls hc hw.1 (by rw [hw.2])
  rw [hw.2] at h3
  have h3 := h3.trans e
  cases e3 : s.run M N slot cfg root calls with
  | error err => rw [e3] at h3; cases h3
  | ok t =>
    rw [e3] at h3
    cases h3
    exact ⟨t, rfl, h1, h2⟩

theorem call_unharmed (h : Faithful o g M L) {s s' : MSession A} {v : Session A} (hl : Linked o g slot s v) {c : MCall} (ha : Allowed o s c)
    (e : s.call M N slot cfg root c = .ok s') {a : Nat} (hn : a < s.mem.next) (hw : ∀ r B, c = .write r B → r.addr ≠ a) :
    s.mem.next ≤ s'.mem.next ∧ s'.mem.cell a = s.mem.cell a := by
  have hback : ∀ {s s' : MSession A} {v : Session A} {k : Nat} {dY : RVal}, Linked o g slot s v → (∀ a ∈ dY.addrs, a ∈ s.mine) →
      s.back N slot k dY = .ok s' → Spec.Shared.Grows { s.mem with params := s'.mem.params } s'.mem := by
    intro s s' v k dY hl ha e
    unfold MSession.back MSession.pass at e
    rcases waits_at hl.handed k with ⟨e1, e2⟩ | ⟨p, r, e1, e2, hw⟩
    · rw [e1] at e; cases e
    · rw [e1] at e
      cases hw with
      | raised e => cases e
      | gave p cb K back old reach free =>
        have hb := back s.mem dY (readGrads s.train.nodes slot) ⟨Nat.le_refl _, rfl, fun _ _ => rfl⟩ (allowed_in hl ha)
        obtain ⟨p', e3, e⟩ := bind_ok (show Except.bind _ _ = _ from e)
        cases e3
        obtain ⟨⟨dX, m1, G⟩, e3, e⟩ := bind_ok (show Except.bind _ _ = _ from e)
        rw [e3] at hb
        cases e
        revert hb
        cases cb (dY.read s.mem) (readGrads s.train.nodes slot) with
        | error _ => exact fun hb => hb.elim
        | ok _ => exact fun hb => ⟨hb.1.1, rfl, hb.1.2.2⟩
  cases c with
  | new B => cases e; exact ⟨Nat.le_succ _, (grows_alloc s.mem B).2.2 a hn⟩
  | write r B => cases e; exact ⟨Nat.le_refl _, put_other s.mem r B (hw r B rfl).symm⟩
  | predict X =>
    have hf := h false X s.mem (allowed_in hl ha)
    unfold FaithfulAt at hf
    cases e
    revert hf
    cases M false X s.mem with
    | error e => exact fun _ => ⟨Nat.le_refl _, rfl⟩
    | ok out =>
      cases L false s.mem.params (X.read s.mem) with
      | error e => exact fun hf => hf.elim
      | ok r => exact fun hf => ⟨hf.1.1, hf.1.2.2 a hn⟩
  | beginUpdate X =>
    have hf := h true X s.mem (allowed_in hl ha)
    unfold FaithfulAt at hf
    cases e
    revert hf
    cases M true X s.mem with
    | error e => exact fun _ => ⟨Nat.le_refl _, rfl⟩
    | ok out =>
      cases L true s.mem.params (X.read s.mem) with
      | error e => exact fun hf => hf.elim
      | ok r => exact fun hf => ⟨hf.1.1, hf.1.2.2 a hn⟩
  | backprop k dY =>
    have := hback hl ha e
    exact ⟨this.1, this.2.2 a hn⟩
  | backpropLoss k getGrad =>
    obtain ⟨p, -, e⟩ := bind_ok (show Except.bind _ _ = _ from e)
    obtain ⟨D, -, e⟩ := bind_ok e
    obtain ⟨f1, f2, f3, f4⟩ := fresh_facts s.mem D
    have hg : Linked o g slot (s.got D) v :=
      ⟨hl.train, f1.2.1.trans hl.params, mine_in f1 hl.mine f2, hl.handed.imp fun _ _ hw => hw.grows f1 f4, hl.predicted⟩
    have := hback hg (fun a ha => List.mem_append_right _ ha) e
    exact ⟨Nat.le_trans f1.1 this.1, (this.2.2 a (Nat.lt_of_lt_of_le hn f1.1)).trans (f1.2.2 a hn)⟩
  | finishUpdate =>
    obtain ⟨t, -, e⟩ := bind_ok (show Except.bind _ _ = _ from e)
    cases e
    exact ⟨Nat.le_refl _, rfl⟩

theorem run_unharmed (h : Faithful o g M L) (calls : List MCall) : ∀ {s s' : MSession A} {v : Session A}, Linked o g slot s v →
    Careful o M N slot cfg root s calls → s.run M N slot cfg root calls = .ok s' → ∀ a, a < s.mem.next → (∀ r B, .write r B ∈ calls → r.addr ≠ a) →
    s'.mem.cell a = s.mem.cell a := by
  induction calls with
  | nil => intro s s' v _ _ e a _ _; cases e; rfl
  | cons c cs ih =>
    intro s s' v hl hc e a hn hw
    obtain ⟨s1, e1, e⟩ := bind_ok (show (s.call M N slot cfg root c).bind (fun s1 => s1.run M N slot cfg root cs) = _ from e)
    have h1 := call_linked (N := N) (cfg := cfg) (root := root) h hl c hc.1
    obtain ⟨g1, g2⟩ := call_unharmed h hl hc.1 e1 hn fun r B e => hw r B (by rw [e]; exact List.mem_cons_self ..)
    rw [e1] at h1
    revert h1
    cases Session.run L N slot cfg root v (callOn s.mem c) with
    | error _ => exact fun h1 => h1.elim
    | ok v' =>
      intro h1
      exact (ih h1 (hc.2 s1 e1) e a (Nat.lt_of_lt_of_le hn g1) fun r B hr => hw r B (List.mem_cons_of_mem _ hr)).trans g2

theorem careful_append {pre post : List MCall} : ∀ {s t : MSession A}, Careful o M N slot cfg root s (pre ++ post) →
    s.run M N slot cfg root pre = .ok t → Careful o M N slot cfg root s pre ∧ Careful o M N slot cfg root t post := by
  induction pre with
  | nil => intro s t h e; cases e; exact ⟨trivial, h⟩
  | cons c cs ih =>
    intro s t h e
    obtain ⟨s1, e1, e⟩ := bind_ok (show (s.call M N slot cfg root c).bind (fun s1 => s1.run M N slot cfg root cs) = _ from e)
    refine ⟨⟨h.1, fun s2 e2 => ?_⟩, (ih (h.2 s1 e1) e).2⟩
    rw [e1] at e2
    cases e2
    exact (ih (h.2 s1 e1) e).1

/-- No call of the model changes an array of the user: from any time on, an array the user has got by then contains what it contained, unless the
user has overwritten it. -/
theorem C123_unharmed (h : Faithful o g M L) (s : MSession A) (hp : s.mem.params = readParams s.train.nodes slot) (hm : ∀ a ∈ s.mine, a < s.mem.next)
    (hh : s.handed = []) (pre post : List MCall) (hc : Careful o M N slot cfg root s (pre ++ post)) {t t' : MSession A}
    (hr : s.run M N slot cfg root pre = .ok t) (hr' : t.run M N slot cfg root post = .ok t') (a : Nat) (ha : a ∈ t.mine)
    (hw : ∀ r B, .write r B ∈ post → r.addr ≠ a) : t'.mem.cell a = t.mem.cell a := by
  obtain ⟨c1, c2⟩ := careful_append hc hr
  have h1 := run_linked (N := N) (cfg := cfg) (root := root) h pre (linked_start (o := o) (g := g) hp hm hh) c1
  rw [hr] at h1
  revert h1
  cases Session.run L N slot cfg root ⟨s.train, [], s.predicted⟩ (callsOn M N slot cfg root s pre) with
  | error _ => exact fun h1 => h1.elim
  | ok v => exact fun h1 => run_unharmed h post h1 c2 hr' a (h1.mine a ha) hw

end Thinc
