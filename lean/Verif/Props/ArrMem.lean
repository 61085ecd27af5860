import Verif.Lemmas.ArrMem
import Verif.Props.Chain
/-!
# C122: arrays that are shared
-/
namespace Thinc
open Shared Spec.Shared

/-- `noop`, and `Dropout` at prediction: input and output are the same array. -/
theorem C122_noop : Faithful false false mNoop noop := fun _ X m hX =>
  ⟨Grows.refl m, hX, rfl, fun r hr => .inl ⟨r, hr, rfl⟩, fun _ => False, fun _ h => h.elim, fun _ h => h.elim, fun h => (by cases h),
    fun m' dY G _ hd => ⟨Grows.refl m', hd, rfl, rfl, fun r hr => .inl ⟨r, hr, rfl⟩, fun h => (by cases h)⟩⟩

theorem C122_linear (W b : Nat) : Faithful true true (linearBody W b).layer (linear W b) := by
  refine body_faithful (linearBody W b) (linear W b) false (fun train P X => ?_) (fun _ _ _ _ _ _ => rfl)
  unfold linearBody linear
  simp only
  refine agree_same _ fun A hA => agree_same _ fun B hB => agree_same _ fun C hC => ?_
  refine ⟨rfl, ?_⟩
  funext dY G
  rw [hA]
  rfl

/-! ### chain -/

theorem mChainLoop_acc (train : Bool) (Ms : List MLayer) (X : RVal) (acc : List MCallback) (m : ArrMem) :
    mChainLoop train Ms X acc m = (do
      let (Y, cbs, m) ← mChainLoop train Ms X [] m
      return (Y, acc ++ cbs, m)) := by
  induction Ms generalizing X acc m with
  | nil => simp [mChainLoop, bind, Except.bind, pure, Except.pure]
  | cons M Ms ih =>
    simp only [mChainLoop]
    cases M train X m with
    | error e => rfl
    | ok r =>
      simp only [bind, Except.bind, List.nil_append]
      rw [ih, ih r.1 [r.2.1]]
      cases mChainLoop train Ms r.1 [] r.2.2 with
      | error e => rfl
      | ok q => simp [bind, Except.bind, pure, Except.pure]

theorem mChainBack_append (as bs : List MCallback) (dY : RVal) (m : ArrMem) (G : GradStore) :
    mChainBack (as ++ bs) dY m G = (do
      let (dX, m, G) ← mChainBack as dY m G
      mChainBack bs dX m G) := by
  induction as generalizing dY m G with
  | nil => rfl
  | cons a as ih =>
    simp only [List.cons_append, mChainBack]
    cases a dY m G with
    | error e => rfl
    | ok r => exact ih _ _ _

theorem mChainBack_single (c : MCallback) : mChainBack [c] = c := by
  funext dY m G
  simp only [mChainBack]
  cases c dY m G <;> rfl

theorem mChain_single (M : MLayer) : mChain [M] = M := by
  funext train X m
  simp only [mChain, mChainLoop, List.isEmpty_cons, Bool.false_eq_true, if_false]
  cases M train X m with
  | error e => rfl
  | ok r =>
    simp only [bind, Except.bind, List.nil_append, List.reverse_singleton, pure, Except.pure, mChainBack_single]

theorem mChain_cons (M : MLayer) (Ms : List MLayer) (hMs : Ms ≠ []) (train : Bool) (X : RVal) (m : ArrMem) :
    mChain (M :: Ms) train X m = (do
      let (Y, first, m) ← M train X m
      let (Z, rest, m) ← mChain Ms train Y m
      return (Z, fun dZ m G => do
        let (dY, m, G) ← rest dZ m G
        first dY m G, m)) := by
  have hE : Ms.isEmpty = false := by cases Ms with | nil => exact absurd rfl hMs | cons => rfl
  simp only [mChain, mChainLoop, List.isEmpty_cons, Bool.false_eq_true, if_false, hE]
  cases M train X m with
  | error e => rfl
  | ok r =>
    obtain ⟨Y, cb, m⟩ := r
    simp only [bind, Except.bind, List.nil_append, pure, Except.pure]
    rw [mChainLoop_acc]
    cases mChainLoop train Ms Y [] m with
    | error e => rfl
    | ok q =>
      obtain ⟨Z, cbs, m⟩ := q
      simp only [bind, Except.bind, pure, Except.pure]
      congr 3
      funext dZ m G
      rw [List.singleton_append, List.reverse_cons, mChainBack_append, mChainBack_single]
      rfl

/-- Two layers, one after the other. -/
theorem faithful_seq {o o' g g' : Bool} {M M' : MLayer} {L L' : Layer} (h : Faithful o g M L) (h' : Faithful o' g' M' L') :
    Faithful o' g (fun train X m => do
        let (Y, first, m) ← M train X m
        let (Z, rest, m) ← M' train Y m
        return (Z, fun dZ m G => do
          let (dY, m, G) ← rest dZ m G
          first dY m G, m))
      (fun train P X => do
        let (Y, first) ← L train P X
        let (Z, rest) ← L' train P Y
        return (Z, fun dZ G => do
          let (dY, G) ← rest dZ G
          first dY G)) := by
  intro train X m hX
  refine agree_bind (h train X m hX) ?_
  rintro ⟨Y, c, m1⟩ ⟨y, cb⟩ ⟨g1, i1, r1, a1, K, k1, k2, k3, k4⟩
  simp only at g1 i1 r1 a1 k2 k3 k4 ⊢
  have h2 := h' train Y m1 i1
  unfold FaithfulAt at h2
  rw [r1, g1.2.1] at h2
  refine agree_bind h2 ?_
  rintro ⟨Z, c', m2⟩ ⟨z, cb'⟩ ⟨g2, i2, r2, a2, K', k1', k2', k3', k4'⟩
  simp only at g2 i2 r2 a2 k2' k3' k4' ⊢
  refine ⟨g1.trans g2, i2, r2, ?_, fun a => K a ∨ K' a, ?_, ?_, ?_, ?_⟩
  · intro r hr
    rcases a2 r hr with ⟨q, hq, e⟩ | hq
    · rcases a1 q hq with ⟨p, hp, e'⟩ | hp
      · exact .inl ⟨p, hp, e'.trans e⟩
      · exact .inr (e ▸ hp)
    · exact .inr (Nat.le_trans g1.1 hq)
  · rintro a (ha | ha)
    · exact k1 a ha
    · rcases k1' a ha with ⟨q, hq, rfl⟩ | hq
      · exact a1 q hq
      · exact .inr (Nat.le_trans g1.1 hq)
  · rintro a (ha | ha)
    · exact Nat.lt_of_lt_of_le (k2 a ha) g2.1
    · exact k2' a ha
  · intro ho
    obtain ⟨o1, o2⟩ := k3' ho
    refine ⟨fun r hr => ⟨Nat.le_trans g1.1 (o1 r hr).1, (o1 r hr).2⟩, ?_⟩
    rintro r hr (ha | ha)
    · exact absurd (o1 r hr).1 (Nat.not_le.2 (k2 _ ha))
    · exact o2 r hr ha
  · intro m' dZ G hl hd
    refine agree_bind (k4' m' dZ G (hl.mono fun _ => .inr) hd) ?_
    rintro ⟨dY, m3, G1⟩ ⟨d, G1'⟩ ⟨f1, f2, f3, f4, f5, f6⟩
    simp only at f1 f2 f3 f4 f5
    subst f4
    have hK : Later K m1 m3 := (g2.later k2).trans ((hl.mono fun _ => .inl).trans
      (f1.later fun a ha => Nat.lt_of_lt_of_le (k2 a ha) (Nat.le_trans g2.1 hl.1)))
    have h3 := k4 m3 dY G1 hK f2
    rw [f3] at h3
    refine agree_mono h3 ?_
    rintro ⟨dX, m4, G2⟩ ⟨d2, G2'⟩ ⟨e1, e2, e3, e4, e5, e6⟩
    refine ⟨f1.trans e1, e2, e3, e4, ?_, fun ho r hr => ⟨Nat.le_trans f1.1 (e6 ho r hr).1, (e6 ho r hr).2⟩⟩
    intro r hr
    rcases e5 r hr with ⟨q, hq, e⟩ | hq
    · rcases f5 q hq with ⟨p, hp, e'⟩ | hp
      · exact .inl ⟨p, hp, e'.trans e⟩
      · exact .inr (e ▸ hp)
    · exact .inr (Nat.le_trans f1.1 hq)

/-- `chain`: the gradient is in new arrays if the first layer returns it so, and the output if the last layer does. -/
theorem C122_chain {o g o' g' : Bool} {M M' : MLayer} {L L' : Layer} (h : Faithful o g M L) (h' : Faithful o' g' M' L') {Ms : List MLayer} {Ls : List Layer}
    (hs : List.Forall₂ (Faithful false false) Ms Ls) : Faithful o' g (mChain (M :: Ms ++ [M'])) (chain (L :: Ls ++ [L'])) := by
  induction hs generalizing M L o g with
  | nil =>
    intro train X m hX
    simp only [List.cons_append, List.nil_append]
    unfold FaithfulAt
    rw [mChain_cons _ _ (by simp), C51_composes _ _ (by simp), mChain_single, C51_one]
    exact faithful_seq h h' train X m hX
  | @cons M1 L1 Ms Ls h1 _ ih =>
    intro train X m hX
    simp only [List.cons_append]
    unfold FaithfulAt
    rw [mChain_cons _ _ (by simp), C51_composes _ _ (by simp)]
    exact faithful_seq h (ih h1) train X m hX

/-! ### add -/

theorem put_other (m : ArrMem) (r : ArrRef) (B : Mat ℝ) {a : Nat} (h : a ≠ r.addr) : (r.put m B).cell a = m.cell a := if_neg h

theorem put_get (m : ArrMem) {r : ArrRef} (B : Mat ℝ) (h : r.path = []) : r.get (r.put m B) = B := by
  unfold ArrRef.get ArrRef.put
  rw [h]
  show (if r.addr = r.addr then putPath [] _ B else _) = B
  rw [if_pos rfl]
  rfl

theorem readAll_append (m : ArrMem) (vs ws : List RVal) : RVal.readAll m (vs ++ ws) = RVal.readAll m vs ++ RVal.readAll m ws := by
  induction vs with
  | nil => simp only [List.nil_append, RVal.readAll]
  | cons v vs ih => simp only [List.cons_append, RVal.readAll, ih]

theorem refsAll_append (vs ws : List RVal) : RVal.refsAll (vs ++ ws) = RVal.refsAll vs ++ RVal.refsAll ws := by
  induction vs with
  | nil => simp only [List.nil_append, RVal.refsAll]
  | cons v vs ih => simp only [List.cons_append, RVal.refsAll, ih, List.append_assoc]

/-- `v += w` changes the array of `v` only. -/
theorem iadd_agree {m : ArrMem} {v w : RVal} (hv : ∀ r ∈ v.top, r.path = []) :
    Agree (fun out y => out.2.next = m.next ∧ out.2.params = m.params ∧ (∀ a, (∀ r ∈ v.top, r.addr ≠ a) → out.2.cell a = m.cell a) ∧
        out.1.read out.2 = y ∧ (∀ r ∈ out.1.refs, r ∈ v.refs ∨ r ∈ w.refs) ∧ (∀ r ∈ out.1.top, r ∈ v.top))
      (v.iadd w m) ((v.read m).iadd (w.read m)) := by
  cases v <;> cases w <;> first
    | exact (rfl : PyErr.typeError = PyErr.typeError)
    | skip
  case arr.arr r q =>
    simp only [RVal.iadd, RVal.read, Val.iadd]
    refine agree_same _ fun A hA => ?_
    refine ⟨rfl, rfl, fun a ha => put_other _ _ _ fun e => ha r (by simp [RVal.top]) e.symm, ?_, fun r hr => .inl hr, fun r hr => hr⟩
    show RVal.read (r.put m A) (.arr r) = .arr A
    simp only [RVal.read, put_get m A (hv r (by simp [RVal.top]))]
  case ints.ints a b =>
    simp only [RVal.iadd, RVal.read, Val.iadd]
    by_cases h : a.length = b.length
    · rw [if_pos h, if_pos h]
      exact ⟨rfl, rfl, fun _ _ => rfl, by simp only [RVal.read], by simp [RVal.refs], by simp [RVal.top]⟩
    · rw [if_neg h, if_neg h]
      exact (rfl : PyErr.valueError = PyErr.valueError)
  case intMat.intMat A B =>
    simp only [RVal.iadd, RVal.read, Val.iadd]
    by_cases h : A.rows = B.rows ∧ A.cols = B.cols
    · rw [if_pos h, if_pos h]
      exact ⟨rfl, rfl, fun _ _ => rfl, by simp only [RVal.read], by simp [RVal.refs], by simp [RVal.top]⟩
    · rw [if_neg h, if_neg h]
      exact (rfl : PyErr.valueError = PyErr.valueError)
  case list.list vs ws =>
    simp only [RVal.iadd, RVal.read, Val.iadd]
    exact ⟨rfl, rfl, fun _ _ => rfl, by simp only [RVal.read, readAll_append], by simp [RVal.refs, refsAll_append], by simp [RVal.top]⟩
  case list.tup vs ws =>
    simp only [RVal.iadd, RVal.read, Val.iadd]
    exact ⟨rfl, rfl, fun _ _ => rfl, by simp only [RVal.read, readAll_append], by simp [RVal.refs, refsAll_append], by simp [RVal.top]⟩
  case tup.tup vs ws =>
    simp only [RVal.iadd, RVal.read, Val.iadd]
    exact ⟨rfl, rfl, fun _ _ => rfl, by simp only [RVal.read, readAll_append], by simp [RVal.refs, refsAll_append], by simp [RVal.top]⟩

/-- A callback of a layer called with `X` since `m0`, in `m`; the arrays `tops` may be overwritten. -/
def Held (X : RVal) (tops : List ArrRef) (m0 m : ArrMem) (c : MCallback) (cb : Callback) : Prop :=
  ∃ K : Nat → Prop, (∀ a, K a → (∃ q ∈ X.refs, q.addr = a) ∨ m0.next ≤ a) ∧ (∀ a, K a → a < m.next) ∧ (∀ r ∈ tops, ¬ K r.addr) ∧
    Backward K false m c cb

theorem Held.step {X : RVal} {tops tops' : List ArrRef} {m0 m m' : ArrMem} {c : MCallback} {cb : Callback} (h : Held X tops m0 m c cb)
    (ht : ∀ r ∈ tops', r ∈ tops) (hn : m.next ≤ m'.next) (hp : m'.params = m.params)
    (hc : ∀ a, a < m.next → (∀ r ∈ tops, r.addr ≠ a) → m'.cell a = m.cell a) : Held X tops' m0 m' c cb := by
  obtain ⟨K, k1, k2, k3, k4⟩ := h
  exact ⟨K, k1, fun a ha => Nat.lt_of_lt_of_le (k2 a ha) hn, fun r hr => k3 r (ht r hr),
    k4.later ⟨hn, hp, fun a ha => hc a (k2 a ha) fun r hr e => k3 r hr (e ▸ ha)⟩⟩

theorem addForward_agree {train : Bool} {X : RVal} {m0 : ArrMem} (hX0 : In m0 X) {Ms : List MLayer} {Ls : List Layer}
    (hs : List.Forall₂ (Faithful false false) Ms Ls) :
    ∀ (Y : RVal) (cs : List MCallback) (cbs : List Callback) (m : ArrMem), m0.next ≤ m.next → m.params = m0.params →
      (∀ a, a < m0.next → m.cell a = m0.cell a) → In m Y → Own m0 Y → Among m0 X Y → List.Forall₂ (Held X Y.top m0 m) cs cbs →
      Agree (fun out y => Grows m0 out.2.2 ∧ In out.2.2 out.1 ∧ out.1.read out.2.2 = y.1 ∧ Among m0 X out.1 ∧ Own m0 out.1 ∧
          List.Forall₂ (Held X out.1.top m0 out.2.2) out.2.1 y.2 ∧ Later (fun a => a < m.next ∧ ∀ r ∈ Y.top, r.addr ≠ a) m out.2.2 ∧
          ∀ r ∈ out.1.top, r ∈ Y.top)
        (mAddForward train X Ms Y cs m) (forM' Ls (Y.read m, cbs) (addForwardStep train m0.params (X.read m0))) := by
  induction hs with
  | nil =>
    intro Y cs cbs m h1 h2 h3 h4 h5 h6 h7
    exact ⟨⟨h1, h2, h3⟩, h4, rfl, h6, h5, h7, ⟨Nat.le_refl _, rfl, fun _ _ => rfl⟩, fun r hr => hr⟩
  | @cons M L Ms Ls hM _ ih =>
    intro Y cs cbs m h1 h2 h3 h4 h5 h6 h7
    have hg : Grows m0 m := ⟨h1, h2, h3⟩
    have hl := hM train X m (hg.inn hX0)
    unfold FaithfulAt at hl
    rw [h2, hg.read hX0] at hl
    unfold mAddForward
    rw [show forM' (L :: Ls) (Y.read m, cbs) (addForwardStep train m0.params (X.read m0)) =
      (L train m0.params (X.read m0) >>= fun p => ((Y.read m).iadd p.1 >>= fun y => forM' Ls (y, cbs ++ [p.2]) (addForwardStep train m0.params (X.read m0))))
      from ?_]
    · refine agree_bind hl ?_
      rintro ⟨Z, c, m1⟩ ⟨z, cb⟩ ⟨g1, i1, r1, a1, K, k1, k2, -, k4⟩
      simp only at g1 i1 r1 a1 k2 k4 ⊢
      have hi := iadd_agree (m := m1) (v := Y) (w := Z) fun r hr => (h5 r hr).2
      rw [r1, g1.read h4] at hi
      refine agree_bind hi ?_
      rintro ⟨Y', m2⟩ y' ⟨e1, e2, e3, e4, e5, e6⟩
      simp only at e1 e2 e3 e4 e5 e6 ⊢
      subst e4
      refine agree_mono (ih Y' _ (cbs ++ [cb]) m2 (by rw [e1]; exact Nat.le_trans h1 g1.1) (by rw [e2, g1.2.1, h2]) ?_ ?_ ?_ ?_ ?_) ?_
      · intro a ha
        rw [e3 a fun r hr e => absurd (h5 r hr).1 (by rw [e]; exact Nat.not_le.2 ha), g1.2.2 a (Nat.lt_of_lt_of_le ha h1), h3 a ha]
      · intro r hr
        rw [e1]
        rcases e5 r hr with h | h
        · exact Nat.lt_of_lt_of_le (h4 r h) g1.1
        · exact i1 r h
      · exact fun r hr => h5 r (e6 r hr)
      · intro r hr
        rcases e5 r hr with h | h
        · exact h6 r h
        · rcases a1 r h with h | h
          · exact .inl h
          · exact .inr (Nat.le_trans h1 h)
      · refine List.rel_append ?_ (.cons ?_ .nil)
        · exact h7.imp fun c cb hh => hh.step e6 (by rw [e1]; exact g1.1) (by rw [e2, g1.2.1])
            fun a ha ht => by rw [e3 a ht, g1.2.2 a ha]
        · refine Held.step (m := m1) (tops := Y.top) ⟨K, ?_, k2, ?_, k4⟩ e6 (by rw [e1]) e2 fun a _ ht => e3 a ht
          · intro a ha
            rcases k1 a ha with h | h
            · exact .inl h
            · exact .inr (Nat.le_trans h1 h)
          · intro r hr hK
            rcases k1 _ hK with ⟨q, hq, e⟩ | h
            · exact absurd (h5 r hr).1 (by rw [← e]; exact Nat.not_le.2 (hX0 q hq))
            · exact absurd (h4 r (top_refs hr)) (Nat.not_lt.2 h)
      · rintro out y ⟨b1, b2, b3, b4, b5, b6, b7, b8⟩
        refine ⟨b1, b2, b3, b4, b5, b6, ⟨Nat.le_trans g1.1 (e1 ▸ b7.1), by rw [b7.2.1, e2, g1.2.1], fun a ha => ?_⟩, fun r hr => e6 r (b8 r hr)⟩
        rw [b7.2.2 a ⟨by rw [e1]; exact Nat.lt_of_lt_of_le ha.1 g1.1, fun r hr => ha.2 r (e6 r hr)⟩, e3 a ha.2, g1.2.2 a ha.1]
    · simp only [forM', addForwardStep]
      cases L train m0.params (X.read m0) with
      | error e => rfl
      | ok p =>
        simp only [bind, Except.bind]
        cases (Y.read m).iadd p.1 <;> rfl

theorem addBackward_agree {dY : RVal} {m0 : ArrMem} (hd : In m0 dY) {K : Nat → Prop} (hK : ∀ a, K a → a < m0.next) {cs : List MCallback}
    {cbs : List Callback} (hs : List.Forall₂ (Backward K false m0) cs cbs) :
    ∀ (dX : RVal) (m : ArrMem) (G : GradStore), Grows m0 m → In m dX → Own m0 dX → Among m0 dY dX →
      Agree (fun D d => Grows m0 D.2.1 ∧ In D.2.1 D.1 ∧ D.1.read D.2.1 = d.1 ∧ D.2.2 = d.2 ∧ Among m0 dY D.1 ∧ Own m0 D.1)
        (mAddBackward dY cs dX m G) (forM' cbs (dX.read m, G) (addBackwardStep (dY.read m0))) := by
  induction hs with
  | nil => intro dX m G h1 h2 h3 h4; exact ⟨h1, h2, rfl, rfl, h4, h3⟩
  | @cons c cb cs cbs hc _ ih =>
    intro dX m G h1 h2 h3 h4
    have hb := hc m dY G (h1.later hK) (h1.inn hd)
    rw [h1.read hd] at hb
    unfold mAddBackward
    rw [show forM' (cb :: cbs) (dX.read m, G) (addBackwardStep (dY.read m0)) = (cb (dY.read m0) G >>= fun p => ((dX.read m).iadd p.1 >>= fun y =>
      forM' cbs (y, p.2) (addBackwardStep (dY.read m0)))) from ?_]
    · refine agree_bind hb ?_
      rintro ⟨D, m1, G1⟩ ⟨d, G1'⟩ ⟨g1, i1, r1, q1, a1, -⟩
      simp only at g1 i1 r1 q1 a1 ⊢
      subst q1
      have hi := iadd_agree (m := m1) (v := dX) (w := D) fun r hr => (h3 r hr).2
      rw [r1, g1.read h2] at hi
      refine agree_bind hi ?_
      rintro ⟨Y', m2⟩ y' ⟨e1, e2, e3, e4, e5, e6⟩
      simp only at e1 e2 e3 e4 e5 e6 ⊢
      subst e4
      refine ih Y' m2 G1 ⟨by rw [e1]; exact Nat.le_trans h1.1 g1.1, by rw [e2, g1.2.1, h1.2.1], ?_⟩ ?_ ?_ ?_
      · intro a ha
        rw [e3 a fun r hr e => absurd (h3 r hr).1 (by rw [e]; exact Nat.not_le.2 ha), g1.2.2 a (Nat.lt_of_lt_of_le ha h1.1), h1.2.2 a ha]
      · intro r hr
        rw [e1]
        rcases e5 r hr with h | h
        · exact Nat.lt_of_lt_of_le (h2 r h) g1.1
        · exact i1 r h
      · exact fun r hr => h3 r (e6 r hr)
      · intro r hr
        rcases e5 r hr with h | h
        · exact h4 r h
        · rcases a1 r h with h | h
          · exact .inl h
          · exact .inr (Nat.le_trans h1.1 h)
    · simp only [forM', addBackwardStep]
      cases cb (dY.read m0) G with
      | error e => rfl
      | ok p =>
        simp only [bind, Except.bind]
        cases (dX.read m).iadd p.1 <;> rfl

theorem held_common {X : RVal} {tops : List ArrRef} {m0 m : ArrMem} {cs : List MCallback} {cbs : List Callback}
    (h : List.Forall₂ (Held X tops m0 m) cs cbs) : ∃ K : Nat → Prop, (∀ a, K a → (∃ q ∈ X.refs, q.addr = a) ∨ m0.next ≤ a) ∧ (∀ a, K a → a < m.next) ∧
      (∀ r ∈ tops, ¬ K r.addr) ∧ List.Forall₂ (Backward K false m) cs cbs := by
  induction h with
  | nil => exact ⟨fun _ => False, fun _ h => h.elim, fun _ h => h.elim, fun _ _ h => h, .nil⟩
  | cons h _ ih =>
    obtain ⟨K, k1, k2, k3, k4⟩ := h
    obtain ⟨K', k1', k2', k3', k4'⟩ := ih
    refine ⟨fun a => K a ∨ K' a, fun a => ?_, fun a => ?_, fun r hr => ?_, .cons (k4.weaken (fun _ => .inl) fun h => h)
      (k4'.imp fun _ _ hh => hh.weaken (fun _ => .inr) fun h => h)⟩
    · rintro (h | h)
      · exact k1 a h
      · exact k1' a h
    · rintro (h | h)
      · exact k2 a h
      · exact k2' a h
    · rintro (h | h)
      · exact k3 r hr h
      · exact k3' r hr h

/-- `add`, if the output of the first layer may be overwritten and its callback returns a new array. -/
theorem C122_add_partial {M : MLayer} {L : Layer} (h : Faithful true true M L) {Ms : List MLayer} {Ls : List Layer}
    (hs : List.Forall₂ (Faithful false false) Ms Ls) : Faithful true true (mAdd (M :: Ms)) (addLayers (L :: Ls)) := by
  intro train X m hX
  unfold mAdd addLayers
  refine agree_bind (h train X m hX) ?_
  rintro ⟨Y, c, m1⟩ ⟨y, cb⟩ ⟨g1, i1, r1, a1, K, k1, k2, k3, k4⟩
  simp only at g1 i1 r1 a1 k2 k3 k4 ⊢
  obtain ⟨o1, o2⟩ := k3 trivial
  have hf := addForward_agree (train := train) hX hs Y [] [] m1 g1.1 g1.2.1 g1.2.2 i1 o1 a1 .nil
  rw [r1] at hf
  refine agree_bind hf ?_
  rintro ⟨Z, cs, m2⟩ ⟨z, cbs⟩ ⟨b1, b2, b3, b4, b5, b6, b7, b8⟩
  simp only at b1 b2 b3 b4 b5 b6 b7 b8 ⊢
  obtain ⟨K', k1', k2', k3', k4'⟩ := held_common b6
  have k4'' : Backward K true m2 c cb := k4.later (b7.mono fun a ha => ⟨k2 a ha, fun r hr e => o2 r hr (e ▸ ha)⟩)
  refine ⟨b1, b2, b3, b4, fun a => K a ∨ K' a, fun a => ?_, fun a => ?_, fun _ => ⟨b5, fun r hr => ?_⟩, ?_⟩
  · rintro (h | h)
    · exact k1 a h
    · exact k1' a h
  · rintro (h | h)
    · exact Nat.lt_of_lt_of_le (k2 a h) b7.1
    · exact k2' a h
  · rintro (h | h)
    · exact o2 r (b8 r hr) h
    · exact k3' r hr h
  · intro m' dY G hl hd
    refine agree_bind (k4'' m' dY G (hl.mono fun _ => .inl) hd) ?_
    rintro ⟨dX, m3, G1⟩ ⟨d, G1'⟩ ⟨f1, f2, f3, f4, f5, f6⟩
    simp only at f1 f2 f3 f4 f5 f6 ⊢
    subst f3 f4
    refine agree_mono (addBackward_agree hd (K := K') (fun a ha => Nat.lt_of_lt_of_le (k2' a ha) hl.1)
      (k4'.imp fun _ _ hh => hh.later (hl.mono fun _ => .inr)) dX m3 G1 f1 f2 (f6 trivial) f5) ?_
    rintro D d ⟨e1, e2, e3, e4, e5, e6⟩
    exact ⟨e1, e2, e3, e4, e5, fun _ => e6⟩

end Thinc
