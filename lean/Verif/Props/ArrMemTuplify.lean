import Verif.Props.ArrMemResidual
/-!
# C122: tuplify and embed on shared arrays
-/
namespace Thinc
open Shared Spec.Shared

theorem runCallbacks_agree {m0 : ArrMem} {K : Nat → Prop} (hK : ∀ a, K a → a < m0.next) {cs : List MCallback}
    {cbs : List Callback} (hs : List.Forall₂ (Backward K false m0) cs cbs) :
    ∀ (ds : List RVal) (m : ArrMem) (G : GradStore), Grows m0 m → (∀ r ∈ RVal.refsAll ds, r.addr < m.next) →
      Agree (fun D d => Grows m D.2.1 ∧ RVal.readAll D.2.1 D.1 = d.1 ∧ D.2.2 = d.2 ∧ (∀ r ∈ RVal.refsAll D.1, r.addr < D.2.1.next) ∧
          ∀ r ∈ RVal.refsAll D.1, (∃ q ∈ RVal.refsAll ds, q.addr = r.addr) ∨ m.next ≤ r.addr)
        (mRunCallbacks cs ds m G) (runCallbacks cbs (RVal.readAll m ds) G) := by
  induction hs with
  | nil =>
    intro ds m G h1 h2
    simp only [mRunCallbacks, runCallbacks]
    exact ⟨Grows.refl m, by simp [RVal.readAll], rfl, by simp [RVal.refsAll], by simp [RVal.refsAll]⟩
  | @cons c cb cs cbs hc _ ih =>
    intro ds m G h1 h2
    cases ds with
    | nil =>
      simp only [mRunCallbacks, runCallbacks, RVal.readAll]
      exact ⟨Grows.refl m, by simp [RVal.readAll], rfl, by simp [RVal.refsAll], by simp [RVal.refsAll]⟩
    | cons d ds =>
      simp only [mRunCallbacks, runCallbacks, RVal.readAll]
      simp only [RVal.refsAll, List.mem_append] at h2 ⊢
      refine agree_bind (hc m d G (h1.later hK) fun r hr => h2 r (.inl hr)) ?_
      rintro ⟨D, m1, G1⟩ ⟨e, G1'⟩ ⟨g1, i1, r1, q1, a1, -⟩
      simp only at g1 i1 r1 q1 a1
      subst q1 r1
      have hb := ih ds m1 G1 (h1.trans g1) fun r hr => Nat.lt_of_lt_of_le (h2 r (.inr hr)) g1.1
      rw [readAll_congr ds fun r hr => g1.2.2 _ (h2 r (.inr hr))] at hb
      refine agree_bind hb ?_
      rintro ⟨Ds, m2, G2⟩ ⟨es, G2'⟩ ⟨g2, r2, q2, i2, a2⟩
      simp only at g2 r2 q2 i2 a2
      subst q2 r2
      refine ⟨g1.trans g2, by simp only [RVal.readAll, g2.read i1], rfl, ?_, ?_⟩
      · simp only [RVal.refsAll, List.mem_append]
        rintro r (hr | hr)
        · exact Nat.lt_of_lt_of_le (i1 r hr) g2.1
        · exact i2 r hr
      · simp only [RVal.refsAll, List.mem_append]
        rintro r (hr | hr)
        · rcases a1 r hr with ⟨q, hq, e⟩ | h
          · exact .inl ⟨q, .inl hq, e⟩
          · exact .inr h
        · rcases a2 r hr with ⟨q, hq, e⟩ | h
          · exact .inl ⟨q, .inr hq, e⟩
          · exact .inr (Nat.le_trans g1.1 h)

theorem sum_agree {m0 : ArrMem} {u : RVal} : ∀ (ds : List RVal) (dX : RVal) (m : ArrMem), Grows m0 m → In m dX → Own m0 dX → Among m0 u dX →
    (∀ r ∈ RVal.refsAll ds, r.addr < m.next) → (∀ r ∈ RVal.refsAll ds, (∃ q ∈ u.refs, q.addr = r.addr) ∨ m0.next ≤ r.addr) →
    (∀ r ∈ RVal.refsAll ds, ∀ q ∈ dX.top, q.addr ≠ r.addr) →
    Agree (fun out y => Grows m0 out.2 ∧ In out.2 out.1 ∧ out.1.read out.2 = y ∧ Among m0 u out.1 ∧ Own m0 out.1) (mSum ds dX m)
      (forM' (RVal.readAll m ds) (dX.read m) Val.iadd)
  | [], dX, m, h1, h2, h3, h4, _, _, _ => by
    simp only [mSum, RVal.readAll, forM']
    exact ⟨h1, h2, rfl, h4, h3⟩
  | d :: ds, dX, m, h1, h2, h3, h4, h5, h6, h7 => by
    simp only [RVal.refsAll, List.mem_append] at h5 h6 h7
    rw [show forM' (RVal.readAll m (d :: ds)) (dX.read m) Val.iadd =
      ((dX.read m).iadd (d.read m) >>= fun s => forM' (RVal.readAll m ds) s Val.iadd) from ?_]
    swap
    · simp only [RVal.readAll, forM']
      cases (dX.read m).iadd (d.read m) <;> rfl
    simp only [mSum]
    refine agree_bind (join_own iadd_joins h1 h2 (fun r hr => h5 r (.inl hr)) h3 h4 fun r hr => h6 r (.inl hr)) ?_
    rintro ⟨Z, m1⟩ _ ⟨e1, e2, rfl, e4, e5, e6, e7, e8, e9⟩
    simp only at e1 e2 e4 e5 e6 e7 e8 e9
    have ih := sum_agree ds Z m1 e1 e2 e5 e4 (fun r hr => by rw [e6]; exact h5 r (.inr hr)) (fun r hr => h6 r (.inr hr))
      fun r hr q hq => h7 r (.inr hr) q (e9 q hq)
    rwa [readAll_congr ds fun r hr => e8 _ fun q hq => h7 r (.inr hr) q hq] at ih

/-- `tuplify`, if the callback of the first layer returns a new array. -/
theorem C122_tuplify_partial {o : Bool} {M : MLayer} {L : Layer} (h : Faithful o true M L) {Ms : List MLayer} {Ls : List Layer}
    (hs : List.Forall₂ (Faithful false false) Ms Ls) : Faithful true true (mTuplify (M :: Ms)) (tuplify (L :: Ls)) := by
  intro train X m hX
  unfold FaithfulAt mTuplify tuplify
  rw [List.mapM_cons]
  unfold mForwardAll
  simp only [bind_assoc, pure_bind]
  refine agree_bind (h train X m hX) ?_
  rintro ⟨Y, c, m1⟩ ⟨y, cb⟩ ⟨g1, i1, r1, a1, K, k1, k2, -, k4⟩
  simp only at g1 i1 r1 a1 k2 k4 ⊢
  have h2 := forwardAll_agree (train := train) hs m1 (g1.inn hX)
  rw [g1.read hX, g1.2.1] at h2
  refine agree_bind h2 ?_
  rintro ⟨Ys, cs, m2⟩ ys ⟨g2, i2, r2, a2, K', k1', k2', k4'⟩
  simp only [List.map_cons] at g2 i2 r2 a2 k2' k4' ⊢
  have hY : RVal.readAll m2 (Y :: Ys) = y :: ys.map Prod.fst := by
    simp only [RVal.readAll]
    rw [g2.read i1, r1, r2]
  refine ⟨g1.trans g2, ?_, by simp only [RVal.read, hY], ?_, fun a => K a ∨ K' a, ?_, ?_, fun _ => ⟨by simp [Own, RVal.top], by simp [RVal.top]⟩, ?_⟩
  · intro r hr
    simp only [RVal.refs, RVal.refsAll, List.mem_append] at hr
    rcases hr with hr | hr
    · exact Nat.lt_of_lt_of_le (i1 r hr) g2.1
    · exact i2 r hr
  · intro r hr
    simp only [RVal.refs, RVal.refsAll, List.mem_append] at hr
    rcases hr with hr | hr
    · exact a1 r hr
    · exact (a2 r hr).imp id fun h => Nat.le_trans g1.1 h
  · rintro a (ha | ha)
    · exact k1 a ha
    · exact (k1' a ha).imp id fun h => Nat.le_trans g1.1 h
  · rintro a (ha | ha)
    · exact Nat.lt_of_lt_of_le (k2 a ha) g2.1
    · exact k2' a ha
  · intro m' dYs G hl hd
    refine agree_bind (items_agree m' dYs) ?_
    rintro ds _ ⟨rfl, e⟩
    have hd' : ∀ r ∈ RVal.refsAll ds, r.addr < m'.next := by rw [e]; exact hd
    have kc : Backward K true m' c cb := k4.later ((g2.later k2).trans (hl.mono fun _ => .inl))
    have kcs : List.Forall₂ (Backward K' false m') cs (ys.map Prod.snd) := k4'.imp fun _ _ h => h.later (hl.mono fun _ => .inr)
    cases ds with
    | nil =>
      simp only [mRunCallbacks, runCallbacks, RVal.readAll]
      exact (rfl : PyErr.indexError = _)
    | cons d ds =>
      simp only [mRunCallbacks, runCallbacks, RVal.readAll, bind_assoc, pure_bind]
      simp only [RVal.refsAll, List.mem_append] at hd'
      refine agree_bind (kc m' d G ⟨Nat.le_refl _, rfl, fun _ _ => rfl⟩ fun r hr => hd' r (.inl hr)) ?_
      rintro ⟨D, m3, G1⟩ ⟨e1, G1'⟩ ⟨f1, f2, f3, f4, f5, f6⟩
      simp only at f1 f2 f3 f4 f5 f6
      subst f3 f4
      have hb := runCallbacks_agree (m0 := m') (fun a ha => Nat.lt_of_lt_of_le (k2' a ha) hl.1) kcs ds m3 G1 f1
        fun r hr => Nat.lt_of_lt_of_le (hd' r (.inr hr)) f1.1
      rw [readAll_congr ds fun r hr => f1.2.2 _ (hd' r (.inr hr))] at hb
      refine agree_bind hb ?_
      rintro ⟨Ds, m4, G2⟩ ⟨es, G2'⟩ ⟨b1, b2, b3, b4, b5⟩
      simp only at b1 b2 b3 b4 b5
      subst b2 b3
      simp only [mSumAll]
      have hu : ∀ r ∈ RVal.refsAll (d :: ds), r ∈ dYs.refs := by rw [e]; exact fun _ h => h
      simp only [RVal.refsAll, List.mem_append] at hu
      have hsum := sum_agree (m0 := m') (u := dYs) Ds D m4 (f1.trans b1) (b1.inn f2) (f6 trivial)
        (fun r hr => (f5 r hr).imp (fun ⟨q, hq, e⟩ => ⟨q, hu q (.inl hq), e⟩) id) b4
        (fun r hr => (b5 r hr).imp (fun ⟨q, hq, e⟩ => ⟨q, hu q (.inr hq), e⟩) fun h => Nat.le_trans f1.1 h)
        (fun r hr q hq e => by
          rcases b5 r hr with ⟨p, hp, e'⟩ | h
          · exact absurd (f6 trivial q hq).1 (by rw [e, ← e']; exact Nat.not_le.2 (hd' p (.inr hp)))
          · exact absurd (f2 q (top_refs hq)) (by rw [e]; exact Nat.not_lt.2 h))
      rw [b1.read f2] at hsum
      refine agree_bind hsum ?_
      rintro ⟨Z, m5⟩ _ ⟨s1, s2, rfl, s4, s5⟩
      exact ⟨s1, s2, rfl, rfl, s4, fun _ => s5⟩

/-! ### Embed -/

/-- `Embed` outside of training. -/
theorem C122_embed_partial (E : Nat) (dropout : Option ℝ) (coinflips : Nat → Nat → ℝ) (fast : Bool) {X : RVal} {m : ArrMem} (hX : In m X) :
    FaithfulAt true true (mEmbed E dropout coinflips fast) (embed E dropout coinflips fast) false X m := by
  unfold FaithfulAt mEmbed embed
  refine agree_same _ fun ids hi => agree_same _ fun O hO => ?_
  simp only [Bool.false_eq_true, if_false]
  refine agree_same _ fun A hA => ?_
  refine ⟨grows_alloc m A, by simp [In, RVal.refs, ArrMem.alloc], by simp only [RVal.read, alloc_get], ?_, fun _ => False, fun _ h => h.elim,
    fun _ h => h.elim, fun _ => ⟨?_, fun _ _ h => h⟩, ?_⟩
  · intro r hr
    simp only [RVal.refs, List.mem_singleton] at hr
    subst hr
    exact .inr (Nat.le_refl _)
  · intro r hr
    simp only [RVal.top, List.mem_singleton] at hr
    subst hr
    exact ⟨Nat.le_refl _, rfl⟩
  · intro m' dY G hl hd
    have hp : m'.params = m.params := hl.2.1
    refine agree_bind (R := fun d D => ArrRef.get m' d = D) ?_ ?_
    · cases dY <;> simp only [RVal.asRef, RVal.read, Val.asArr, Agree]
    · rintro d _ rfl
      simp only [mApplyMask, applyMask]
      refine agree_bind (R := fun a b => a = m' ∧ b = ArrRef.get m' d) ⟨rfl, rfl⟩ ?_
      rintro _ _ ⟨rfl, rfl⟩
      rw [hp]
      refine agree_same _ fun V hV => agree_same _ fun G1 hG => ?_
      exact ⟨Grows.refl _, by simp [In, RVal.refs], by simp only [RVal.read], rfl, by simp [Among, RVal.refs], fun _ => by simp [Own, RVal.top]⟩

end Thinc
