import Verif.Props.ArrMemConcat
/-!
# C122: residual and tuplify on shared arrays
-/
namespace Thinc
open Shared Spec.Shared

/-! ### residual -/

/-- The output of `residual`. -/
noncomputable def residualOutV (X Y : Val) : Except PyErr Val :=
  match X with
  | .list xs => do return .list (← addItems xs (← Y.items))
  | .ragged A l => do return .ragged (← addData (.ragged A l) Y) l
  | .padded A n s l i => Val.iaddData Y (.padded A n s l i)
  | X => X.add Y

/-- The gradient of `residual`. -/
noncomputable def residualBackV (X dOutput dX : Val) : Except PyErr Val :=
  match dOutput with
  | .list ds => do return .list (← addItems ds (← dX.items))
  | .ragged d l => do return .ragged (← addData (.ragged d l) dX) (← dX.lengths)
  | dOutput => match X with
    | .padded _ _ _ _ _ => dX.iaddData dOutput
    | _ => dOutput.add dX

theorem residual_eq (L : Layer) (train : Bool) (P : ParamVals) (X : Val) : residual L train P X = (do
    let (Y, cb) ← L train P X
    let Z ← residualOutV X Y
    return (Z, fun dOutput G => do
      let (dX, G) ← cb dOutput G
      let dX ← residualBackV X dOutput dX
      return (dX, G))) := by
  unfold residual
  cases L train P X with
  | error e => rfl
  | ok r =>
    obtain ⟨Y, cb⟩ := r
    simp only [bind, Except.bind]
    cases X <;> simp only [residualOutV, bind, Except.bind] <;> split <;> (try rfl) <;> (try (split <;> (try rfl)))
    all_goals
      simp_all only [Except.ok.injEq, reduceCtorEq, pure, Except.pure]
    all_goals
      try subst_vars
      refine congrArg (Prod.mk _) ?_
      funext dOutput G
      cases cb dOutput G with
      | error e => rfl
      | ok p =>
        obtain ⟨dX, G⟩ := p
        cases dOutput with
        | list ds =>
          simp only [residualBackV, bind, Except.bind]
          cases dX.items with
          | error e => rfl
          | ok i =>
            simp only
            cases addItems ds i <;> rfl
        | ragged d l =>
          simp only [residualBackV, bind, Except.bind]
          cases addData (.ragged d l) dX with
          | error e => rfl
          | ok i =>
            simp only
            cases dX.lengths <;> rfl
        | _ => rfl

/-- New arrays, or those of `v` and `w`. -/
def Sums (m : ArrMem) (v w : List ArrRef) (m' : ArrMem) (out : List ArrRef) : Prop :=
  Grows m m' ∧ ∀ r ∈ out, (r ∈ v ∨ r ∈ w) ∨ (m.next ≤ r.addr ∧ r.addr < m'.next)

theorem add_agree (m : ArrMem) (v w : RVal) :
    Agree (fun out y => Sums m v.refs w.refs out.2 out.1.refs ∧ out.1.read out.2 = y ∧ Own m out.1) (v.add w m) ((v.read m).add (w.read m)) := by
  cases v <;> cases w <;> first
    | exact (rfl : PyErr.typeError = PyErr.typeError)
    | skip
  case arr.arr r q =>
    simp only [RVal.add, RVal.read, Val.add]
    refine agree_same _ fun A hA => ⟨⟨grows_alloc m A, ?_⟩, by simp only [RVal.read, alloc_get], ?_⟩
    · simp only [RVal.refs, List.mem_singleton]
      rintro _ rfl
      exact .inr ⟨Nat.le_refl _, Nat.lt_succ_self _⟩
    · intro r hr
      simp only [RVal.top, List.mem_singleton] at hr
      subst hr
      exact ⟨Nat.le_refl _, rfl⟩
  case list.list vs ws =>
    simp only [RVal.add, RVal.read, Val.add]
    exact ⟨⟨Grows.refl m, by simp [RVal.refs, refsAll_append]; exact fun r h => .inl h⟩, by simp only [RVal.read, readAll_append], by simp [Own, RVal.top]⟩
  case tup.tup vs ws =>
    simp only [RVal.add, RVal.read, Val.add]
    exact ⟨⟨Grows.refl m, by simp [RVal.refs, refsAll_append]; exact fun r h => .inl h⟩, by simp only [RVal.read, readAll_append], by simp [Own, RVal.top]⟩

theorem addItems_agree : ∀ (as bs : List RVal) (m : ArrMem), (∀ r ∈ RVal.refsAll as, r.addr < m.next) → (∀ r ∈ RVal.refsAll bs, r.addr < m.next) →
    Agree (fun out y => Sums m (RVal.refsAll as) (RVal.refsAll bs) out.2 (RVal.refsAll out.1) ∧ RVal.readAll out.2 out.1 = y)
      (mAddItems as bs m) (addItems (RVal.readAll m as) (RVal.readAll m bs))
  | [], bs, m, _, _ => by
    simp only [mAddItems, RVal.readAll, addItems]
    exact ⟨⟨Grows.refl m, by simp [RVal.refsAll]⟩, by simp only [RVal.readAll]⟩
  | a :: as, [], m, _, _ => by
    simp only [mAddItems, RVal.readAll, addItems]
    exact (rfl : PyErr.indexError = _)
  | a :: as, b :: bs, m, ha, hb => by
    simp only [mAddItems, RVal.readAll, addItems]
    refine agree_bind (add_agree m a b) ?_
    rintro ⟨s, m1⟩ _ ⟨⟨g1, s1⟩, rfl, -⟩
    simp only at g1 s1 ⊢
    simp only [RVal.refsAll, List.mem_append] at ha hb ⊢
    have ea : RVal.readAll m1 as = RVal.readAll m as := readAll_congr as fun r hr => g1.2.2 _ (ha r (.inr hr))
    have eb : RVal.readAll m1 bs = RVal.readAll m bs := readAll_congr bs fun r hr => g1.2.2 _ (hb r (.inr hr))
    have ih := addItems_agree as bs m1 (fun r hr => Nat.lt_of_lt_of_le (ha r (.inr hr)) g1.1) (fun r hr => Nat.lt_of_lt_of_le (hb r (.inr hr)) g1.1)
    rw [ea, eb] at ih
    refine agree_bind ih ?_
    rintro ⟨ss, m2⟩ _ ⟨⟨g2, s2⟩, rfl⟩
    simp only at g2 s2 ⊢
    have hs : In m1 s := by
      intro r hr
      rcases s1 r hr with (h | h) | h
      · exact Nat.lt_of_lt_of_le (ha r (.inl h)) g1.1
      · exact Nat.lt_of_lt_of_le (hb r (.inl h)) g1.1
      · exact h.2
    refine ⟨⟨g1.trans g2, ?_⟩, ?_⟩
    · simp only [RVal.refsAll, List.mem_append]
      rintro r (hr | hr)
      · rcases s1 r hr with (h | h) | h
        · exact .inl (.inl (.inl h))
        · exact .inl (.inr (.inl h))
        · exact .inr ⟨h.1, Nat.lt_of_lt_of_le h.2 g2.1⟩
      · rcases s2 r hr with (h | h) | h
        · exact .inl (.inl (.inr h))
        · exact .inl (.inr (.inr h))
        · exact .inr ⟨Nat.le_trans g1.1 h.1, h.2⟩
    · simp only [RVal.readAll]
      rw [g2.read hs]

theorem items_agree (m : ArrMem) (v : RVal) : Agree (fun vs ys => RVal.readAll m vs = ys ∧ RVal.refsAll vs = v.refs) v.items (v.read m).items := by
  cases v <;> simp only [RVal.items, RVal.read, Val.items, Agree, RVal.refs, and_self]

/-- The gradient and the output of `residual`, if nothing is done in place. -/
theorem residualNew_agree (m : ArrMem) (X v w : RVal) (hX : ∀ r n s l i, X ≠ .padded r n s l i) (hv : In m v) (hw : In m w) :
    Agree (fun out y => Sums m v.refs w.refs out.2 out.1.refs ∧ out.1.read out.2 = y ∧ Own m out.1) (mResidualBack X v w m)
      (residualBackV (X.read m) (v.read m) (w.read m)) := by
  have main : ∀ v, v.refs = v.refs → Agree (fun out y => Sums m v.refs w.refs out.2 out.1.refs ∧ out.1.read out.2 = y ∧ Own m out.1)
      (match X with | .padded _ _ _ _ _ => w.iaddData v m | _ => v.add w m)
      (match X.read m with | .padded _ _ _ _ _ => (w.read m).iaddData (v.read m) | _ => (v.read m).add (w.read m)) := by
    intro v _
    cases X with
    | padded r n s l i => exact absurd rfl (hX r n s l i)
    | _ => exact add_agree m v w
  cases v with
  | list ds =>
    unfold mResidualBack residualBackV
    simp only [RVal.read]
    refine agree_bind (items_agree m w) ?_
    rintro vs _ ⟨rfl, e⟩
    refine agree_bind (addItems_agree ds vs m (by simpa only [In, RVal.refs] using hv) (by rw [e]; exact hw)) ?_
    rintro ⟨out, m1⟩ _ ⟨h, rfl⟩
    rw [e] at h
    exact ⟨by simpa only [RVal.refs] using h, by simp only [RVal.read], by simp [Own, RVal.top]⟩
  | ragged d l =>
    unfold mResidualBack residualBackV
    simp only [RVal.read]
    refine agree_same _ fun A hA => agree_same _ fun l' hl => ⟨⟨grows_alloc m A, ?_⟩, by simp only [RVal.read, alloc_get], ?_⟩
    · simp only [RVal.refs, List.mem_singleton]
      rintro _ rfl
      exact .inr ⟨Nat.le_refl _, Nat.lt_succ_self _⟩
    · intro r hr
      simp only [RVal.top, List.mem_singleton] at hr
      subst hr
      exact ⟨Nat.le_refl _, rfl⟩
  | arr r => unfold mResidualBack residualBackV; simpa only [RVal.read] using main (.arr r) rfl
  | padded r n s l i => unfold mResidualBack residualBackV; simpa only [RVal.read] using main (.padded r n s l i) rfl
  | ints r => unfold mResidualBack residualBackV; simpa only [RVal.read] using main (.ints r) rfl
  | intMat r => unfold mResidualBack residualBackV; simpa only [RVal.read] using main (.intMat r) rfl
  | tup r => unfold mResidualBack residualBackV; simpa only [RVal.read] using main (.tup r) rfl

theorem residualOutNew_agree (m : ArrMem) (v w : RVal) (hX : ∀ r n s l i, v ≠ .padded r n s l i) (hv : In m v) (hw : In m w) :
    Agree (fun out y => Sums m v.refs w.refs out.2 out.1.refs ∧ out.1.read out.2 = y ∧ Own m out.1) (mResidualOut v w m)
      (residualOutV (v.read m) (w.read m)) := by
  cases v with
  | list ds =>
    unfold mResidualOut residualOutV
    simp only [RVal.read]
    refine agree_bind (items_agree m w) ?_
    rintro vs _ ⟨rfl, e⟩
    refine agree_bind (addItems_agree ds vs m (by simpa only [In, RVal.refs] using hv) (by rw [e]; exact hw)) ?_
    rintro ⟨out, m1⟩ _ ⟨h, rfl⟩
    rw [e] at h
    exact ⟨by simpa only [RVal.refs] using h, by simp only [RVal.read], by simp [Own, RVal.top]⟩
  | ragged d l =>
    unfold mResidualOut residualOutV
    simp only [RVal.read]
    refine agree_same _ fun A hA => ⟨⟨grows_alloc m A, ?_⟩, by simp only [RVal.read, alloc_get], ?_⟩
    · simp only [RVal.refs, List.mem_singleton]
      rintro _ rfl
      exact .inr ⟨Nat.le_refl _, Nat.lt_succ_self _⟩
    · intro r hr
      simp only [RVal.top, List.mem_singleton] at hr
      subst hr
      exact ⟨Nat.le_refl _, rfl⟩
  | padded r n s l i => exact absurd rfl (hX r n s l i)
  | arr r => unfold mResidualOut residualOutV; simpa only [RVal.read] using add_agree m (.arr r) w
  | ints r => unfold mResidualOut residualOutV; simpa only [RVal.read] using add_agree m (.ints r) w
  | intMat r => unfold mResidualOut residualOutV; simpa only [RVal.read] using add_agree m (.intMat r) w
  | tup r => unfold mResidualOut residualOutV; simpa only [RVal.read] using add_agree m (.tup r) w

theorem sums_among {m0 m m' : ArrMem} {v w out : RVal} (h : Sums m v.refs w.refs m' out.refs) (hg : Grows m0 m) (hv : In m v) (hw : In m w)
    (hw' : Among m0 v w) : In m' out ∧ Among m0 v out := by
  constructor
  · intro r hr
    rcases h.2 r hr with (k | k) | k
    · exact Nat.lt_of_lt_of_le (hv r k) h.1.1
    · exact Nat.lt_of_lt_of_le (hw r k) h.1.1
    · exact k.2
  · intro r hr
    rcases h.2 r hr with (k | k) | k
    · exact .inl ⟨r, k, rfl⟩
    · exact hw' r k
    · exact .inr (Nat.le_trans hg.1 k.1)

/-- In place into an array that is new since `m0`. -/
theorem join_own {J : RVal → RVal → ArrMem → Except PyErr (RVal × ArrMem)} {JV : Val → Val → Except PyErr Val} (hj : JoinsLike J JV) {m0 m : ArrMem}
    {v w : RVal} (hg : Grows m0 m) (hv : In m v) (hw : In m w) (ho : Own m0 v) {u : RVal} (hav : Among m0 u v) (haw : Among m0 u w) :
    Agree (fun out y => Grows m0 out.2 ∧ In out.2 out.1 ∧ out.1.read out.2 = y ∧ Among m0 u out.1 ∧ Own m0 out.1 ∧ out.2.next = m.next ∧ out.2.params = m.params ∧
        (∀ a, (∀ r ∈ v.top, r.addr ≠ a) → out.2.cell a = m.cell a) ∧ ∀ r ∈ out.1.top, r ∈ v.top)
      (J v w m) (JV (v.read m) (w.read m)) := by
  refine agree_mono (hj m v w fun r hr => (ho r hr).2) ?_
  rintro ⟨Y', m2⟩ y' ⟨e1, e2, e3, e4, e5, e6⟩
  simp only at e1 e2 e3 e4 e5 e6 ⊢
  refine ⟨⟨by rw [e1]; exact hg.1, by rw [e2, hg.2.1], fun a ha => ?_⟩, fun r hr => ?_, e4, fun r hr => ?_, fun r hr => ho r (e6 r hr), e1, e2, e3, e6⟩
  · rw [e3 a fun r hr e => absurd (ho r hr).1 (by rw [e]; exact Nat.not_le.2 ha), hg.2.2 a ha]
  · rw [e1]
    exact (e5 r hr).elim (hv r) (hw r)
  · exact (e5 r hr).elim (hav r) (haw r)

theorem residualBackV_shape (m m' : ArrMem) (X : RVal) : residualBackV (X.read m') = residualBackV (X.read m) := by
  funext d dX
  cases X <;> simp only [RVal.read] <;> unfold residualBackV <;> rfl

theorem residualBack_agree {m0 m : ArrMem} {X d dX : RVal} (hg : Grows m0 m) (hd : In m0 d) (hi : In m dX) (ha : Among m0 d dX)
    (ho : (∃ r n s l i, X = .padded r n s l i) → Own m0 dX) :
    Agree (fun out y => Grows m0 out.2 ∧ In out.2 out.1 ∧ out.1.read out.2 = y ∧ Among m0 d out.1 ∧ Own m0 out.1)
      (mResidualBack X d dX m) (residualBackV (X.read m) (d.read m0) (dX.read m)) := by
  have new : ∀ X : RVal, (∀ r n s l i, X ≠ .padded r n s l i) → Agree (fun out y => Grows m0 out.2 ∧ In out.2 out.1 ∧ out.1.read out.2 = y ∧ Among m0 d out.1 ∧ Own m0 out.1)
      (mResidualBack X d dX m) (residualBackV (X.read m) (d.read m0) (dX.read m)) := by
    intro X hX
    rw [← hg.read hd]
    refine agree_mono (residualNew_agree m X d dX hX (hg.inn hd) hi) ?_
    rintro ⟨out, m1⟩ y ⟨h1, h2, h3⟩
    obtain ⟨h4, h5⟩ := sums_among h1 hg (hg.inn hd) hi ha
    exact ⟨hg.trans h1.1, h4, h2, h5, fun r hr => ⟨Nat.le_trans hg.1 (h3 r hr).1, (h3 r hr).2⟩⟩
  by_cases hX : ∀ r n s l i, X ≠ .padded r n s l i
  · exact new X hX
  · push Not at hX
    obtain ⟨r, n, s, l, i, rfl⟩ := hX
    -- for lists and `Ragged` the result is new here as well
    cases d with
    | list ds =>
      have := new (.ints []) (by intros; simp)
      exact this
    | ragged q l =>
      have := new (.ints []) (by intros; simp)
      exact this
    | _ =>
      rw [← hg.read hd]
      refine agree_mono (join_own iaddData_joins hg hi (hg.inn hd) (ho ⟨r, n, s, l, i, rfl⟩) ha fun r hr => .inl ⟨r, hr, rfl⟩) ?_
      rintro ⟨out, m1⟩ y ⟨h1, h2, h3, h4, h5, -⟩
      exact ⟨h1, h2, h3, h4, h5⟩

theorem residual_faithful {o g : Bool} {M : MLayer} {L : Layer} {train : Bool} {X : RVal} {m : ArrMem} (h : FaithfulAt o g M L train X m) (hX : In m X)
    (hp : (∃ r n s l i, X = .padded r n s l i) → o = true ∧ g = true) : FaithfulAt true true (mResidual M) (residual L) train X m := by
  unfold FaithfulAt
  rw [residual_eq]
  unfold mResidual
  refine agree_bind h ?_
  rintro ⟨Y, c, m1⟩ ⟨y, cb⟩ ⟨g1, i1, r1, a1, K, k1, k2, k3, k4⟩
  subst r1
  simp only at g1 i1 a1 k2 k3 k4
  -- the callback
  have hback : ∀ m2, Later K m1 m2 → Backward K true m2
      (fun dOutput m G => do
        let (dX, m, G) ← c dOutput m G
        let (dX, m) ← mResidualBack X dOutput dX m
        return (dX, m, G))
      (fun dOutput G => do
        let (dX, G) ← cb dOutput G
        let dX ← residualBackV (X.read m) dOutput dX
        return (dX, G)) := by
    intro m2 hl2 m' d G hl hd
    refine agree_bind (k4 m' d G (hl2.trans hl) hd) ?_
    rintro ⟨dX, m3, G1⟩ ⟨e, G1'⟩ ⟨f1, f2, f3, f4, f5, f6⟩
    simp only at f1 f2 f3 f4 f5 f6
    subst f3 f4
    have hb := residualBack_agree (X := X) f1 hd f2 f5 fun hq => f6 (hp hq).2
    rw [residualBackV_shape m m3] at hb
    refine agree_bind hb ?_
    rintro ⟨D, m4⟩ _ ⟨b1, b2, rfl, b4, b5⟩
    exact ⟨b1, b2, rfl, rfl, b4, fun _ => b5⟩
  by_cases hq : ∀ r n s l i, X ≠ .padded r n s l i
  · have hout := residualOutNew_agree m1 X Y hq (g1.inn hX) i1
    rw [g1.read hX] at hout
    refine agree_bind hout ?_
    rintro ⟨Z, m2⟩ _ ⟨h1, rfl, h3⟩
    obtain ⟨h4, h5⟩ := sums_among h1 g1 (g1.inn hX) i1 a1
    simp only at h1 h3 h4
    refine ⟨g1.trans h1.1, h4, rfl, h5, K, k1, fun a ha => Nat.lt_of_lt_of_le (k2 a ha) h1.1.1,
      fun _ => ⟨fun r hr => ⟨Nat.le_trans g1.1 (h3 r hr).1, (h3 r hr).2⟩, fun r hr hk => absurd (h3 r hr).1 (Nat.not_le.2 (k2 _ hk))⟩, ?_⟩
    exact hback m2 (h1.1.later k2)
  · push Not at hq
    obtain ⟨r, n, s, l, i, rfl⟩ := hq
    obtain ⟨rfl, rfl⟩ := hp ⟨r, n, s, l, i, rfl⟩
    obtain ⟨o1, o2⟩ := k3 rfl
    have hout := join_own iaddData_joins (w := .padded r n s l i) g1 i1 (g1.inn hX) o1 a1 fun r hr => .inl ⟨r, hr, rfl⟩
    rw [g1.read hX] at hout
    refine agree_bind hout ?_
    rintro ⟨Z, m2⟩ _ ⟨h1, h2, rfl, h4, h5, h6, h7, h8, h9⟩
    simp only at h1 h2 h4 h5 h6 h7 h8 h9
    refine ⟨h1, h2, rfl, h4, K, k1, fun a ha => by rw [h6]; exact k2 a ha, fun _ => ⟨h5, fun r hr => o2 r (h9 r hr)⟩, ?_⟩
    exact hback m2 ⟨by rw [h6], h7, fun a ha => h8 a fun r hr e => o2 r hr (e ▸ ha)⟩

/-- `residual`, if the output of the layer may be overwritten and its callback returns a new array. -/
theorem C122_residual_partial {M : MLayer} {L : Layer} (h : Faithful true true M L) : Faithful true true (mResidual M) (residual L) := fun train X m hX =>
  residual_faithful (h train X m hX) hX fun _ => ⟨rfl, rfl⟩

/-- For inputs other than `Padded` this is not needed. -/
theorem C122_residual_arrays {o g : Bool} {M : MLayer} {L : Layer} (h : Faithful o g M L) (train : Bool) {X : RVal} {m : ArrMem} (hX : In m X)
    (hp : ∀ r n s l i, X ≠ .padded r n s l i) : FaithfulAt true true (mResidual M) (residual L) train X m :=
  residual_faithful (h train X m hX) hX fun ⟨r, n, s, l, i, e⟩ => absurd e (hp r n s l i)

end Thinc
