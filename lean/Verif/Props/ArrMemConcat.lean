import Verif.Model.ArrMemLayers
import Verif.Props.ArrMem
/-!
# C122: concatenate on shared arrays
-/
namespace Thinc
open Shared Spec.Shared

/-- A way of adding `w` to `v` that changes the array of `v` only. -/
def JoinsLike (J : RVal → RVal → ArrMem → Except PyErr (RVal × ArrMem)) (JV : Val → Val → Except PyErr Val) : Prop :=
  ∀ (m : ArrMem) (v w : RVal), (∀ r ∈ v.top, r.path = []) →
    Agree (fun out y => out.2.next = m.next ∧ out.2.params = m.params ∧ (∀ a, (∀ r ∈ v.top, r.addr ≠ a) → out.2.cell a = m.cell a) ∧
        out.1.read out.2 = y ∧ (∀ r ∈ out.1.refs, r ∈ v.refs ∨ r ∈ w.refs) ∧ (∀ r ∈ out.1.top, r ∈ v.top))
      (J v w m) (JV (v.read m) (w.read m))

theorem iadd_joins : JoinsLike RVal.iadd Val.iadd := fun _ _ _ h => iadd_agree h

theorem iaddData_joins : JoinsLike RVal.iaddData Val.iaddData := by
  intro m v w hv
  cases v <;> cases w <;> first
    | exact (rfl : PyErr.typeError = PyErr.typeError)
    | skip
  case ragged.ragged r l q l' =>
    simp only [RVal.iaddData, RVal.read, Val.iaddData]
    refine agree_same _ fun A hA => ?_
    refine ⟨rfl, rfl, fun a ha => put_other _ _ _ fun e => ha r (by simp [RVal.top]) e.symm, ?_, fun r hr => .inl hr, fun r hr => hr⟩
    show RVal.read (r.put m A) (.ragged r l) = .ragged A l
    simp only [RVal.read, put_get m A (hv r (by simp [RVal.top]))]
  case padded.padded r n s l i q n' s' l' i' =>
    simp only [RVal.iaddData, RVal.read, Val.iaddData]
    refine agree_same _ fun A hA => ?_
    refine ⟨rfl, rfl, fun a ha => put_other _ _ _ fun e => ha r (by simp [RVal.top]) e.symm, ?_, fun r hr => .inl hr, fun r hr => hr⟩
    show RVal.read (r.put m A) (.padded r n s l i) = .padded A n s l i
    simp only [RVal.read, put_get m A (hv r (by simp [RVal.top]))]

theorem addGradient_joins : JoinsLike RVal.addGradient addGradient := by
  intro m v w hv
  cases v with
  | ragged r l => exact iaddData_joins m (.ragged r l) w hv
  | padded r n s l i => exact iaddData_joins m (.padded r n s l i) w hv
  | arr r => exact iadd_joins m (.arr r) w hv
  | ints r => exact iadd_joins m (.ints r) w hv
  | intMat r => exact iadd_joins m (.intMat r) w hv
  | list r => exact iadd_joins m (.list r) w hv
  | tup r => exact iadd_joins m (.tup r) w hv

theorem asContig_spec (r : ArrRef) (m : ArrMem) (hr : r.addr < m.next) : Grows m (asContig r m).2 ∧ (asContig r m).1.addr < (asContig r m).2.next ∧
    ArrRef.get (asContig r m).2 (asContig r m).1 = r.get m ∧ ((asContig r m).1.addr = r.addr ∨ m.next ≤ (asContig r m).1.addr) := by
  unfold asContig
  split
  · exact ⟨Grows.refl m, hr, rfl, .inl rfl⟩
  · exact ⟨grows_alloc m _, Nat.lt_succ_self _, alloc_get m _, .inr (Nat.le_refl _)⟩

/-- Pieces of the gradient `dY`. -/
def Blocks (m0 : ArrMem) (dY : RVal) (block : Nat → Nat → ArrMem → RVal × ArrMem) (blockV : Nat → Nat → Val) : Prop :=
  ∀ (start stop : Nat) (m : ArrMem), Grows m0 m → Grows m (block start stop m).2 ∧ In (block start stop m).2 (block start stop m).1 ∧
    (block start stop m).1.read (block start stop m).2 = blockV start stop ∧ Among m0 dY (block start stop m).1

theorem Spec.Shared.Among.trans {m m' : ArrMem} {u v w : RVal} (h : Among m u v) (k : Among m' v w) (hm : m.next ≤ m'.next) : Among m u w := by
  intro r hr
  rcases k r hr with ⟨q, hq, e⟩ | hq
  · rcases h q hq with ⟨p, hp, e'⟩ | hp
    · exact .inl ⟨p, hp, e'.trans e⟩
    · exact .inr (e ▸ hp)
  · exact .inr (Nat.le_trans hm hq)

theorem concatRest_agree {dY : RVal} {m0 : ArrMem} {K : Nat → Prop} (hK : ∀ a, K a → a < m0.next)
    {block : Nat → Nat → ArrMem → RVal × ArrMem} {blockV : Nat → Nat → Val} (hb : Blocks m0 dY block blockV)
    {join : RVal → RVal → ArrMem → Except PyErr (RVal × ArrMem)} {joinV : Val → Val → Except PyErr Val} (hj : JoinsLike join joinV)
    {cs : List MCallback} {cbs : List Callback} (hs : List.Forall₂ (Backward K false m0) cs cbs) :
    ∀ (ws : List Nat) (dX : RVal) (start : Nat) (m : ArrMem) (G : GradStore), Grows m0 m → In m dX → Own m0 dX → Among m0 dY dX →
      Agree (fun D d => Grows m0 D.2.1 ∧ In D.2.1 D.1 ∧ D.1.read D.2.1 = d.1 ∧ D.2.2 = d.2 ∧ Among m0 dY D.1 ∧ Own m0 D.1)
        (mConcatRest block join (cs.zip ws) dX start m G)
        (forM' (cbs.zip ws) (dX.read m, start, G) (concatStep blockV joinV) >>= fun s => .ok (s.1, s.2.2)) := by
  induction hs with
  | nil => intro ws dX start m G h1 h2 h3 h4; exact ⟨h1, h2, rfl, rfl, h4, h3⟩
  | @cons c cb cs cbs hc _ ih =>
    intro ws dX start m G h1 h2 h3 h4
    cases ws with
    | nil => exact ⟨h1, h2, rfl, rfl, h4, h3⟩
    | cons w ws =>
      obtain ⟨b1, b2, b3, b4⟩ := hb start (start + w) m h1
      have hcb := hc _ (block start (start + w) m).1 G ((h1.trans b1).later hK) b2
      rw [b3] at hcb
      simp only [List.zip_cons_cons]
      unfold mConcatRest
      rw [show (forM' ((cb, w) :: cbs.zip ws) (dX.read m, start, G) (concatStep blockV joinV) >>= fun s => (.ok (s.1, s.2.2) : Except PyErr _)) =
        (cb (blockV start (start + w)) G >>= fun p => (joinV (dX.read m) p.1 >>= fun y =>
          (forM' (cbs.zip ws) (y, start + w, p.2) (concatStep blockV joinV) >>= fun s => .ok (s.1, s.2.2)))) from ?_]
      · refine agree_bind hcb ?_
        rintro ⟨D, m1, G1⟩ ⟨d, G1'⟩ ⟨g1, i1, r1, q1, a1, -⟩
        simp only at g1 i1 r1 q1 a1 ⊢
        subst q1
        have g2 := b1.trans g1
        have hi := hj m1 dX D fun r hr => (h3 r hr).2
        rw [r1, g2.read h2] at hi
        refine agree_bind hi ?_
        rintro ⟨Y', m2⟩ y' ⟨e1, e2, e3, e4, e5, e6⟩
        simp only at e1 e2 e3 e4 e5 e6 ⊢
        subst e4
        refine ih ws Y' (start + w) m2 G1 ⟨by rw [e1]; exact Nat.le_trans h1.1 g2.1, by rw [e2, g2.2.1, h1.2.1], ?_⟩ ?_ ?_ ?_
        · intro a ha
          rw [e3 a fun r hr e => absurd (h3 r hr).1 (by rw [e]; exact Nat.not_le.2 ha), g2.2.2 a (Nat.lt_of_lt_of_le ha h1.1), h1.2.2 a ha]
        · intro r hr
          rw [e1]
          rcases e5 r hr with h | h
          · exact Nat.lt_of_lt_of_le (h2 r h) g2.1
          · exact i1 r h
        · exact fun r hr => h3 r (e6 r hr)
        · intro r hr
          rcases e5 r hr with h | h
          · exact h4 r h
          · exact b4.trans a1 (h1.trans b1).1 r h
      · simp only [forM', concatStep]
        cases cb (blockV start (start + w)) G with
        | error e => rfl
        | ok p =>
          simp only [bind, Except.bind]
          cases joinV (dX.read m) p.1 <;> rfl

theorem concatBack_agree {dY : RVal} {m0 : ArrMem} {K : Nat → Prop} (hK : ∀ a, K a → a < m0.next)
    {block : Nat → Nat → ArrMem → RVal × ArrMem} {blockV : Nat → Nat → Val} (hb : Blocks m0 dY block blockV)
    {join : RVal → RVal → ArrMem → Except PyErr (RVal × ArrMem)} {joinV : Val → Val → Except PyErr Val} (hj : JoinsLike join joinV)
    {c : MCallback} {cb : Callback} (hc : Backward K true m0 c cb)
    {cs : List MCallback} {cbs : List Callback} (hs : List.Forall₂ (Backward K false m0) cs cbs) (ws : List Nat) (G : GradStore) :
    Agree (fun D d => Grows m0 D.2.1 ∧ In D.2.1 D.1 ∧ D.1.read D.2.1 = d.1 ∧ D.2.2 = d.2 ∧ Among m0 dY D.1 ∧ Own m0 D.1)
      (mConcatBack block join (c :: cs) ws m0 G) (concatBackprop blockV joinV (cb :: cbs) ws G) := by
  cases ws with
  | nil => exact (rfl : PyErr.indexError = _)
  | cons w ws =>
    obtain ⟨b1, b2, b3, b4⟩ := hb 0 w m0 (Grows.refl m0)
    have hcb := hc _ (block 0 w m0).1 G (b1.later hK) b2
    rw [b3] at hcb
    unfold mConcatBack concatBackprop
    refine agree_bind hcb ?_
    rintro ⟨D, m1, G1⟩ ⟨d, G1'⟩ ⟨g1, i1, r1, q1, a1, o1⟩
    simp only at g1 i1 r1 q1 a1 o1 ⊢
    subst q1 r1
    refine concatRest_agree hK hb hj hs ws D w m1 G1 (b1.trans g1) i1 ?_ (b4.trans a1 b1.1)
    exact fun r hr => ⟨Nat.le_trans b1.1 (o1 trivial r hr).1, (o1 trivial r hr).2⟩

/-- Several layers with the same input. -/
theorem forwardAll_agree {train : Bool} {X : RVal} {Ms : List MLayer} {Ls : List Layer} (hs : List.Forall₂ (Faithful false false) Ms Ls) :
    ∀ (m : ArrMem), In m X → Agree (fun out ys => Grows m out.2.2 ∧ (∀ r ∈ RVal.refsAll out.1, r.addr < out.2.2.next) ∧
        RVal.readAll out.2.2 out.1 = ys.map Prod.fst ∧ (∀ r ∈ RVal.refsAll out.1, (∃ q ∈ X.refs, q.addr = r.addr) ∨ m.next ≤ r.addr) ∧
        ∃ K : Nat → Prop, (∀ a, K a → (∃ q ∈ X.refs, q.addr = a) ∨ m.next ≤ a) ∧ (∀ a, K a → a < out.2.2.next) ∧
          List.Forall₂ (Backward K false out.2.2) out.2.1 (ys.map Prod.snd))
      (mForwardAll train X Ms m) (Ls.mapM fun L => L train m.params (X.read m)) := by
  induction hs with
  | nil =>
    intro m hX
    exact ⟨Grows.refl m, by simp [RVal.refsAll], by simp [RVal.readAll], by simp [RVal.refsAll], fun _ => False, fun _ h => h.elim, fun _ h => h.elim, .nil⟩
  | @cons M L Ms Ls hM _ ih =>
    intro m hX
    rw [List.mapM_cons]
    unfold mForwardAll
    refine agree_bind (hM train X m hX) ?_
    rintro ⟨Y, c, m1⟩ ⟨y, cb⟩ ⟨g1, i1, r1, a1, K, k1, k2, -, k4⟩
    simp only at g1 i1 r1 a1 k2 k4 ⊢
    have h2 := ih m1 (g1.inn hX)
    rw [g1.read hX, g1.2.1] at h2
    refine agree_bind h2 ?_
    rintro ⟨Ys, cs, m2⟩ ys ⟨g2, i2, r2, a2, K', k1', k2', k4'⟩
    simp only at g2 i2 r2 a2 k2' k4' ⊢
    refine ⟨g1.trans g2, ?_, ?_, ?_, fun a => K a ∨ K' a, ?_, ?_, ?_⟩
    · simp only [RVal.refsAll, List.mem_append]
      rintro r (hr | hr)
      · exact Nat.lt_of_lt_of_le (i1 r hr) g2.1
      · exact i2 r hr
    · simp only [RVal.readAll, List.map_cons]
      rw [g2.read i1, r1, r2]
    · simp only [RVal.refsAll, List.mem_append]
      rintro r (hr | hr)
      · exact a1 r hr
      · exact (a2 r hr).imp id fun h => Nat.le_trans g1.1 h
    · rintro a (ha | ha)
      · exact k1 a ha
      · exact (k1' a ha).imp id fun h => Nat.le_trans g1.1 h
    · rintro a (ha | ha)
      · exact Nat.lt_of_lt_of_le (k2 a ha) g2.1
      · exact k2' a ha
    · exact .cons ((k4.later (g2.later k2)).weaken (fun _ => .inl) fun h => h) (k4'.imp fun _ _ h => h.weaken (fun _ => .inr) fun h => h)

theorem mapM_asRef (m : ArrMem) : ∀ vs : List RVal, Agree (fun rs As => rs.map (ArrRef.get m) = As) (vs.mapM RVal.asRef) ((RVal.readAll m vs).mapM Val.asArr)
  | [] => rfl
  | v :: vs => by
    simp only [RVal.readAll, List.mapM_cons]
    refine agree_bind (R := fun r A => ArrRef.get m r = A) (by cases v <;> simp only [RVal.asRef, RVal.read, Val.asArr, Agree]) ?_
    rintro r _ rfl
    refine agree_bind (mapM_asRef m vs) ?_
    rintro rs _ rfl
    rfl

theorem mapM_raggedRef (m : ArrMem) : ∀ vs : List RVal,
    Agree (fun rs As => rs.map (ArrRef.get m) = As) (vs.mapM RVal.raggedRef) ((RVal.readAll m vs).mapM Val.raggedData)
  | [] => rfl
  | v :: vs => by
    simp only [RVal.readAll, List.mapM_cons]
    refine agree_bind (R := fun r A => ArrRef.get m r = A) (by cases v <;> simp only [RVal.raggedRef, RVal.read, Val.raggedData, Agree]) ?_
    rintro r _ rfl
    refine agree_bind (mapM_raggedRef m vs) ?_
    rintro rs _ rfl
    rfl

theorem slice_get (m : ArrMem) (r : ArrRef) (s : ArrSlice) : ArrRef.get m (r.slice s) = s.get (r.get m) := by
  simp only [ArrRef.get, ArrRef.slice, List.foldl_append, List.foldl_cons, List.foldl_nil]

theorem mUnflatten_spec (m : ArrMem) (r : ArrRef) : ∀ (lengths : List Nat) (start : Nat),
    RVal.readAll m (mUnflatten r lengths start) = (matUnflatten (r.get m) lengths start).map .arr ∧
    ∀ q ∈ RVal.refsAll (mUnflatten r lengths start), q.addr = r.addr
  | [], _ => by simp [mUnflatten, RVal.readAll, RVal.refsAll, matUnflatten]
  | n :: ns, start => by
    obtain ⟨h1, h2⟩ := mUnflatten_spec m r ns (start + n)
    constructor
    · simp only [mUnflatten, RVal.readAll, RVal.read, matUnflatten, List.map_cons, h1, slice_get, ArrSlice.get]
    · intro q hq
      simp only [mUnflatten, RVal.refsAll, RVal.refs, List.singleton_append, List.mem_cons] at hq
      rcases hq with rfl | hq
      · rfl
      · exact h2 q hq

/-- `concatenate`, if the callback of the first layer returns a new array. -/
theorem C122_concatenate_partial {o : Bool} {M : MLayer} {L : Layer} (h : Faithful o true M L) {Ms : List MLayer} {Ls : List Layer}
    (hs : List.Forall₂ (Faithful false false) Ms Ls) : Faithful true true (mConcatenate (M :: Ms)) (concatenateForward (L :: Ls)) := by
  intro train X m hX
  unfold FaithfulAt mConcatenate concatenateForward
  rw [List.mapM_cons]
  unfold mForwardAll
  simp only [bind_assoc, pure_bind]
  refine agree_bind (h train X m hX) ?_
  rintro ⟨Y, c, m1⟩ ⟨y, cb⟩ ⟨g1, i1, r1, a1, K, k1, k2, -, k4⟩
  simp only at g1 i1 r1 a1 k2 k4 ⊢
  have h2 := forwardAll_agree (train := train) hs m1 (g1.inn hX)
  rw [g1.read hX, g1.2.1] at h2
  refine agree_bind h2 ?_
  rintro ⟨Ys, cs, m2⟩ ys ⟨g2, i2, r2, a2, K', k1', k2', k4'⟩
  simp only [List.map_cons] at g2 i2 r2 a2 k2' k4' ⊢
  have hY : RVal.readAll m2 (Y :: Ys) = y :: ys.map Prod.fst := by
    simp only [RVal.readAll]
    rw [g2.read i1, r1, r2]
  have gm := g1.trans g2
  have hXm : X.read m2 = X.read m := gm.read hX
  -- the callbacks, at any later time
  have hcs : ∀ m', Later (fun a => K a ∨ K' a) m2 m' → (∀ a, K a ∨ K' a → a < m'.next) ∧ Backward (fun a => K a ∨ K' a) true m' c cb ∧
      List.Forall₂ (Backward (fun a => K a ∨ K' a) false m') cs (ys.map Prod.snd) := by
    intro m' hl
    refine ⟨?_, ((k4.later (g2.later k2)).weaken (fun _ => .inl) fun h => h).later hl, k4'.imp fun _ _ h => (h.weaken (fun _ => .inr) fun h => h).later hl⟩
    rintro a (ha | ha)
    · exact Nat.lt_of_lt_of_le (k2 a ha) (Nat.le_trans g2.1 hl.1)
    · exact Nat.lt_of_lt_of_le (k2' a ha) hl.1
  -- the output is new
  have hnew : ∀ (A : Mat ℝ) (out : RVal) (c : MCallback) (z : Val × Callback), (∀ r ∈ out.refs, r.addr = m2.next) → (∀ r ∈ out.top, r.path = []) →
      out.read (m2.alloc A).2 = z.1 → Backward (fun a => K a ∨ K' a) true (m2.alloc A).2 c z.2 →
      Grows m (m2.alloc A).2 ∧ In (m2.alloc A).2 out ∧ out.read (m2.alloc A).2 = z.1 ∧ Among m X out ∧
      ∃ K : Nat → Prop, (∀ a, K a → (∃ q ∈ X.refs, q.addr = a) ∨ m.next ≤ a) ∧ (∀ a, K a → a < (m2.alloc A).2.next) ∧
        (True → Own m out ∧ ∀ r ∈ out.top, ¬ K r.addr) ∧ Backward K true (m2.alloc A).2 c z.2 := by
    intro A out c z e1 e2 e3 e4
    refine ⟨gm.trans (grows_alloc _ _), fun r hr => by rw [e1 r hr]; exact Nat.lt_succ_self _, e3, fun r hr => .inr (by rw [e1 r hr]; exact gm.1),
      fun a => K a ∨ K' a, ?_, ?_, fun _ => ⟨fun r hr => ⟨by rw [e1 r (top_refs hr)]; exact gm.1, e2 r hr⟩, ?_⟩, e4⟩
    · rintro a (ha | ha)
      · exact k1 a ha
      · exact (k1' a ha).imp id fun h => Nat.le_trans g1.1 h
    · rintro a (ha | ha)
      · exact Nat.lt_of_lt_of_le (k2 a ha) (Nat.le_trans g2.1 (grows_alloc _ _).1)
      · exact Nat.lt_of_lt_of_le (k2' a ha) (grows_alloc _ _).1
    · intro r hr
      rw [e1 r (top_refs hr)]
      rintro (ha | ha)
      · exact absurd (Nat.lt_of_lt_of_le (k2 _ ha) g2.1) (Nat.lt_irrefl _)
      · exact absurd (k2' _ ha) (Nat.lt_irrefl _)
  have hlate : ∀ A m', Later (fun a => K a ∨ K' a) (m2.alloc A).2 m' → Later (fun a => K a ∨ K' a) m2 m' := by
    intro A m' hl
    refine ((grows_alloc m2 A).later ?_).trans hl
    rintro a (ha | ha)
    · exact Nat.lt_of_lt_of_le (k2 a ha) g2.1
    · exact k2' a ha
  have arrays : Agree (fun out z => Grows m out.2.2 ∧ In out.2.2 out.1 ∧ out.1.read out.2.2 = z.1 ∧ Among m X out.1 ∧
      ∃ K : Nat → Prop, (∀ a, K a → (∃ q ∈ X.refs, q.addr = a) ∨ m.next ≤ a) ∧ (∀ a, K a → a < out.2.2.next) ∧
        (True → Own m out.1 ∧ ∀ r ∈ out.1.top, ¬ K r.addr) ∧ Backward K true out.2.2 out.2.1 z.2)
      (mConcatArrays (Y :: Ys) (c :: cs) m2) (concatArrays (y :: ys.map Prod.fst) (cb :: ys.map Prod.snd)) := by
    unfold mConcatArrays concatArrays
    have hm := mapM_asRef m2 (Y :: Ys)
    rw [hY] at hm
    refine agree_bind hm ?_
    rintro rs _ rfl
    refine agree_same _ fun A hA => ?_
    refine hnew A _ _ (_, _) (by simp [RVal.refs, ArrMem.alloc]) (by simp [RVal.top]) (by simp only [RVal.read, alloc_get]) ?_
    intro m' dY G hl hd
    obtain ⟨q1, q2, q3⟩ := hcs m' (hlate A m' hl)
    refine agree_bind (R := fun d D => ArrRef.get m' d = D ∧ d.addr < m'.next ∧ dY.refs = [d]) ?_ ?_
    · cases dY <;> simp only [RVal.asRef, RVal.read, Val.asArr, Agree]
      exact ⟨trivial, hd _ (by simp [RVal.refs]), by simp only [RVal.refs]⟩
    · rintro d _ ⟨rfl, hd1, hd2⟩
      rw [List.map_map]
      refine agree_mono (concatBack_agree q1 (dY := dY) ?_ addGradient_joins q2 q3 _ G) fun D d ⟨e1, e2, e3, e4, e5, e6⟩ => ⟨e1, e2, e3, e4, e5, fun _ => e6⟩
      intro start stop m3 hg
      obtain ⟨f1, f2, f3, f4⟩ := asContig_spec (d.slice (.cols start stop)) m3 (Nat.lt_of_lt_of_le hd1 hg.1)
      refine ⟨f1, by simpa [In, RVal.refs] using f2, ?_, ?_⟩
      · simp only [RVal.read, f3, slice_get, ArrSlice.get]
        rw [get_congr (hg.2.2 _ hd1)]
      · intro r hr
        simp only [RVal.refs, List.mem_singleton] at hr
        subst hr
        rcases f4 with f4 | f4
        · exact .inl ⟨d, by rw [hd2]; simp, f4.symm⟩
        · exact .inr (Nat.le_trans hg.1 f4)
  have ragged : Agree (fun out z => Grows m out.2.2 ∧ In out.2.2 out.1 ∧ out.1.read out.2.2 = z.1 ∧ Among m X out.1 ∧
      ∃ K : Nat → Prop, (∀ a, K a → (∃ q ∈ X.refs, q.addr = a) ∨ m.next ≤ a) ∧ (∀ a, K a → a < out.2.2.next) ∧
        (True → Own m out.1 ∧ ∀ r ∈ out.1.top, ¬ K r.addr) ∧ Backward K true out.2.2 out.2.1 z.2)
      (mConcatRagged (Y :: Ys) (c :: cs) m2) (concatRagged (y :: ys.map Prod.fst) (cb :: ys.map Prod.snd)) := by
    unfold mConcatRagged concatRagged
    have hm := mapM_raggedRef m2 (Y :: Ys)
    rw [hY] at hm
    refine agree_bind hm ?_
    rintro rs _ rfl
    refine agree_same _ fun A hA => ?_
    refine agree_bind (R := fun a b => a = Y ∧ b = y) ⟨rfl, rfl⟩ ?_
    rintro _ _ ⟨rfl, e⟩
    rw [e, g2.read i1, r1]
    refine agree_same _ fun l hl => ?_
    refine hnew A _ _ (_, _) (by simp [RVal.refs, ArrMem.alloc]) (by simp [RVal.top]) (by simp only [RVal.read, alloc_get]) ?_
    intro m' dY G hl hd
    obtain ⟨q1, q2, q3⟩ := hcs m' (hlate A m' hl)
    refine agree_bind (R := fun d D => ArrRef.get m' d = D ∧ d.addr < m'.next ∧ dY.refs = [d]) ?_ ?_
    · cases dY <;> simp only [RVal.raggedRef, RVal.read, Val.raggedData, Agree]
      exact ⟨trivial, hd _ (by simp [RVal.refs]), by simp only [RVal.refs]⟩
    · rintro d _ ⟨rfl, hd1, hd2⟩
      refine agree_same _ fun dl hdl => ?_
      rw [List.map_map]
      refine agree_mono (concatBack_agree q1 (dY := dY) ?_ iadd_joins q2 q3 _ G) fun D d ⟨e1, e2, e3, e4, e5, e6⟩ => ⟨e1, e2, e3, e4, e5, fun _ => e6⟩
      intro start stop m3 hg
      obtain ⟨f1, f2, f3, f4⟩ := asContig_spec (d.slice (.cols start stop)) m3 (Nat.lt_of_lt_of_le hd1 hg.1)
      refine ⟨f1, by simpa [In, RVal.refs] using f2, ?_, ?_⟩
      · simp only [RVal.read, f3, slice_get, ArrSlice.get]
        rw [get_congr (hg.2.2 _ hd1)]
      · intro r hr
        simp only [RVal.refs, List.mem_singleton] at hr
        subst hr
        rcases f4 with f4 | f4
        · exact .inl ⟨d, by rw [hd2]; simp, f4.symm⟩
        · exact .inr (Nat.le_trans hg.1 f4)
  have lists : Agree (fun out z => Grows m out.2.2 ∧ In out.2.2 out.1 ∧ out.1.read out.2.2 = z.1 ∧ Among m X out.1 ∧
      ∃ K : Nat → Prop, (∀ a, K a → (∃ q ∈ X.refs, q.addr = a) ∨ m.next ≤ a) ∧ (∀ a, K a → a < out.2.2.next) ∧
        (True → Own m out.1 ∧ ∀ r ∈ out.1.top, ¬ K r.addr) ∧ Backward K true out.2.2 out.2.1 z.2)
      (mConcatLists X (Y :: Ys) (c :: cs) m2) (concatLists (X.read m) (y :: ys.map Prod.fst) (cb :: ys.map Prod.snd)) := by
    unfold mConcatLists concatLists
    rw [hXm, hY]
    refine agree_same _ fun items hi => agree_same _ fun lengths hl => agree_same _ fun Zs hZ => agree_same _ fun A hA => ?_
    refine hnew A _ _ (_, _) ?_ (by simp [RVal.top]) ?_ ?_
    · simp only [RVal.refs]
      exact (mUnflatten_spec m2 ⟨(m2.alloc A).1, []⟩ lengths 0).2
    · simp only [RVal.read]
      rw [(mUnflatten_spec _ ⟨(m2.alloc A).1, []⟩ lengths 0).1, alloc_get]
    intro m' dY G hl hd
    obtain ⟨q1, q2, q3⟩ := hcs m' (hlate A m' hl)
    refine agree_same _ fun D hD => ?_
    have ga := grows_alloc m' D
    obtain ⟨q1', q2', q3'⟩ := hcs (m'.alloc D).2 ((hlate A m' hl).trans (ga.later q1))
    refine agree_mono (concatBack_agree q1' (dY := .arr ⟨(m'.alloc D).1, []⟩) ?_ iadd_joins q2' q3' _ G) fun E e ⟨e1, e2, e3, e4, e5, e6⟩ =>
      ⟨ga.trans e1, e2, e3, e4, ?_, fun _ r hr => ⟨Nat.le_trans ga.1 (e6 r hr).1, (e6 r hr).2⟩⟩
    · intro start stop m3 hg
      have hd1 : (m'.alloc D).1 < (m'.alloc D).2.next := Nat.lt_succ_self _
      obtain ⟨f1, f2, f3, f4⟩ := asContig_spec ((⟨(m'.alloc D).1, []⟩ : ArrRef).slice (.cols start stop)) m3 (Nat.lt_of_lt_of_le hd1 hg.1)
      obtain ⟨u1, u2⟩ := mUnflatten_spec (asContig ((⟨(m'.alloc D).1, []⟩ : ArrRef).slice (.cols start stop)) m3).2
        (asContig ((⟨(m'.alloc D).1, []⟩ : ArrRef).slice (.cols start stop)) m3).1 lengths 0
      refine ⟨f1, ?_, ?_, ?_⟩
      · intro r hr
        simp only [RVal.refs] at hr
        rw [u2 r hr]
        exact f2
      · simp only [RVal.read]
        rw [u1, f3, slice_get, get_congr (hg.2.2 _ hd1), alloc_get]
        rfl
      · intro r hr
        simp only [RVal.refs] at hr
        rw [u2 r hr]
        rcases f4 with f4 | f4
        · exact .inl ⟨⟨(m'.alloc D).1, []⟩, by simp [RVal.refs], f4.symm⟩
        · exact .inr (Nat.le_trans hg.1 f4)
    · intro r hr
      rcases e5 r hr with ⟨q, hq, e⟩ | hq
      · simp only [RVal.refs, List.mem_singleton] at hq
        subst hq
        exact .inr (by rw [← e]; exact Nat.le_refl _)
      · exact .inr (Nat.le_trans ga.1 hq)
  unfold mConcatOutputs concatOutputs
  have hy : y = Y.read m2 := by rw [g2.read i1, r1]
  cases Y with
  | list vs =>
    simp only [RVal.read] at hy
    subst hy
    exact lists
  | ragged r l =>
    simp only [RVal.read] at hy
    subst hy
    exact ragged
  | arr _ => simp only [RVal.read] at hy; subst hy; exact arrays
  | padded _ _ _ _ _ => simp only [RVal.read] at hy; subst hy; exact arrays
  | ints _ => simp only [RVal.read] at hy; subst hy; exact arrays
  | intMat _ => simp only [RVal.read] at hy; subst hy; exact arrays
  | tup _ => simp only [RVal.read] at hy; subst hy; exact arrays

end Thinc
