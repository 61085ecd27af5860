import Verif.Model.ArrMemSeq
import Verif.Props.ArrMemConcat
/-!
# C122: sequence wrappers on shared arrays
-/
namespace Thinc
open Shared Spec.Shared

/-- The conversion on arrays gives what the conversion on values gives, and changes no array.  The result is in new arrays, or in those of the
input.  With `t`, if it is an array, a `Ragged` or a `Padded`, it is that of the input or a new one, not a view. -/
def ConvertsAt {μ : Type} (t : Bool) (f : MConv μ) (F : Val → Except PyErr (Val × μ)) (v : RVal) (m : ArrMem) : Prop :=
  Agree (fun out y => Grows m out.2 ∧ In out.2 out.1.1 ∧ out.1.1.read out.2 = y.1 ∧ out.1.2 = y.2 ∧ Among m v out.1.1 ∧
    (t = true → ∀ r ∈ out.1.1.top, r ∈ v.top ∨ (m.next ≤ r.addr ∧ r.path = []))) (f v m) (F (v.read m))

/-- This for any value. -/
def Converts {μ : Type} (t : Bool) (f : MConv μ) (F : Val → Except PyErr (Val × μ)) : Prop := ∀ v m, In m v → ConvertsAt t f F v m

/-- A layer between conversions, on values. -/
def wrapV {μ ν : Type} (pre : Val → Except PyErr (Val × μ)) (post : μ → Val → Except PyErr (Val × Unit)) (backPre : μ → Val → Except PyErr (Val × ν))
    (backPost : μ → ν → Val → Except PyErr (Val × Unit)) (layer : Layer) : Layer := fun train P X => do
  let (X, k) ← pre X
  let (Y, getDX) ← layer train P X
  let (Y, _) ← post k Y
  let backprop : Callback := fun dY G => do
    let (dY, k') ← backPre k dY
    let (dX, G) ← getDX dY G
    let (dX, _) ← backPost k k' dX
    return (dX, G)
  return (Y, backprop)

theorem wrap_faithful {μ ν : Type} {pre : MConv μ} {post : μ → MConv Unit} {backPre : μ → MConv ν} {backPost : μ → ν → MConv Unit}
    {preV : Val → Except PyErr (Val × μ)} {postV : μ → Val → Except PyErr (Val × Unit)} {backPreV : μ → Val → Except PyErr (Val × ν)}
    {backPostV : μ → ν → Val → Except PyErr (Val × Unit)} {t t' t1 t2 o g : Bool} (h1 : Converts t1 pre preV) (h2 : ∀ k, Converts t (post k) (postV k))
    (h3 : ∀ k, Converts t2 (backPre k) (backPreV k)) (h4 : ∀ k k', Converts t' (backPost k k') (backPostV k k')) {M : MLayer} {L : Layer}
    (h : Faithful o g M L) : Faithful (o && t) (g && t') (mWrap pre post backPre backPost M) (wrapV preV postV backPreV backPostV L) := by
  intro train X m hX
  unfold FaithfulAt mWrap wrapV
  refine agree_bind (h1 X m hX) ?_
  rintro ⟨⟨X1, k⟩, m1⟩ ⟨x1, k'⟩ ⟨a1, a2, a3, a4, a5, -⟩
  simp only at a1 a2 a3 a4 a5
  subst a3 a4
  have hf := h train X1 m1 a2
  unfold FaithfulAt at hf
  rw [a1.2.1] at hf
  refine agree_bind hf ?_
  rintro ⟨Y, c, m2⟩ ⟨y, cb⟩ ⟨b1, b2, b3, b4, K, k1, k2, k3, k4⟩
  simp only at b1 b2 b3 b4 k2 k3 k4
  subst b3
  refine agree_bind (h2 k Y m2 b2) ?_
  rintro ⟨⟨Y', u⟩, m3⟩ ⟨y', u'⟩ ⟨c1, c2, c3, -, c5, c6⟩
  simp only at c1 c2 c3 c5 c6
  refine ⟨(a1.trans b1).trans c1, c2, c3, (a5.trans b4 a1.1).trans c5 (a1.trans b1).1, K, ?_, fun a ha => Nat.lt_of_lt_of_le (k2 a ha) c1.1, ?_, ?_⟩
  · intro a ha
    rcases k1 a ha with ⟨q, hq, e⟩ | hn
    · rcases a5 q hq with ⟨p, hp, e'⟩ | hn
      · exact .inl ⟨p, hp, e'.trans e⟩
      · exact .inr (e ▸ hn)
    · exact .inr (Nat.le_trans a1.1 hn)
  · intro ho
    simp only [Bool.and_eq_true] at ho
    obtain ⟨q1, q2⟩ := k3 ho.1
    constructor
    · intro r hr
      rcases c6 ho.2 r hr with hr' | ⟨hn, hp⟩
      · exact ⟨Nat.le_trans a1.1 (q1 r hr').1, (q1 r hr').2⟩
      · exact ⟨Nat.le_trans (a1.trans b1).1 hn, hp⟩
    · intro r hr hk
      rcases c6 ho.2 r hr with hr' | ⟨hn, -⟩
      · exact q2 r hr' hk
      · exact absurd (k2 _ hk) (Nat.not_lt.2 hn)
  · intro m' dY G hl hd
    simp only
    refine agree_bind (h3 k dY m' hd) ?_
    rintro ⟨⟨D, n⟩, m4⟩ ⟨d, n'⟩ ⟨d1, d2, d3, d4, d5, -⟩
    simp only at d1 d2 d3 d4 d5
    subst d3 d4
    have hl' : Later K m2 m4 := (c1.later k2).trans (hl.trans (d1.later fun a ha =>
      Nat.lt_of_lt_of_le (k2 a ha) (Nat.le_trans c1.1 hl.1)))
    refine agree_bind (k4 m4 D G hl' d2) ?_
    rintro ⟨E, m5, G1⟩ ⟨e, G1'⟩ ⟨e1, e2, e3, e4, e5, e6⟩
    simp only at e1 e2 e3 e4 e5 e6
    subst e3 e4
    refine agree_bind (h4 k n E m5 e2) ?_
    rintro ⟨⟨F, u⟩, m6⟩ ⟨f, u'⟩ ⟨f1, f2, f3, -, f5, f6⟩
    simp only at f1 f2 f3 f5 f6
    refine ⟨(d1.trans e1).trans f1, f2, f3, rfl, (d5.trans e5 d1.1).trans f5 (d1.trans e1).1, ?_⟩
    intro hg
    simp only [Bool.and_eq_true] at hg
    intro r hr
    rcases f6 hg.2 r hr with hr' | ⟨hn, hp⟩
    · exact ⟨Nat.le_trans d1.1 (e6 hg.1 r hr').1, (e6 hg.1 r hr').2⟩
    · exact ⟨Nat.le_trans (d1.trans e1).1 hn, hp⟩

/-! ### Parts of an array -/

/-- The parts that `unflatten` gives. -/
def partsFrom (X : Arr ℝ) (pad : Nat) : List Nat → Nat → List (Arr ℝ)
  | [], _ => []
  | n :: ns, start =>
    (X.slice start (start + if 0 < pad ∧ 0 < n then n + pad else n)).slice pad (X.slice start (start + if 0 < pad ∧ 0 < n then n + pad else n)).len ::
      partsFrom X pad ns (start + if 0 < pad ∧ 0 < n then n + pad else n)

theorem slice_all (x : Arr ℝ) : x.slice 0 x.len = x := by
  obtain ⟨t, rows⟩ := x
  simp [Arr.slice, Arr.len]

theorem npSplit_from (X : Arr ℝ) (L : Nat) : ∀ (ls : List Nat) (off : Nat),
    ((List.zip (off :: cumsumFrom off ls) (cumsumFrom off ls ++ [L])).map fun p => X.slice p.1 p.2).dropLast.length = ls.length ∧
    ∀ l ls', ls = l :: ls' → ((List.zip (off :: cumsumFrom off ls) (cumsumFrom off ls ++ [L])).map fun p => X.slice p.1 p.2).dropLast =
      X.slice off (off + l) :: ((List.zip ((off + l) :: cumsumFrom (off + l) ls') (cumsumFrom (off + l) ls' ++ [L])).map fun p => X.slice p.1 p.2).dropLast
  | [], off => by simp [cumsumFrom]
  | l :: ls, off => by
    have e : ((List.zip (off :: cumsumFrom off (l :: ls)) (cumsumFrom off (l :: ls) ++ [L])).map fun p => X.slice p.1 p.2).dropLast =
        X.slice off (off + l) :: ((List.zip ((off + l) :: cumsumFrom (off + l) ls) (cumsumFrom (off + l) ls ++ [L])).map fun p => X.slice p.1 p.2).dropLast := by
      simp only [cumsumFrom, List.cons_append, List.zip_cons_cons, List.map_cons]
      cases hc : cumsumFrom (off + l) ls <;> simp [List.dropLast]
    refine ⟨?_, ?_⟩
    · rw [e, List.length_cons, (npSplit_from X L ls (off + l)).1, List.length_cons]
    · intro l' ls' h
      cases h
      exact e

theorem npSplit_parts (X : Arr ℝ) (L pad : Nat) : ∀ (lengths : List Nat) (off : Nat),
    (((List.zip (off :: cumsumFrom off (lengths.map fun n => if 0 < pad ∧ 0 < n then n + pad else n))
      (cumsumFrom off (lengths.map fun n => if 0 < pad ∧ 0 < n then n + pad else n) ++ [L])).map fun p => X.slice p.1 p.2).dropLast).map
        (fun a => a.slice pad a.len) = partsFrom X pad lengths off
  | [], off => by simp [cumsumFrom, partsFrom]
  | n :: ns, off => by
    rw [List.map_cons, (npSplit_from X L _ off).2 _ _ rfl, List.map_cons, npSplit_parts X L pad ns]
    rfl

theorem opsUnflatten_parts (X : Arr ℝ) (lengths : List Nat) (pad : Nat) : opsUnflatten X lengths pad = .ok (partsFrom X pad lengths 0) := by
  have h := npSplit_parts X X.len pad lengths 0
  have hl := (npSplit_from X X.len (lengths.map fun n => if 0 < pad ∧ 0 < n then n + pad else n) 0).1
  unfold opsUnflatten npSplit
  by_cases hp : 0 < pad
  · have e : (lengths.map fun l => if l > 0 then l + pad else 0) = lengths.map fun n => if 0 < pad ∧ 0 < n then n + pad else n := by
      refine List.map_congr_left fun n _ => ?_
      rcases Nat.eq_zero_or_pos n with rfl | hn
      · simp
      · simp [hp, hn]
    rw [if_pos hp]
    simp only [e]
    rw [if_pos hp, h, if_pos]
    rw [← h, List.length_map, hl]
  · have hp : pad = 0 := by omega
    subst hp
    have e : (lengths.map fun n => if 0 < 0 ∧ 0 < n then n + 0 else n) = lengths := by simp
    rw [e] at h hl
    simp only [slice_all, List.map_id'] at h
    simp only [gt_iff_lt, Nat.lt_irrefl, if_false]
    rw [h, if_pos]
    rw [← h, hl]

theorem mSplit_spec (m : ArrMem) (r : ArrRef) (pad : Nat) : ∀ (lengths : List Nat) (start : Nat),
    RVal.readAll m (mSplit r pad lengths start) = (partsFrom (r.get m).toArr pad lengths start).map (fun x => .arr x.toMat) ∧
    ∀ q ∈ RVal.refsAll (mSplit r pad lengths start), q.addr = r.addr
  | [], _ => by simp [mSplit, RVal.readAll, RVal.refsAll, partsFrom]
  | n :: ns, start => by
    obtain ⟨h1, h2⟩ := mSplit_spec m r pad ns (start + if 0 < pad ∧ 0 < n then n + pad else n)
    constructor
    · simp only [mSplit, RVal.readAll, RVal.read, partsFrom, List.map_cons, h1, slice_get, ArrSlice.get]
    · intro q hq
      simp only [mSplit, RVal.refsAll, RVal.refs, List.singleton_append, List.mem_cons] at hq
      rcases hq with rfl | hq
      · rfl
      · exact h2 q hq

/-- A list of views of an array of the value. -/
theorem split_at (t : Bool) {v : RVal} {m : ArrMem} {r : ArrRef} (hr : r ∈ v.refs) (hv : In m v) (pad : Nat) (lengths : List Nat) :
    Grows m m ∧ In m (.list (mSplit r pad lengths 0)) ∧
    RVal.read m (.list (mSplit r pad lengths 0)) = Val.ofArrays (partsFrom (r.get m).toArr pad lengths 0) ∧
    Among m v (.list (mSplit r pad lengths 0)) ∧ (t = true → ∀ q ∈ RVal.top (.list (mSplit r pad lengths 0)), q ∈ v.top ∨ (m.next ≤ q.addr ∧ q.path = [])) := by
  obtain ⟨h1, h2⟩ := mSplit_spec m r pad lengths 0
  refine ⟨Grows.refl m, ?_, ?_, ?_, fun _ q hq => (by cases hq)⟩
  · intro q hq
    simp only [RVal.refs] at hq
    rw [h2 q hq]
    exact hv r hr
  · simp only [RVal.read, h1, Val.ofArrays]
  · intro q hq
    simp only [RVal.refs] at hq
    exact .inl ⟨r, hr, (h2 q hq).symm⟩

/-! ### The conversions -/

theorem asIs_converts : Converts true mAsIs (fun v => .ok (v, ())) := fun _ m hv =>
  ⟨Grows.refl m, hv, rfl, rfl, fun r hr => .inl ⟨r, hr, rfl⟩, fun _ _ hr => .inl hr⟩

/-- A new array, or a `Ragged` with a new array. -/
theorem new_at (t : Bool) (v : RVal) (m : ArrMem) (A : Mat ℝ) {w : RVal} (hw : w.refs = [⟨(m.alloc A).1, []⟩]) :
    Grows m (m.alloc A).2 ∧ In (m.alloc A).2 w ∧ Among m v w ∧ (t = true → ∀ r ∈ w.top, r ∈ v.top ∨ (m.next ≤ r.addr ∧ r.path = [])) := by
  have e : ∀ q ∈ w.refs, q = ⟨(m.alloc A).1, []⟩ := fun q hq => by rw [hw] at hq; exact List.mem_singleton.1 hq
  refine ⟨grows_alloc m A, fun q hq => ?_, fun q hq => ?_, fun _ q hq => ?_⟩
  · rw [e q hq]; exact Nat.lt_succ_self _
  · rw [e q hq]; exact .inr (Nat.le_refl _)
  · rw [e q (top_refs hq)]; exact .inr ⟨Nat.le_refl _, rfl⟩

theorem flatten_converts (pad : Nat) : Converts true (mFlatten pad) (fun v => do
    let Xs ← v.arrays
    let Xf ← opsFlatten Xs pad
    return (.arr Xf.toMat, Xs.map Arr.len)) := by
  intro v m hv
  unfold ConvertsAt mFlatten
  refine agree_same _ fun Xs _ => agree_same _ fun Xf _ => ?_
  obtain ⟨h1, h2, h3, h4⟩ := new_at true v m Xf.toMat (w := .arr ⟨(m.alloc Xf.toMat).1, []⟩) (by simp [RVal.refs])
  exact ⟨h1, h2, by simp only [RVal.read, alloc_get], rfl, h3, h4⟩

theorem arrRef_agree {γ δ : Type} {S : γ → δ → Prop} (Y : RVal) (m : ArrMem) {f : ArrRef → Except PyErr γ} {f' : Mat ℝ → Except PyErr δ}
    (h : ∀ r, Y = .arr r → Agree S (f r) (f' (r.get m))) : Agree S (Y.arrRef >>= f) ((Y.read m).asArr >>= f') := by
  cases Y <;> first
    | exact (rfl : PyErr.attributeError = _)
    | exact h _ rfl

theorem unflattenOut_converts (pad : Nat) (lengths : List Nat) : Converts true (mUnflattenOut pad lengths) (fun v => do
    let A ← v.asArr
    let Ys ← opsUnflatten A.toArr lengths pad
    return (Val.ofArrays Ys, ())) := by
  intro v m hv
  unfold ConvertsAt mUnflattenOut
  refine arrRef_agree v m fun r e => ?_
  subst e
  rw [opsUnflatten_parts]
  obtain ⟨h1, h2, h3, h4, h5⟩ := split_at true (v := .arr r) (r := r) (by simp [RVal.refs]) hv pad lengths
  exact ⟨h1, h2, h3, rfl, h4, h5⟩

theorem raggedIn_converts : Converts false mRaggedIn (fun v => do
    let r ← v.asRagged
    return (.arr r.dataXd.toMat, r.lengths)) := by
  intro v m hv
  unfold ConvertsAt
  cases v with
  | ragged r lengths =>
    refine ⟨Grows.refl m, ?_, ?_, rfl, ?_, fun h => (by cases h)⟩
    · intro q hq
      simp only [RVal.refs, List.mem_singleton] at hq
      subst hq
      exact hv r (by simp [RVal.refs])
    · show RVal.read m (.arr (r.slice .whole)) = _
      simp only [RVal.read, slice_get]
      rfl
    · intro q hq
      simp only [RVal.refs, List.mem_singleton] at hq
      subst hq
      exact .inl ⟨r, by simp [RVal.refs], rfl⟩
  | _ => exact (rfl : PyErr.attributeError = _)

theorem raggedOut_converts (lengths : List Nat) : Converts false (mRaggedOut lengths) (fun v => do
    let A ← v.asArr
    return (Val.ofRagged (Ragged.make A.toArr lengths), ())) := by
  intro v m hv
  unfold ConvertsAt mRaggedOut
  refine arrRef_agree v m fun r e => ?_
  subst e
  refine ⟨Grows.refl m, ?_, ?_, rfl, ?_, fun h => (by cases h)⟩
  · intro q hq
    simp only [RVal.refs, List.mem_singleton] at hq
    subst hq
    exact hv r (by simp [RVal.refs])
  · show RVal.read m (.ragged (r.slice .raggedData) lengths) = _
    simp only [RVal.read, slice_get]
    rfl
  · intro q hq
    simp only [RVal.refs, List.mem_singleton] at hq
    subst hq
    exact .inl ⟨r, by simp [RVal.refs], rfl⟩

theorem paddedIn_converts : Converts true mPaddedIn (fun v => do
    let p ← v.paddedParts
    return (.arr p.1, p.1.rows, p.2)) := by
  intro v m hv
  unfold ConvertsAt
  cases v with
  | padded r n s l i =>
    refine ⟨Grows.refl m, ?_, rfl, rfl, ?_, ?_⟩
    · intro q hq
      simp only [RVal.refs, List.mem_singleton] at hq
      subst hq
      exact hv q (by simp [RVal.refs])
    · intro q hq
      simp only [RVal.refs, List.mem_singleton] at hq
      subst hq
      exact .inl ⟨q, by simp [RVal.refs], rfl⟩
    · intro _ q hq
      exact .inl hq
  | _ => exact (rfl : PyErr.assertionError = _)

theorem paddedOut_converts (k : Nat × Nat × List Nat × List Nat × List Nat) : Converts true (mPaddedOut k) (fun v => do
    let A ← v.asArr
    let A ← reshapeCells A k.1
    return (.padded A k.2.1 k.2.2.1 k.2.2.2.1 k.2.2.2.2, ())) := by
  intro v m hv
  unfold ConvertsAt mPaddedOut
  refine arrRef_agree v m fun r e => ?_
  subst e
  refine agree_same _ fun A hA => ?_
  have e : A = r.get m := by
    unfold reshapeCells at hA
    split at hA
    · exact (Except.ok.inj hA).symm
    · cases hA
  subst e
  refine ⟨Grows.refl m, ?_, rfl, rfl, ?_, ?_⟩
  · intro q hq
    simp only [RVal.refs, List.mem_singleton] at hq
    subst hq
    exact hv q (by simp [RVal.refs])
  · intro q hq
    simp only [RVal.refs, List.mem_singleton] at hq
    subst hq
    exact .inl ⟨q, by simp [RVal.refs], rfl⟩
  · intro _ q hq
    exact .inl hq

theorem raggedToList_converts : Converts true mRaggedToList (fun v => do
    let r ← v.asRagged
    let Ys ← opsUnflatten r.data r.lengths 0
    return (Val.ofArrays Ys, r.lengths)) := by
  intro v m hv
  unfold ConvertsAt
  cases v with
  | ragged r lengths =>
    show Agree _ _ (opsUnflatten (r.get m).toArr lengths 0 >>= fun Ys => pure (Val.ofArrays Ys, lengths))
    rw [opsUnflatten_parts]
    obtain ⟨h1, h2, h3, h4, h5⟩ := split_at true (v := .ragged r lengths) (r := r) (by simp [RVal.refs]) hv 0 lengths
    exact ⟨h1, h2, h3, rfl, h4, h5⟩
  | _ => exact (rfl : PyErr.attributeError = _)

theorem raggedToListBy_converts (lengths : List Nat) : Converts true (mRaggedToListBy lengths) (fun v => do
    let r ← v.asRagged
    let Ys ← opsUnflatten r.data lengths 0
    return (Val.ofArrays Ys, ())) := by
  intro v m hv
  unfold ConvertsAt
  cases v with
  | ragged r l =>
    show Agree _ _ (opsUnflatten (r.get m).toArr lengths 0 >>= fun Ys => pure (Val.ofArrays Ys, ()))
    rw [opsUnflatten_parts]
    obtain ⟨h1, h2, h3, h4, h5⟩ := split_at true (v := .ragged r l) (r := r) (by simp [RVal.refs]) hv 0 lengths
    exact ⟨h1, h2, h3, rfl, h4, h5⟩
  | _ => exact (rfl : PyErr.attributeError = _)

theorem raggedToListOwn_converts : Converts true mRaggedToListOwn (fun v => do
    let r ← v.asRagged
    let Ys ← opsUnflatten r.data r.lengths 0
    return (Val.ofArrays Ys, ())) := by
  intro v m hv
  unfold ConvertsAt
  cases v with
  | ragged r lengths =>
    show Agree _ _ (opsUnflatten (r.get m).toArr lengths 0 >>= fun Ys => pure (Val.ofArrays Ys, ()))
    rw [opsUnflatten_parts]
    obtain ⟨h1, h2, h3, h4, h5⟩ := split_at true (v := .ragged r lengths) (r := r) (by simp [RVal.refs]) hv 0 lengths
    exact ⟨h1, h2, h3, rfl, h4, h5⟩
  | _ => exact (rfl : PyErr.attributeError = _)

theorem listToRagged_converts : Converts true mListToRagged (fun v => do
    let Xs ← v.arrays
    let Xf ← opsFlatten Xs 0
    return (Val.ofRagged (Ragged.make Xf (Xs.map Arr.len)), Xs.map Arr.len)) := by
  intro v m hv
  unfold ConvertsAt mListToRagged
  refine agree_same _ fun Xs _ => agree_same _ fun Xf _ => ?_
  obtain ⟨h1, h2, h3, h4⟩ := new_at true v m (Ragged.make Xf (Xs.map Arr.len)).data.toMat
    (w := .ragged ⟨(m.alloc (Ragged.make Xf (Xs.map Arr.len)).data.toMat).1, []⟩ (Xs.map Arr.len)) (by simp [RVal.refs])
  exact ⟨h1, h2, by simp only [RVal.read, alloc_get]; rfl, rfl, h3, h4⟩

theorem listToRaggedBy_converts (lengths : List Nat) : Converts true (mListToRaggedBy lengths) (fun v => do
    let Xf ← opsFlatten (← v.arrays) 0
    return (Val.ofRagged (Ragged.make Xf lengths), ())) := by
  intro v m hv
  unfold ConvertsAt mListToRaggedBy
  refine agree_same _ fun Xs _ => agree_same _ fun Xf _ => ?_
  obtain ⟨h1, h2, h3, h4⟩ := new_at true v m (Ragged.make Xf lengths).data.toMat
    (w := .ragged ⟨(m.alloc (Ragged.make Xf lengths).data.toMat).1, []⟩ lengths) (by simp [RVal.refs])
  exact ⟨h1, h2, by simp only [RVal.read, alloc_get]; rfl, rfl, h3, h4⟩

/-! ### The wrappers -/

/-- `with_array` on lists: a list of views of the layer's output. -/
theorem withArrayList_faithful {o g : Bool} {M : MLayer} {L : Layer} (h : Faithful o g M L) (pad : Nat) :
    Faithful o g (mWithArrayList M pad) (withArrayListL L pad) := by
  have := wrap_faithful (flatten_converts pad) (unflattenOut_converts pad) (fun _ : List Nat => flatten_converts pad)
    (fun (lengths : List Nat) (_ : List Nat) => unflattenOut_converts pad lengths) h
  simp only [Bool.and_true] at this
  refine cast (congrArg (Faithful o g (mWithArrayList M pad)) ?_) this
  funext train P X
  simp only [withArrayListL, wrapV, bind_assoc, pure_bind]

theorem withArrayRagged_faithful {o g : Bool} {M : MLayer} {L : Layer} (h : Faithful o g M L) : Faithful false false (mWithArrayRagged M) (withArrayRaggedL L) := by
  have := wrap_faithful raggedIn_converts raggedOut_converts (fun _ : List Nat => raggedIn_converts)
    (fun (_ : List Nat) (lengths : List Nat) => raggedOut_converts lengths) h
  simp only [Bool.and_false] at this
  refine cast (congrArg (Faithful false false (mWithArrayRagged M)) ?_) this
  funext train P X
  simp only [withArrayRaggedL, wrapV, bind_assoc, pure_bind]

theorem withArray2dPadded_faithful {o g : Bool} {M : MLayer} {L : Layer} (h : Faithful o g M L) : Faithful o g (mWithArray2dPadded M) (withArray2dPaddedL L) := by
  have := wrap_faithful paddedIn_converts paddedOut_converts (fun _ => paddedIn_converts)
    (fun _ k => paddedOut_converts k) h
  simp only [Bool.and_true] at this
  refine cast (congrArg (Faithful o g (mWithArray2dPadded M)) ?_) this
  funext train P X
  simp only [withArray2dPaddedL, wrapV, bind_assoc, pure_bind]

theorem withListRagged_faithful {o g : Bool} {M : MLayer} {L : Layer} (h : Faithful o g M L) : Faithful o g (mWithListRagged M) (withListRaggedL L) := by
  have := wrap_faithful raggedToList_converts listToRaggedBy_converts (fun _ : List Nat => raggedToList_converts)
    (fun (_ : List Nat) (lengths : List Nat) => listToRaggedBy_converts lengths) h
  simp only [Bool.and_true] at this
  refine cast (congrArg (Faithful o g (mWithListRagged M)) ?_) this
  funext train P X
  simp only [withListRaggedL, wrapV, bind_assoc, pure_bind]

theorem withRaggedList_faithful {o g : Bool} {M : MLayer} {L : Layer} (h : Faithful o g M L) : Faithful o g (mWithRaggedList M) (withRaggedListL L) := by
  have := wrap_faithful listToRagged_converts (fun _ : List Nat => raggedToListOwn_converts) listToRaggedBy_converts
    (fun (lengths : List Nat) (_ : Unit) => raggedToListBy_converts lengths) h
  simp only [Bool.and_true] at this
  refine cast (congrArg (Faithful o g (mWithRaggedList M)) ?_) this
  funext train P X
  simp only [withRaggedListL, wrapV, bind_assoc, pure_bind]

/-- The conversion layers `list2ragged`, `ragged2list` and `list2array` do on arrays what they do on values. -/
theorem C122_conversions : Faithful false false mList2ragged list2raggedL ∧ Faithful false false mRagged2list ragged2listL ∧
    Faithful false false mList2array list2arrayL := by
  refine ⟨?_, ?_, ?_⟩
  · have := wrap_faithful listToRagged_converts (fun _ : List Nat => asIs_converts) (fun _ : List Nat => raggedToList_converts)
      (fun (_ : List Nat) (_ : List Nat) => asIs_converts) C122_noop
    refine cast (congrArg (Faithful false false mList2ragged) ?_) this
    funext train P X
    simp only [list2raggedL, wrapV, bind_assoc, pure_bind]
    rfl
  · have := wrap_faithful raggedToList_converts (fun _ : List Nat => asIs_converts) (fun _ : List Nat => asIs_converts)
      (fun (lengths : List Nat) (_ : Unit) => listToRaggedBy_converts lengths) C122_noop
    refine cast (congrArg (Faithful false false mRagged2list) ?_) this
    funext train P X
    simp only [ragged2listL, wrapV, bind_assoc, pure_bind]
    cases X with
    | ragged A lengths =>
      simp only [opsUnflatten_parts]
      rfl
    | _ => rfl
  · have := wrap_faithful (flatten_converts 0) (fun _ : List Nat => asIs_converts) (fun _ : List Nat => asIs_converts)
      (fun (lengths : List Nat) (_ : Unit) => unflattenOut_converts 0 lengths) C122_noop
    refine cast (congrArg (Faithful false false mList2array) ?_) this
    funext train P X
    simp only [list2arrayL, wrapV, bind_assoc, pure_bind]
    rfl

/-- `with_array2d` around a layer that does on arrays what it does on values does so too, on every kind of input.  So does `with_array`, except
on a `Padded`, where the layer gets an array of three dimensions. -/
theorem C122_with_array {o g : Bool} {M : MLayer} {L : Layer} (h : Faithful o g M L) (pad : Nat) : Faithful false false (mWithArray2d M pad) (withArray2dL L pad) := by
  intro train X m hX
  cases X with
  | ragged r l => exact withArrayRagged_faithful h train _ m hX
  | padded r n s l i => exact (withArray2dPadded_faithful h).weaken (fun h => (by cases h)) (fun h => (by cases h)) train _ m hX
  | list vs => exact (withArrayList_faithful h pad).weaken (fun h => (by cases h)) (fun h => (by cases h)) train _ m hX
  | tup vs => exact (withArrayList_faithful h pad).weaken (fun h => (by cases h)) (fun h => (by cases h)) train _ m hX
  | arr r => exact h.weaken (fun h => (by cases h)) (fun h => (by cases h)) train _ m hX
  | ints l => exact h.weaken (fun h => (by cases h)) (fun h => (by cases h)) train _ m hX
  | intMat l => exact h.weaken (fun h => (by cases h)) (fun h => (by cases h)) train _ m hX

end Thinc
