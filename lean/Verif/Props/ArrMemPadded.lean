import Verif.Props.ArrMemSeq
import Verif.Lemmas.Softmax
import Mathlib.Tactic.Conv
/-!
# C122: `Padded` on shared arrays
-/
namespace Thinc
open Shared Spec.Shared

/-! ### The sequences of a `Padded` -/

theorem unpad_loop (data : Arr3 ℝ) (indices lengths : List Nat) : ∀ (xs : List Nat) (out : List (Option (Nat × Nat))),
    forM' xs (out.map (Option.map fun p => data.rowTake p.1 p.2)) (unpadAssign data indices lengths) =
      (forM' xs out (unpadPlanStep indices lengths)).map (List.map (Option.map fun p => data.rowTake p.1 p.2))
  | [], out => rfl
  | x :: xs, out => by
    simp only [forM', unpadAssign, unpadPlanStep]
    cases hi : indices[x]? with
    | none => rfl
    | some j =>
      cases hn : lengths[x]? with
      | none => rfl
      | some n =>
        simp only [List.length_map]
        by_cases hj : j < out.length
        · simp only [if_pos hj]
          rw [← unpad_loop data indices lengths xs, List.map_set]
          rfl
        · simp only [if_neg hj]
          rfl

theorem allSome_mapOption {β γ : Type} (f : β → γ) : ∀ xs : List (Option β), allSome (xs.map (Option.map f)) = (allSome xs).map (List.map f)
  | [] => rfl
  | none :: _ => rfl
  | some x :: xs => by
    have h := allSome_mapOption f xs
    simp only [List.map_cons, Option.map_some, allSome, h]
    cases allSome xs <;> rfl

theorem unpadList_plan (A : Mat ℝ) (steps : Nat) (sizes lengths indices : List Nat) :
    unpadList ⟨A.toArr3 steps lengths.length, sizes, lengths, indices⟩ =
      (unpadPlan lengths.length indices lengths).map (List.map fun p => (A.toArr3 steps lengths.length).transpose.rowTake p.1 p.2) := by
  have h := unpad_loop (A.toArr3 steps lengths.length).transpose indices lengths (List.range lengths.length) (List.replicate lengths.length none)
  rw [List.map_replicate] at h
  unfold unpadList padded2list unpadPlan
  simp only
  erw [h]
  cases forM' (List.range lengths.length) (List.replicate lengths.length none) (unpadPlanStep indices lengths) with
  | error e => rfl
  | ok out => exact allSome_mapOption _ out

/-- The part of the data that is copied or not. -/
theorem contigTranspose_spec (r : ArrRef) (steps batch : Nat) (m : ArrMem) (hr : r.addr < m.next) :
    Grows m (contigTranspose r steps batch m).2 ∧ (contigTranspose r steps batch m).1.addr < (contigTranspose r steps batch m).2.next ∧
    (contigTranspose r steps batch m).1.get (contigTranspose r steps batch m).2 = r.get m ∧
    ((contigTranspose r steps batch m).1 = r ∨ m.next ≤ (contigTranspose r steps batch m).1.addr) := by
  unfold contigTranspose
  split
  · exact ⟨Grows.refl m, hr, rfl, .inl rfl⟩
  · exact ⟨grows_alloc m _, Nat.lt_succ_self _, alloc_get m _, .inr (Nat.le_refl _)⟩

theorem seqParts_spec (m : ArrMem) (r : ArrRef) (steps batch : Nat) : ∀ plan : List (Nat × Nat),
    RVal.readAll m (plan.map fun p => .arr (r.slice (.seqPart steps batch p.1 p.2))) =
      (plan.map fun p => ((r.get m).toArr3 steps batch).transpose.rowTake p.1 p.2).map (fun x => .arr x.toMat) ∧
    ∀ q ∈ RVal.refsAll (plan.map fun p => .arr (r.slice (.seqPart steps batch p.1 p.2))), q.addr = r.addr
  | [] => by simp [RVal.readAll, RVal.refsAll]
  | p :: ps => by
    obtain ⟨h1, h2⟩ := seqParts_spec m r steps batch ps
    constructor
    · simp only [List.map_cons, RVal.readAll, RVal.read, h1, slice_get, ArrSlice.get]
    · intro q hq
      simp only [List.map_cons, RVal.refsAll, RVal.refs, List.singleton_append, List.mem_cons] at hq
      rcases hq with rfl | hq
      · rfl
      · exact h2 q hq

theorem paddedToList_converts : Converts true mPaddedToList (fun v => do
    let Ys ← unpadList (← v.asPadded)
    return (Val.ofArrays Ys, ())) := by
  intro v m hv
  unfold ConvertsAt
  cases v with
  | padded r steps sizes lengths indices =>
    obtain ⟨c1, c2, c3, c4⟩ := contigTranspose_spec r steps lengths.length m (hv r (by simp [RVal.refs]))
    show Agree _ (unpadPlan lengths.length indices lengths >>= fun plan => _)
      (unpadList ⟨(r.get m).toArr3 steps lengths.length, sizes, lengths, indices⟩ >>= fun Ys => pure (Val.ofArrays Ys, ()))
    rw [unpadList_plan]
    cases unpadPlan lengths.length indices lengths with
    | error e => exact (rfl : e = e)
    | ok plan =>
      obtain ⟨h1, h2⟩ := seqParts_spec (contigTranspose r steps lengths.length m).2 (contigTranspose r steps lengths.length m).1 steps lengths.length plan
      rw [c3] at h1
      refine ⟨c1, ?_, ?_, rfl, ?_, fun _ q hq => (by cases hq)⟩
      · intro q hq
        simp only [RVal.refs] at hq
        rw [h2 q hq]
        exact c2
      · show Val.list (RVal.readAll (contigTranspose r steps lengths.length m).2 (plan.map fun p =>
          .arr ((contigTranspose r steps lengths.length m).1.slice (.seqPart steps lengths.length p.1 p.2)))) = _
        rw [h1]
        rfl
      · intro q hq
        simp only [RVal.refs] at hq
        rw [h2 q hq]
        rcases c4 with e | hn
        · exact .inl ⟨r, by simp [RVal.refs], by rw [e]⟩
        · exact .inr hn
  | _ => exact (rfl : PyErr.attributeError = _)

/-- `list2padded` of one sequence. -/
theorem list2padded_single {A : Mat ℝ} {p : Padded ℝ} (h : list2padded [A.toArr] = .ok p) : p.data.toMat = ArrSlice.get .cells A := by
  change (if A.toArr.size = A.toArr.len * 1 * A.cols then
    Except.ok (⟨⟨A.toArr.len, 1, [A.cols], A.toArr.rows.map (fun r => [r])⟩, List.replicate A.toArr.len 1, [A.toArr.len], [0]⟩ : Padded ℝ)
    else .error PyErr.valueError) = _ at h
  by_cases hc : A.toArr.size = A.toArr.len * 1 * A.cols
  · rw [if_pos hc] at h
    cases h
    rfl
  · rw [if_neg hc] at h
    cases h

theorem single_spec {X : RVal} {r : ArrRef} (h : X.single = some r) (m : ArrMem) :
    (X.read m).arrays = .ok [(r.get m).toArr] ∧ r ∈ X.refs := by
  unfold RVal.single at h
  split at h <;> cases h <;> exact ⟨rfl, by simp [RVal.refs, RVal.refsAll]⟩

theorem listToPadded_converts : Converts false mListToPadded (fun v => do
    let p ← list2padded (← v.arrays)
    return (Val.ofPadded p, ())) := by
  intro v m hv
  unfold ConvertsAt mListToPadded
  refine agree_same _ fun Xs hXs => agree_same _ fun p hp => ?_
  unfold mPaddedData
  cases hs : v.single with
  | none =>
    obtain ⟨h1, h2, h3, h4⟩ := new_at false v m p.data.toMat (w := .padded ⟨(m.alloc p.data.toMat).1, []⟩ p.data.d0 p.sizeAtT p.lengths p.indices) (by simp [RVal.refs])
    exact ⟨h1, h2, by simp only [RVal.read, alloc_get]; rfl, rfl, h3, h4⟩
  | some r =>
    obtain ⟨e, hr⟩ := single_spec hs m
    rw [e] at hXs
    cases hXs
    refine ⟨Grows.refl m, ?_, ?_, rfl, ?_, fun h => (by cases h)⟩
    · intro q hq
      simp only [RVal.refs, List.mem_singleton] at hq
      subst hq
      exact hv r hr
    · simp only [RVal.read, slice_get, ← list2padded_single hp, Val.ofPadded]
    · intro q hq
      simp only [RVal.refs, List.mem_singleton] at hq
      subst hq
      exact .inl ⟨r, hr, rfl⟩

/-! ### One conversion after another -/

theorem then_converts {μ ν : Type} {t t' : Bool} {f : MConv μ} {g : μ → MConv ν} {F : Val → Except PyErr (Val × μ)} {H : μ → Val → Except PyErr (Val × ν)}
    (hf : Converts t f F) (hg : ∀ k, Converts t' (g k) (H k)) : Converts (t && t') (mThen f g) (fun v => do
      let (v, k) ← F v
      let (v, k') ← H k v
      return (v, k, k')) := by
  intro v m hv
  unfold ConvertsAt mThen
  refine agree_bind (hf v m hv) ?_
  rintro ⟨⟨w, k⟩, m1⟩ ⟨x, k'⟩ ⟨a1, a2, a3, a4, a5, a6⟩
  simp only at a1 a2 a3 a4 a5 a6
  subst a3 a4
  refine agree_bind (hg k w m1 a2) ?_
  rintro ⟨⟨w', n⟩, m2⟩ ⟨x', n'⟩ ⟨b1, b2, b3, b4, b5, b6⟩
  simp only at b1 b2 b3 b4 b5 b6
  subst b3 b4
  refine ⟨a1.trans b1, b2, rfl, rfl, a5.trans b5 a1.1, fun ht r hr => ?_⟩
  simp only [Bool.and_eq_true] at ht
  rcases b6 ht.2 r hr with hr | ⟨hn, hp⟩
  · exact a6 ht.1 r hr
  · exact .inr ⟨Nat.le_trans a1.1 hn, hp⟩

theorem forget_converts {μ : Type} {t : Bool} {f : MConv μ} {F : Val → Except PyErr (Val × μ)} (hf : Converts t f F) :
    Converts t (mForget f) (fun v => do
      let (v, _) ← F v
      return (v, ())) := by
  intro v m hv
  unfold ConvertsAt mForget
  refine agree_bind (hf v m hv) ?_
  rintro ⟨⟨w, k⟩, m1⟩ ⟨x, k'⟩ ⟨a1, a2, a3, a4, a5, a6⟩
  exact ⟨a1, a2, a3, rfl, a5, a6⟩

/-! ### Lists of arrays with rows of the right length -/

/-- All rows have the same length, which is the trailing shape. -/
def TwoDim (x : Arr ℝ) : Prop := ∃ c, x.tail = [c] ∧ ∀ r ∈ x.rows, r.length = c

theorem TwoDim.toMat {x : Arr ℝ} (h : TwoDim x) : x.toMat.toArr = x := by
  obtain ⟨t, rows⟩ := x
  obtain ⟨c, rfl, h⟩ := h
  unfold Arr.toMat Mat.toArr
  simp only [List.prod_cons, List.prod_nil, Nat.mul_one, Arr.len]
  congr 1
  refine List.ext_getElem (by simp [Mat.ofFn]) fun i h1 h2 => ?_
  have hl := h _ (List.getElem_mem h2)
  simp only [List.getElem_map, List.getElem_range]
  refine List.ext_getElem (by simp [Mat.ofFn, hl]) fun j h3 h4 => ?_
  simp only [List.getElem_map, List.getElem_range]
  rw [ofFn_at _ _ _ _ _ (by omega)]
  simp [List.getD_eq_getElem?_getD, h2, h4]

theorem TwoDim.slice {x : Arr ℝ} (h : TwoDim x) (a b : Nat) : TwoDim (x.slice a b) := by
  obtain ⟨c, h1, h2⟩ := h
  exact ⟨c, h1, fun r hr => h2 r (List.mem_of_mem_take (List.mem_of_mem_drop hr))⟩

theorem toArr_twoDim (A : Mat ℝ) : TwoDim A.toArr := ⟨A.cols, rfl, fun r hr => by
  simp only [Mat.toArr, List.mem_map] at hr
  obtain ⟨i, -, rfl⟩ := hr
  simp⟩

theorem arrays_ofArrays : ∀ {Xs : List (Arr ℝ)}, (∀ x ∈ Xs, TwoDim x) → (Val.ofArrays Xs).arrays = .ok Xs := by
  intro Xs h
  have h1 : ∀ Xs : List (Arr ℝ), (Xs.map fun x => Val.arr x.toMat).mapM Val.asArr = .ok (Xs.map Arr.toMat) := by
    intro Xs
    induction Xs with
    | nil => rfl
    | cons x xs ih =>
      rw [List.map_cons, List.mapM_cons, ih]
      rfl
  have h2 : Xs.map (fun x => x.toMat.toArr) = Xs := by
    conv_rhs => rw [← List.map_id Xs]
    exact List.map_congr_left fun x hx => (h x hx).toMat
  unfold Val.arrays Val.ofArrays Val.items
  show ((Xs.map fun x => Val.arr x.toMat).mapM Val.asArr >>= fun As => pure (As.map Mat.toArr)) = _
  rw [h1]
  show Except.ok ((Xs.map Arr.toMat).map Mat.toArr) = _
  rw [List.map_map]
  exact congrArg Except.ok h2

theorem parts_twoDim {X : Arr ℝ} (h : TwoDim X) (pad : Nat) : ∀ (lengths : List Nat) (start : Nat), ∀ x ∈ partsFrom X pad lengths start, TwoDim x
  | [], _ => by simp [partsFrom]
  | n :: ns, start => by
    intro x hx
    simp only [partsFrom, List.mem_cons] at hx
    rcases hx with rfl | hx
    · exact (h.slice _ _).slice _ _
    · exact parts_twoDim h pad ns _ x hx

theorem unflatten_arrays {v : Val} {r : Ragged ℝ} {lengths : List Nat} {Xs : List (Arr ℝ)} (hr : v.asRagged = .ok r)
    (h : opsUnflatten r.data lengths 0 = .ok Xs) : (Val.ofArrays Xs).arrays = .ok Xs := by
  rw [opsUnflatten_parts] at h
  cases h
  refine arrays_ofArrays (parts_twoDim ?_ 0 lengths 0)
  cases v <;> cases hr
  exact toArr_twoDim _

theorem unpad_arrays {v : Val} {p : Padded ℝ} {Xs : List (Arr ℝ)} (hp : v.asPadded = .ok p) (h : unpadList p = .ok Xs) :
    (Val.ofArrays Xs).arrays = .ok Xs := by
  cases v <;> cases hp
  rename_i A steps sizes lengths indices
  rw [unpadList_plan] at h
  cases hq : unpadPlan lengths.length indices lengths with
  | error e => rw [hq] at h; cases h
  | ok plan =>
    rw [hq] at h
    cases h
    refine arrays_ofArrays fun x hx => ?_
    obtain ⟨q, -, rfl⟩ := List.mem_map.1 hx
    refine ⟨A.cols, rfl, fun r hr => ?_⟩
    have hr := List.mem_of_mem_take hr
    simp only [Arr3.transpose, List.getD_eq_getElem?_getD] at hr
    by_cases hi : q.1 < lengths.length
    · have e : (A.toArr3 steps lengths.length).d1 = lengths.length := rfl
      rw [List.getElem?_map, List.getElem?_range (by rw [e]; exact hi)] at hr
      simp only [Option.map_some, Option.getD_some, List.mem_map, List.mem_range] at hr
      obtain ⟨t, ht, rfl⟩ := hr
      have ht : t < steps := ht
      simp [Arr3.cell, Mat.toArr3, List.getD_eq_getElem?_getD, ht, hi]
    · rw [List.getElem?_eq_none (by simpa [Mat.toArr3] using hi)] at hr
      simp at hr

theorem bind_congr_ok {α β : Type} {x : Except PyErr α} {f g : α → Except PyErr β} (h : ∀ a, x = .ok a → f a = g a) : x >>= f = x >>= g := by
  cases x with
  | error e => rfl
  | ok a => exact h a rfl

theorem okBind {α β : Type} (a : α) (f : α → Except PyErr β) : (Except.ok a >>= f) = f a := rfl

/-! ### The wrappers -/

theorem withListPadded_faithful {o g : Bool} {M : MLayer} {L : Layer} (h : Faithful o g M L) : Faithful false false (mWithListPadded M) (withListPaddedL L) := by
  have := wrap_faithful paddedToList_converts (fun _ : Unit => listToPadded_converts) (fun _ : Unit => paddedToList_converts)
    (fun (_ : Unit) (_ : Unit) => listToPadded_converts) h
  simp only [Bool.and_false] at this
  refine cast (congrArg (Faithful false false (mWithListPadded M)) ?_) this
  funext train P X
  simp only [withListPaddedL, wrapV, bind_assoc, pure_bind]

theorem withPaddedList_faithful {o g : Bool} {M : MLayer} {L : Layer} (h : Faithful o g M L) : Faithful o g (mWithPaddedList M) (withPaddedListL L) := by
  have := wrap_faithful listToPadded_converts (fun _ : Unit => paddedToList_converts) (fun _ : Unit => listToPadded_converts)
    (fun (_ : Unit) (_ : Unit) => paddedToList_converts) h
  simp only [Bool.and_true] at this
  refine cast (congrArg (Faithful o g (mWithPaddedList M)) ?_) this
  funext train P X
  simp only [withPaddedListL, wrapV, bind_assoc, pure_bind]

theorem withRaggedPadded_faithful {o g : Bool} {M : MLayer} {L : Layer} (h : Faithful o g M L) : Faithful false false (mWithRaggedPadded M) (withRaggedPaddedL L) := by
  have := wrap_faithful (then_converts paddedToList_converts fun _ => listToRagged_converts)
    (fun _ : Unit × List Nat => forget_converts (then_converts raggedToListOwn_converts fun _ => listToPadded_converts))
    (fun k : Unit × List Nat => then_converts paddedToList_converts fun _ => listToRaggedBy_converts k.2)
    (fun (k : Unit × List Nat) (_ : Unit × Unit) => forget_converts (then_converts (raggedToListBy_converts k.2) fun _ => listToPadded_converts)) h
  simp only [Bool.and_false] at this
  refine cast (congrArg (Faithful false false (mWithRaggedPadded M)) ?_) this
  funext train P X
  simp only [withRaggedPaddedL, wrapV, bind_assoc, pure_bind]
  refine bind_congr_ok fun p hp => bind_congr_ok fun Xs hXs => ?_
  rw [unpad_arrays hp hXs, okBind]
  refine bind_congr_ok fun Xf _ => bind_congr_ok fun out _ => bind_congr_ok fun r hr => bind_congr_ok fun Ys hYs => ?_
  rw [unflatten_arrays hr hYs, okBind]
  refine bind_congr_ok fun Yp _ => ?_
  refine congrArg Except.ok (Prod.ext rfl ?_)
  funext dY G
  refine bind_congr_ok fun q hq => bind_congr_ok fun Ds hDs => ?_
  rw [unpad_arrays hq hDs, okBind]
  refine bind_congr_ok fun Df _ => bind_congr_ok fun res _ => bind_congr_ok fun d hd => bind_congr_ok fun Es hEs => ?_
  rw [unflatten_arrays hd hEs, okBind]

theorem withPaddedRagged_faithful {o g : Bool} {M : MLayer} {L : Layer} (h : Faithful o g M L) : Faithful o g (mWithPaddedRagged M) (withPaddedRaggedL L) := by
  have := wrap_faithful (then_converts raggedToList_converts fun _ => listToPadded_converts)
    (fun k : List Nat × Unit => forget_converts (then_converts paddedToList_converts fun _ => listToRaggedBy_converts k.1))
    (fun _ : List Nat × Unit => then_converts raggedToList_converts fun _ => listToPadded_converts)
    (fun (_ : List Nat × Unit) (k : List Nat × Unit) => forget_converts (then_converts paddedToList_converts fun _ => listToRaggedBy_converts k.1)) h
  simp only [Bool.and_true] at this
  refine cast (congrArg (Faithful o g (mWithPaddedRagged M)) ?_) this
  funext train P X
  simp only [withPaddedRaggedL, wrapV, bind_assoc, pure_bind]
  refine bind_congr_ok fun r hr => bind_congr_ok fun Xs hXs => ?_
  rw [unflatten_arrays hr hXs, okBind]
  refine bind_congr_ok fun Xp _ => bind_congr_ok fun out _ => bind_congr_ok fun p hp => bind_congr_ok fun Ys hYs => ?_
  rw [unpad_arrays hp hYs, okBind]
  refine bind_congr_ok fun Yf _ => ?_
  refine congrArg Except.ok (Prod.ext rfl ?_)
  funext dY G
  refine bind_congr_ok fun d hd => bind_congr_ok fun Ds hDs => ?_
  rw [unflatten_arrays hd hDs, okBind]
  refine bind_congr_ok fun Dp _ => bind_congr_ok fun res _ => bind_congr_ok fun q hq => bind_congr_ok fun Es hEs => ?_
  rw [unpad_arrays hq hEs, okBind]

/-- The conversion layers to and from `Padded` do on arrays what they do on values. -/
theorem C122_padded_conversions : Faithful false false mList2padded list2paddedL ∧ Faithful false false mPadded2list padded2listL := by
  constructor
  · have := wrap_faithful listToPadded_converts (fun _ : Unit => asIs_converts) (fun _ : Unit => paddedToList_converts)
      (fun (_ : Unit) (_ : Unit) => asIs_converts) C122_noop
    refine cast (congrArg (Faithful false false mList2padded) ?_) this
    funext train P X
    simp only [list2paddedL, wrapV, bind_assoc, pure_bind]
    rfl
  · have := wrap_faithful paddedToList_converts (fun _ : Unit => asIs_converts) (fun _ : Unit => asIs_converts)
      (fun (_ : Unit) (_ : Unit) => listToPadded_converts) C122_noop
    refine cast (congrArg (Faithful false false mPadded2list) ?_) this
    funext train P X
    simp only [padded2listL, wrapV, bind_assoc, pure_bind]
    rfl

/-- `with_list`, `with_ragged` and `with_padded` around a layer that does on arrays what it does on values do so too, whatever kind of batch they
are given. -/
theorem C122_with_sequences {o g : Bool} {M : MLayer} {L : Layer} (h : Faithful o g M L) : Faithful false false (mWithList M) (withListL L) ∧
    Faithful false false (mWithRagged M) (withRaggedL L) ∧ Faithful false false (mWithPadded M) (withPaddedL L) := by
  have w : ∀ {o g : Bool} {M : MLayer} {L : Layer}, Faithful o g M L → Faithful false false M L := fun h =>
    h.weaken (fun h => (by cases h)) (fun h => (by cases h))
  have h := w h
  refine ⟨fun train X m hX => ?_, fun train X m hX => ?_, fun train X m hX => ?_⟩
  · cases X with
    | padded r n s l i => exact withListPadded_faithful h train _ m hX
    | ragged r l => exact w (withListRagged_faithful h) train _ m hX
    | _ => exact h train _ m hX
  · cases X with
    | padded r n s l i => exact withRaggedPadded_faithful h train _ m hX
    | ragged r l => exact h train _ m hX
    | tup vs =>
      rcases vs with _ | ⟨v, _ | ⟨v', _ | ⟨v'', vs⟩⟩⟩
      · exact w (withRaggedList_faithful h) train _ m hX
      · exact w (withRaggedList_faithful h) train _ m hX
      · exact (rfl : PyErr.typeError = _)
      · exact w (withRaggedList_faithful h) train _ m hX
    | _ => exact w (withRaggedList_faithful h) train _ m hX
  · cases X with
    | padded r n s l i => exact h train _ m hX
    | ragged r l => exact w (withPaddedRagged_faithful h) train _ m hX
    | _ => exact w (withPaddedList_faithful h) train _ m hX

end Thinc
