import Verif.Model.WithInit
import Verif.Lemmas.Initialize
/-!
# C118: a wrapped layer is initialized with what it will be called with
-/
namespace Thinc
open Spec
variable {α : Type} [Zero α]

/-- Specification: `forward` calls the layer with the argument that `init` has computed: whatever exception the layer raises for this
argument, `forward` raises it; and if `init` raises because it cannot compute the argument, so does `forward`. -/
structure Spec.SameArgument {β γ δ : Type} (init : Except PyErr β) (forward : (β → Except PyErr γ) → Except PyErr δ) : Prop where
  called : ∀ a, init = .ok a → ∀ L e, L a = .error e → forward L = .error e
  raised : ∀ e, init = .error e → ∀ L, forward L = .error e

/-! ### `with_list`, `with_ragged`, `with_padded`, `with_array` -/

/-- **C118 for `with_list`.** -/
theorem C118_with_list (b : SeqBatch α) :
    SameArgument (getList b) (fun L : List (Arr α) → Except PyErr (List (Arr α) × (List (Arr α) → Except PyErr (List (Arr α)))) => withList L b) := by
  refine ⟨fun a ha L e he => ?_, fun e he L => ?_⟩
  · rcases b with Xs | r | P
    · cases ha
      simp [withList, directList, he, bind, Except.bind]
    · simp only [getList] at ha
      simp [withList, withListRagged, ha, he, bind, Except.bind]
    · simp only [getList] at ha
      simp [withList, withListPadded, ha, he, bind, Except.bind]
  · rcases b with Xs | r | P
    · cases he
    · simp only [getList] at he
      simp [withList, withListRagged, he, bind, Except.bind]
    · simp only [getList] at he
      simp [withList, withListPadded, he, bind, Except.bind]

omit [Zero α] in
theorem map_ok_ragged {x : Except PyErr (Arr α)} {f : Arr α → RaggedArg α} {a : RaggedArg α}
    (h : (do return f (← x)) = Except.ok a) : ∃ y, x = .ok y ∧ f y = a := by
  rcases x with e | y
  · cases h
  · exact ⟨y, rfl, by injection h⟩

theorem withRaggedList_same (Xs : List (Arr α)) (L : RaggedArg α → Except PyErr (Ragged α × (Ragged α → Except PyErr (Ragged α)))) :
    (∀ y, opsFlatten Xs 0 = .ok y → ∀ e, L (.ragged (Ragged.make y (Xs.map Arr.len))) = .error e →
      SeqIn.lift (withRaggedList (fun r => L (.ragged r)) Xs) = .error e) ∧
    (∀ e, opsFlatten Xs 0 = .error e → SeqIn.lift (withRaggedList (fun r => L (.ragged r)) Xs) = .error e) := by
  refine ⟨fun y hy e he => ?_, fun e he => ?_⟩
  · simp [withRaggedList, hy, he, bind, Except.bind, SeqIn.lift]
  · simp [withRaggedList, he, bind, Except.bind, SeqIn.lift]

/-- The cases of a tuple in `with_ragged`. -/
theorem withRaggedAny_tuple (L : RaggedArg α → Except PyErr (Ragged α × (Ragged α → Except PyErr (Ragged α))))
    {items : List (Item α)} (h : items.length ≠ 2) :
    withRaggedAny L (.tuple items) =
      (itemArrs items).bind fun Xs => SeqIn.lift (withRaggedList (fun r => L (.ragged r)) Xs) := by
  rcases items with _ | ⟨a, _ | ⟨b, _ | ⟨c, l⟩⟩⟩
  · rfl
  · rfl
  · exact absurd rfl h
  · rfl

theorem getRagged_tuple {items : List (Item α)} (h : items.length ≠ 2) :
    getRagged (.tuple items) =
      (itemArrs items).bind fun Xs => (opsFlatten Xs 0).bind fun y => .ok (.ragged (Ragged.make y (Xs.map Arr.len))) := by
  rcases items with _ | ⟨a, _ | ⟨b, _ | ⟨c, l⟩⟩⟩
  · rfl
  · rfl
  · exact absurd rfl h
  · rfl

/-- **C118 for `with_ragged`**, whatever it is called with: a list, a Ragged, a Padded, a tuple or an array. -/
theorem C118_with_ragged (X : SeqIn α) :
    SameArgument (getRagged X)
      (fun L : RaggedArg α → Except PyErr (Ragged α × (Ragged α → Except PyErr (Ragged α))) => withRaggedAny L X) := by
  refine ⟨fun a ha L e he => ?_, fun e he L => ?_⟩
  · rcases X with (Xs | r | P) | items | x
    · obtain ⟨y, hy, rfl⟩ := map_ok_ragged ha
      exact (withRaggedList_same Xs L).1 y hy e he
    · cases ha
      simp [withRaggedAny, withRagged, directRagged, he, bind, Except.bind, SeqIn.lift]
    · obtain ⟨Xs, hXs, h2⟩ := bind_ok (show Except.bind _ _ = _ from ha)
      obtain ⟨y, hy, rfl⟩ := map_ok_ragged h2
      simp [withRaggedAny, withRagged, withRaggedPadded, hXs, hy, he, bind, Except.bind, SeqIn.lift]
    · by_cases h : items.length = 2
      · rcases items with _ | ⟨d, _ | ⟨l, _ | ⟨c, l'⟩⟩⟩ <;> simp at h
        cases ha
        simp [withRaggedAny, withRaggedTuple, he, bind, Except.bind]
      · rw [getRagged_tuple h] at ha
        obtain ⟨Xs, hXs, h2⟩ := bind_ok ha
        obtain ⟨y, hy, h3⟩ := bind_ok h2
        cases h3
        show withRaggedAny L (.tuple items) = _
        rw [withRaggedAny_tuple L h, hXs]
        exact (withRaggedList_same Xs L).1 y hy e he
    · obtain ⟨y, hy, rfl⟩ := map_ok_ragged ha
      exact (withRaggedList_same x.slices L).1 y hy e he
  · rcases X with (Xs | r | P) | items | x
    · rcases hy : opsFlatten Xs 0 with e' | y
      · have : e' = e := by simpa [getRagged, hy, bind, Except.bind] using he
        subst this
        exact (withRaggedList_same Xs L).2 _ hy
      · simp [getRagged, hy, bind, Except.bind, pure, Except.pure] at he
    · cases he
    · rcases hXs : unpadList P with e' | Xs
      · have : e' = e := by simpa [getRagged, hXs, bind, Except.bind] using he
        subst this
        simp [withRaggedAny, withRagged, withRaggedPadded, hXs, bind, Except.bind, SeqIn.lift]
      · rcases hy : opsFlatten Xs 0 with e' | y
        · have : e' = e := by simpa [getRagged, hXs, hy, bind, Except.bind] using he
          subst this
          simp [withRaggedAny, withRagged, withRaggedPadded, hXs, hy, bind, Except.bind, SeqIn.lift]
        · simp [getRagged, hXs, hy, bind, Except.bind, pure, Except.pure] at he
    · by_cases h : items.length = 2
      · rcases items with _ | ⟨d, _ | ⟨l, _ | ⟨c, l'⟩⟩⟩ <;> simp at h
        cases he
      · rw [getRagged_tuple h] at he
        show withRaggedAny L (.tuple items) = _
        rw [withRaggedAny_tuple L h]
        rcases hXs : itemArrs items with e' | Xs
        · rw [hXs] at he
          have : e' = e := by simpa [Except.bind] using he
          exact this ▸ rfl
        · rw [hXs] at he
          rcases hy : opsFlatten Xs 0 with e' | y
          · have : e' = e := by simpa [hy, Except.bind] using he
            subst this
            exact (withRaggedList_same Xs L).2 _ hy
          · simp [hy, Except.bind] at he
    · rcases hy : opsFlatten x.slices 0 with e' | y
      · have : e' = e := by simpa [getRagged, hy, bind, Except.bind] using he
        subst this
        exact (withRaggedList_same x.slices L).2 _ hy
      · simp [getRagged, hy, bind, Except.bind, pure, Except.pure] at he

/-- Specification: a tuple that `initialize` of `with_padded` can take: only tuples of the four arrays of a Padded. -/
def Spec.FourArrays {α : Type} : SeqIn α → Prop
  | .tuple items => items.length = 4
  | _ => True

/-- **C118 for `with_padded`**, for lists, Ragged, Padded, three-dimensional arrays, and tuples of four arrays.  (For other tuples it
fails, see `C118_tuple_violated`.) -/
theorem C118_with_padded_partial (X : SeqIn α) (hX : FourArrays X) :
    SameArgument (getPadded X)
      (fun L : PaddedArg α → Except PyErr (Padded α × (Padded α → Except PyErr (Padded α))) => withPaddedAny L X) := by
  refine ⟨fun a ha L e he => ?_, fun e he L => ?_⟩
  · rcases X with (Xs | r | P) | items | x
    · obtain ⟨y, hy, h2⟩ := bind_ok (show Except.bind _ _ = _ from ha)
      cases h2
      simp [withPaddedAny, withPadded, withPaddedList, hy, he, bind, Except.bind, SeqIn.lift]
    · obtain ⟨Xs, hXs, h2⟩ := bind_ok (show Except.bind _ _ = _ from ha)
      obtain ⟨y, hy, h3⟩ := bind_ok (show Except.bind _ _ = _ from h2)
      cases h3
      simp [withPaddedAny, withPadded, withPaddedRagged, hXs, hy, he, bind, Except.bind, SeqIn.lift]
    · cases ha
      simp [withPaddedAny, withPadded, directPadded, he, bind, Except.bind, SeqIn.lift]
    · rcases items with _ | ⟨d, _ | ⟨s, _ | ⟨l, _ | ⟨i, _ | ⟨c, l'⟩⟩⟩⟩⟩ <;> simp [FourArrays] at hX
      cases ha
      simp [withPaddedAny, withPaddedTuple, he, bind, Except.bind]
    · cases ha
      simp [withPaddedAny, withPaddedArray, he, bind, Except.bind]
  · rcases X with (Xs | r | P) | items | x
    · rcases hy : list2padded Xs with e' | y
      · have : e' = e := by simpa [getPadded, hy, bind, Except.bind] using he
        subst this
        simp [withPaddedAny, withPadded, withPaddedList, hy, bind, Except.bind, SeqIn.lift]
      · simp [getPadded, hy, bind, Except.bind, pure, Except.pure] at he
    · rcases hXs : opsUnflatten r.data r.lengths 0 with e' | Xs
      · have : e' = e := by simpa [getPadded, hXs, bind, Except.bind] using he
        subst this
        simp [withPaddedAny, withPadded, withPaddedRagged, hXs, bind, Except.bind, SeqIn.lift]
      · rcases hy : list2padded Xs with e' | y
        · have : e' = e := by simpa [getPadded, hXs, hy, bind, Except.bind] using he
          subst this
          simp [withPaddedAny, withPadded, withPaddedRagged, hXs, hy, bind, Except.bind, SeqIn.lift]
        · simp [getPadded, hXs, hy, bind, Except.bind, pure, Except.pure] at he
    · cases he
    · rcases items with _ | ⟨d, _ | ⟨s, _ | ⟨l, _ | ⟨i, _ | ⟨c, l'⟩⟩⟩⟩⟩ <;> simp [FourArrays] at hX
      cases he
    · cases he

/-- **C118 for `with_array`** with padding 0. -/
theorem C118_with_array_partial (b : SeqBatch α) :
    SameArgument (getArray b) (fun L : ArrX α → Except PyErr (ArrX α × (ArrX α → Except PyErr (ArrX α))) => withArray L 0 b) := by
  refine ⟨fun a ha L e he => ?_, fun e he L => ?_⟩
  · rcases b with Xs | r | P
    · obtain ⟨y, hy, h2⟩ := bind_ok (show Except.bind _ _ = _ from ha)
      cases h2
      simp [withArray, withArrayList, hy, he, bind, Except.bind]
    · cases ha
      simp [withArray, withArrayRagged, he, bind, Except.bind]
    · cases ha
      simp [withArray, withArrayPadded, he, bind, Except.bind]
  · rcases b with Xs | r | P
    · rcases hy : opsFlatten Xs 0 with e' | y
      · have : e' = e := by simpa [getArray, hy, bind, Except.bind] using he
        subst this
        simp [withArray, withArrayList, hy, bind, Except.bind]
      · simp [getArray, hy, bind, Except.bind, pure, Except.pure] at he
    · cases he
    · cases he

/-- **C118 for `with_array` with padding**: a list that `init` can flatten is also flattened by `forward`, to an array of the same
trailing shape, so that the sizes of the layer are inferred from the right shape; and the layer is called with this array. -/
theorem C118_with_array_shape (Xs : List (Arr α)) (pad : Nat) {a : ArrX α} (h : getArray (.list Xs) = .ok a) :
    ∃ x y, a = .a x ∧ y.tail = x.tail ∧
      ∀ (L : ArrX α → Except PyErr (ArrX α × (ArrX α → Except PyErr (ArrX α)))) e, L (.a y) = .error e → withArray L pad (.list Xs) = .error e := by
  obtain ⟨x, hx, h2⟩ := bind_ok (show Except.bind _ _ = _ from h)
  cases h2
  suffices h : ∃ y, opsFlatten Xs pad = .ok y ∧ y.tail = x.tail by
    obtain ⟨y, hy, ht⟩ := h
    exact ⟨x, y, rfl, ht, fun L e he => by simp [withArray, withArrayList, hy, he, bind, Except.bind]⟩
  clear h
  unfold opsFlatten at hx ⊢
  rcases Xs with _ | ⟨x0, rest⟩
  · exact ⟨x, hx, rfl⟩
  · simp only at hx ⊢
    split
    · rename_i he
      rw [he] at hx
      exact ⟨x, hx, rfl⟩
    · rename_i y ys he
      rw [he] at hx
      replace hx : npConcatenate (y :: ys) = .ok x := by simpa using hx
      by_cases hp : 1 ≤ pad
      · simp only [ge_iff_le, hp, if_true]
        simp only [npConcatenate] at hx
        split at hx
        · rename_i hall
          cases hx
          have hall' : ∀ z ∈ y :: ys, z.tail = y.tail := by
            intro z hz
            rcases List.mem_cons.1 hz with rfl | hz
            · rfl
            · simpa using List.all_eq_true.1 hall z hz
          refine ⟨_, if_pos ?_, rfl⟩
          refine List.all_eq_true.2 fun z hz => ?_
          have hz' : z ∈ (y :: ys).flatMap (fun x => [Arr.zeros pad x.tail, x]) ++
              [Arr.zeros pad ((y :: ys).getLast (by simp)).tail] := List.mem_cons_of_mem _ hz
          have : z.tail = y.tail := by
            rcases List.mem_append.1 hz' with hz' | hz'
            · obtain ⟨w, hw, hzw⟩ := List.mem_flatMap.1 hz'
              rcases List.mem_cons.1 hzw with rfl | hzw
              · exact hall' w hw
              · rcases List.mem_singleton.1 hzw with rfl
                exact hall' z hw
            · rcases List.mem_singleton.1 hz' with rfl
              exact hall' ((y :: ys).getLast (by simp)) (List.getLast_mem _)
          exact beq_iff_eq.2 this
        · cases hx
      · simp only [ge_iff_le, hp, if_false]
        exact ⟨x, hx, rfl⟩

/-! ### Tuples -/

omit [Zero α] in
/-- **C118: `with_ragged` on a tuple of data and lengths** is `with_ragged` on the Ragged made of them, output and gradients packed
as tuples. -/
theorem C118_ragged_tuple [Zero α] (L : RaggedArg α → Except PyErr (Ragged α × (Ragged α → Except PyErr (Ragged α))))
    (data : Arr α) (lengths : List Nat) {Y : SeqIn α} {cb : SeqIn α → Except PyErr (SeqIn α)}
    (h : withRaggedAny L (.batch (.ragged (Ragged.make data lengths))) = .ok (Y, cb)) :
    ∃ Yr cb', Y = .batch (.ragged Yr) ∧
      withRaggedAny L (.tuple [.arr data, .ints lengths]) = .ok (.tuple [.arr Yr.data, .ints Yr.lengths], cb') ∧
      ∀ dY dl dXr, cb (.batch (.ragged (Ragged.make dY dl))) = .ok (.batch (.ragged dXr)) →
        cb' (.tuple [.arr dY, .ints dl]) = .ok (.tuple [.arr dXr.data, .ints dXr.lengths]) := by
  rcases hL : L (.ragged (Ragged.make data lengths)) with e | ⟨Yr, g⟩
  · simp [withRaggedAny, withRagged, directRagged, hL, bind, Except.bind, SeqIn.lift] at h
  · simp only [withRaggedAny, withRagged, directRagged, hL, bind, Except.bind, SeqIn.lift, pure, Except.pure, Except.ok.injEq,
      Prod.mk.injEq] at h
    obtain ⟨rfl, rfl⟩ := h
    refine ⟨Yr, _, rfl, by simp only [withRaggedAny, withRaggedTuple, raggedOf, hL, bind, Except.bind, pure, Except.pure]; rfl, ?_⟩
    intro dY dl dXr hd
    rcases hg : g (Ragged.make dY dl) with e | r
    · simp [hg, Except.map] at hd
    · simp [hg, Except.map] at hd
      subst hd
      simp [hg]

/-- **C118: `with_padded` on a tuple of the four arrays of a Padded** is `with_padded` on the Padded. -/
theorem C118_padded_tuple (L : PaddedArg α → Except PyErr (Padded α × (Padded α → Except PyErr (Padded α))))
    (P : Padded α) {Y : SeqIn α} {cb : SeqIn α → Except PyErr (SeqIn α)}
    (h : withPaddedAny L (.batch (.padded P)) = .ok (Y, cb)) :
    ∃ Yp cb', Y = .batch (.padded Yp) ∧
      withPaddedAny L (.tuple [.arr3 P.data, .ints P.sizeAtT, .ints P.lengths, .ints P.indices]) =
        .ok (.tuple [.arr3 Yp.data, .ints Yp.sizeAtT, .ints Yp.lengths, .ints Yp.indices], cb') ∧
      ∀ dYp dXp, cb (.batch (.padded dYp)) = .ok (.batch (.padded dXp)) →
        cb' (.tuple [.arr3 dYp.data, .ints dYp.sizeAtT, .ints dYp.lengths, .ints dYp.indices]) =
          .ok (.tuple [.arr3 dXp.data, .ints dXp.sizeAtT, .ints dXp.lengths, .ints dXp.indices]) := by
  rcases hL : L (.padded P) with e | ⟨Yp, g⟩
  · simp [withPaddedAny, withPadded, directPadded, hL, bind, Except.bind, SeqIn.lift] at h
  · simp only [withPaddedAny, withPadded, directPadded, hL, bind, Except.bind, SeqIn.lift, pure, Except.pure, Except.ok.injEq,
      Prod.mk.injEq] at h
    obtain ⟨rfl, rfl⟩ := h
    refine ⟨Yp, _, rfl, by simp only [withPaddedAny, withPaddedTuple, paddedOf, hL, bind, Except.bind, pure, Except.pure]; rfl, ?_⟩
    intro dYp dXp hd
    rcases hg : g dYp with e | r
    · simp [hg, Except.map] at hd
    · simp [hg, Except.map] at hd
      subst hd
      simp [hg]

/-! ### Where it fails -/

/-- **C118 fails for tuples of sequences in `with_padded`.**  `predict` takes a tuple of sequences as it takes a list, but `initialize`
raises AssertionError for every tuple that is not of length 4. -/
theorem C118_tuple_violated :
    (∀ items : List (Item α), items.length ≠ 4 → getPadded (.tuple items) = .error .assertionError) ∧
    (∀ (Xs : List (Arr α)) (L : PaddedArg α → Except PyErr (Padded α × (Padded α → Except PyErr (Padded α)))), Xs.length ≠ 4 →
      withPaddedAny L (.tuple (Xs.map .arr)) = withPaddedAny L (.batch (.list Xs))) := by
  constructor
  · intro items h
    rcases items with _ | ⟨d, _ | ⟨s, _ | ⟨l, _ | ⟨i, _ | ⟨c, l'⟩⟩⟩⟩⟩ <;> first | rfl | exact absurd rfl h
  · intro Xs L h
    have hi : ∀ Xs : List (Arr α), itemArrs (Xs.map Item.arr) = .ok Xs := by
      intro Xs
      induction Xs with
      | nil => rfl
      | cons x Xs ih => simp [itemArrs, ih]
    have : withPaddedAny L (.tuple (Xs.map .arr)) =
        (itemArrs (Xs.map Item.arr)).bind fun Xs => SeqIn.lift (withPaddedList (fun P => L (.padded P)) Xs) := by
      rcases Xs with _ | ⟨d, _ | ⟨s, _ | ⟨l, _ | ⟨i, _ | ⟨c, l'⟩⟩⟩⟩⟩ <;> first | rfl | exact absurd rfl h
    rw [this, hi]
    rfl

/-- **A tuple of two documents is misread by `with_ragged`**: the second is taken for the lengths of the first; a tuple of three
documents is taken as a list of documents. -/
theorem C118_two_documents_violated (L : RaggedArg α → Except PyErr (Ragged α × (Ragged α → Except PyErr (Ragged α)))) (x y z : Arr α) :
    (∀ e, L (.odd (.arr x) (.arr y)) = .error e → withRaggedAny L (.tuple [.arr x, .arr y]) = .error e) ∧
    withRaggedAny L (.tuple [.arr x, .arr y, .arr z]) = withRaggedAny L (.batch (.list [x, y, z])) := by
  refine ⟨fun e he => by simp [withRaggedAny, withRaggedTuple, raggedOf, he, bind, Except.bind], rfl⟩

/-- **With padding, `with_array` initializes its layer with other data than it calls it with** (the rows of padding are missing). -/
theorem C118_padding_violated : ∃ (Xs : List (Arr Int)) (pad : Nat) (a : ArrX Int),
    getArray (.list Xs) = .ok a ∧ ∃ L, L a = .error .valueError ∧ withArray L pad (.list Xs) = .error .keyError := by
  refine ⟨[⟨[1], [[5]]⟩], 1, .a ⟨[1], [[5]]⟩, by rfl,
    fun | .a x => if x.rows.length = 1 then .error .valueError else .error .keyError
        | .a3 _ => .error .keyError, by rfl, by rfl⟩

/-! ### The hypotheses can be met -/

example : getRagged (.batch (.list [⟨[1], [[5], [6]]⟩, ⟨[1], [[7]]⟩]) : SeqIn Int) =
    .ok (.ragged ⟨⟨[1], [[5], [6], [7]]⟩, [2, 1], [1]⟩) := by rfl

example : ∃ P, getPadded (.tuple [.arr3 P.data, .ints [1, 1], .ints [2], .ints [0]] : SeqIn Int) = .ok (.padded P) ∧
    P = ⟨⟨2, 1, [1], [[[5]], [[6]]]⟩, [1, 1], [2], [0]⟩ := ⟨_, rfl, rfl⟩

/-- A layer that doubles the data of a Ragged. -/
def exDoubleRagged : RaggedArg Int → Except PyErr (Ragged Int × (Ragged Int → Except PyErr (Ragged Int)))
  | .ragged r => .ok (⟨⟨r.data.tail, r.data.rows.map (List.map (2 * ·))⟩, r.lengths, r.dataTail⟩,
      fun d => .ok ⟨⟨d.data.tail, d.data.rows.map (List.map (2 * ·))⟩, d.lengths, d.dataTail⟩)
  | .odd _ _ => .error .attributeError

example : ∃ cb, withRaggedAny exDoubleRagged (.tuple [.arr ⟨[1], [[5], [6], [7]]⟩, .ints [2, 1]]) =
      .ok (.tuple [.arr ⟨[1], [[10], [12], [14]]⟩, .ints [2, 1]], cb) ∧
    cb (.tuple [.arr ⟨[1], [[1], [0], [3]]⟩, .ints [2, 1]]) = .ok (.tuple [.arr ⟨[1], [[2], [0], [6]]⟩, .ints [2, 1]]) :=
  ⟨_, rfl, rfl⟩

end Thinc
