import Verif.Model.PaddedIndex
import Verif.Props.Ragged
/-!
# C33: indexing a Padded
-/
namespace Thinc
variable {α : Type}

theorem positions_lt (s : PySlice) (n : Nat) (ps : List Nat) (h : s.positions n = .ok ps) :
    ∀ p ∈ ps, p < n := by
  intro p hp
  unfold PySlice.positions at h
  simp only [] at h
  split at h
  · cases h
  · split at h
    · cases h
      exact List.mem_range.1 (List.mem_filter.1 hp).1
    · cases h
      exact List.mem_range.1 (List.mem_filter.1 (List.mem_reverse.1 hp)).1

theorem sliceOr_eq {β : Type} (s : PySlice) (xs : List β) (ps : List Nat)
    (h : s.positions xs.length = .ok ps) : sliceOr s xs = ps.filterMap (fun k => xs[k]?) := by
  unfold sliceOr pySlice; rw [h]

theorem sliceOr_get {β : Type} (s : PySlice) (xs : List β) (ps : List Nat)
    (h : s.positions xs.length = .ok ps) (k : Nat) :
    (sliceOr s xs)[k]? = (ps[k]?).bind (fun p => xs[p]?) := by
  rw [sliceOr_eq s xs ps h]
  have hlt := positions_lt s _ ps h
  clear h
  induction ps generalizing k with
  | nil => simp
  | cons p ps ih =>
    have hp := hlt p (by simp)
    rw [List.filterMap_cons]
    simp only [hp, List.getElem?_eq_getElem]
    cases k with
    | zero => simp [hp]
    | succ k =>
      simp only [List.getElem?_cons_succ]
      exact ih k (fun q hq => hlt q (by simp [hq]))

theorem sliceOr_length {β : Type} (s : PySlice) (xs : List β) (ps : List Nat)
    (h : s.positions xs.length = .ok ps) : (sliceOr s xs).length = ps.length := by
  rw [sliceOr_eq s xs ps h]
  have hlt := positions_lt s _ ps h
  clear h
  induction ps with
  | nil => rfl
  | cons p ps ih =>
    have hp := hlt p (by simp)
    rw [List.filterMap_cons]
    simp only [hp, List.getElem?_eq_getElem, List.length_cons]
    rw [ih (fun q hq => hlt q (by simp [hq]))]

/-- **C33**, slices of every kind (negative bounds and steps included): the result has one column per
selected position, holding that sequence with its length and original index.  Missing: `size_at_t`
is wrong (`C33_size_at_t_wrong`), so the result is not a consistent padded batch. -/
theorem C33_slice_partial (P : Padded α) (hv : Spec.ValidPadded P) (s : PySlice) (ps : List Nat)
    (hs : s.positions P.data.d1 = .ok ps) :
    ∃ P', P.getItem (.slice s) = .ok P' ∧ P'.data.d1 = ps.length ∧ P'.data.d0 = P.data.d0 ∧
      P'.lengths.length = ps.length ∧ P'.indices.length = ps.length ∧
      ∀ (k p : Nat), ps[k]? = some p →
        P'.lengths[k]? = P.lengths[p]? ∧ P'.indices[k]? = P.indices[p]? ∧
        Spec.column P' k = Spec.column P p := by
  have hil : P.indices.length = P.data.d1 := by simpa using hv.perm.length_eq
  have h0 : s.step.getD 1 ≠ 0 := by
    intro h0
    unfold PySlice.positions at hs
    simp only [h0, if_true] at hs
    cases hs
  have hsl : s.positions P.lengths.length = .ok ps := by rw [hv.numLengths]; exact hs
  have hsi : s.positions P.indices.length = .ok ps := by rw [hil]; exact hs
  refine ⟨⟨selectColumns P.data (sliceOr s (List.replicate P.data.d1 ())).length (sliceOr s),
    sliceOr s P.lengths, sliceOr s P.lengths, sliceOr s P.indices⟩, ?_, ?_, rfl, ?_, ?_, ?_⟩
  · simp only [Padded.getItem, Padded.getSlice, if_neg h0]
  · simp only [selectColumns]
    exact sliceOr_length s _ ps (by simpa using hs)
  · exact sliceOr_length s _ ps hsl
  · exact sliceOr_length s _ ps hsi
  · intro k p hk
    have hp : p < P.data.d1 := positions_lt s _ ps hs p (List.mem_of_getElem? hk)
    have e1 := sliceOr_get s P.lengths ps hsl k
    have e2 := sliceOr_get s P.indices ps hsi k
    rw [hk] at e1 e2
    simp only [Option.bind_some] at e1 e2
    refine ⟨e1, e2, ?_⟩
    have hpl : p < P.lengths.length := by rw [hv.numLengths]; exact hp
    have hfit := hv.fits _ (List.getElem_mem hpl)
    unfold Spec.column
    simp only [List.getD_eq_getElem?_getD, e1]
    apply List.map_congr_left
    intro t ht
    have ht' : t < P.data.d0 := by
      have := List.mem_range.1 ht
      simp only [hpl, List.getElem?_eq_getElem, Option.getD_some] at this
      omega
    have htd : t < P.data.data.length := by rw [hv.steps]; exact ht'
    have hrow := hv.cols _ (List.getElem_mem htd)
    simp only [Arr3.cell, selectColumns, List.getD_eq_getElem?_getD, List.getElem?_map, htd,
      List.getElem?_eq_getElem, Option.map_some, Option.getD_some]
    rw [sliceOr_get s _ ps (by rw [hrow]; exact hs) k, hk]
    rfl

theorem pyRange_one {β : Type} (xs : List β) (i : Nat) (hi : i < xs.length) :
    pyRange xs (i : Int) (i + 1) = [xs[i]] := by
  unfold pyRange clampPos
  simp only []
  rw [if_neg (by omega), if_neg (by omega)]
  have e1 : min ((i : Int) + 1).toNat xs.length = i + 1 := by omega
  have e2 : min ((i : Int)).toNat xs.length = i := by omega
  rw [e1, e2, List.take_add_one, List.drop_append_of_le_length (by rw [List.length_take]; omega)]
  simp [hi]

/-- **C33**, integer index `0 <= i < len(padded)`: one column, holding sequence `i`.  Missing as for
slices, and negative indices (`C33_negative_index`). -/
theorem C33_int_partial (P : Padded α) (hv : Spec.ValidPadded P) (i : Nat) (hi : i < P.data.d1) :
    ∃ P', P.getItem (.int i) = .ok P' ∧ P'.data.d1 = 1 ∧ P'.data.d0 = P.data.d0 ∧
      P'.lengths = [P.lengths.getD i 0] ∧ P'.indices = [P.indices.getD i 0] ∧
      Spec.column P' 0 = Spec.column P i := by
  have hil : P.indices.length = P.data.d1 := by simpa using hv.perm.length_eq
  have hpl : i < P.lengths.length := by rw [hv.numLengths]; exact hi
  refine ⟨P.getInt i, rfl, ?_, rfl, ?_, ?_, ?_⟩
  · simp only [Padded.getInt, selectColumns]
    rw [pyRange_one _ i (by simpa using hi)]; rfl
  · simp only [Padded.getInt]
    rw [pyRange_one _ i hpl]; simp [List.getD_eq_getElem?_getD, hpl]
  · simp only [Padded.getInt]
    rw [pyRange_one _ i (by omega)]
    simp [List.getD_eq_getElem?_getD, show i < P.indices.length by omega]
  · have hfit := hv.fits _ (List.getElem_mem hpl)
    unfold Spec.column
    have e1 : (P.getInt i).lengths.getD 0 0 = P.lengths.getD i 0 := by
      simp only [Padded.getInt]
      rw [pyRange_one _ i hpl]; simp [List.getD_eq_getElem?_getD, hpl]
    rw [e1]
    apply List.map_congr_left
    intro t ht
    have ht' : t < P.data.d0 := by
      have := List.mem_range.1 ht
      simp only [List.getD_eq_getElem?_getD, hpl, List.getElem?_eq_getElem, Option.getD_some] at this
      omega
    have htd : t < P.data.data.length := by rw [hv.steps]; exact ht'
    have hrow := hv.cols _ (List.getElem_mem htd)
    simp only [Padded.getInt, Arr3.cell, selectColumns, List.getD_eq_getElem?_getD,
      List.getElem?_map, htd, List.getElem?_eq_getElem, Option.map_some, Option.getD_some]
    rw [pyRange_one _ i (by omega)]
    simp [show i < P.data.data[t].length by omega]

/-! ### Where the property fails in the unchanged code -/

/-- The padded batch of sequences of lengths 1, 3, 0 (`exSeqs`). -/
def exPadded : Padded Nat :=
  ⟨⟨3, 3, [2], [[[3, 4], [1, 2], [0, 0]], [[5, 6], [0, 0], [0, 0]], [[7, 8], [0, 0], [0, 0]]]⟩,
    [2, 1, 1], [3, 1, 0], [1, 0, 2]⟩

theorem exPadded_valid : Spec.ValidPadded exPadded := by
  constructor <;> decide

example : list2padded exSeqs = .ok exPadded := by decide +kernel

example : ∃ P', exPadded.getItem (.slice ⟨some (-2), none, none⟩) = .ok P' ∧ P'.data.d1 = 2 ∧
    Spec.column P' 0 = [[1, 2]] := by
  obtain ⟨P', h1, h2, _, _, _, h3⟩ := C33_slice_partial exPadded exPadded_valid
    ⟨some (-2), none, none⟩ [1, 2] (by decide)
  exact ⟨P', h1, h2, by rw [(h3 0 1 rfl).2.2]; decide⟩

/-- The selected batch carries the lengths where `size_at_t` should be. -/
theorem C33_size_at_t_wrong :
    ∃ P', exPadded.getItem (.slice ⟨some 0, some 2, none⟩) = .ok P' ∧ P'.sizeAtT = [3, 1] ∧
      ¬ Spec.ValidPadded P' :=
  ⟨⟨⟨3, 2, [2], [[[3, 4], [1, 2]], [[5, 6], [0, 0]], [[7, 8], [0, 0]]]⟩, [3, 1], [3, 1], [1, 0]⟩,
    by decide, rfl, fun h => absurd h.sizes (by decide)⟩

/-- `padded2list(padded[0])` raises IndexError: the original index 1 is out of range of the new
batch. -/
theorem C33_unpad_selection_raises :
    ∃ P', exPadded.getItem (.int 0) = .ok P' ∧ padded2list P' = .error .indexError :=
  ⟨⟨⟨3, 1, [2], [[[3, 4]], [[5, 6]], [[7, 8]]]⟩, [3], [3], [1]⟩, by decide, by decide⟩

/-- `padded[-1]` is a batch of no sequences. -/
theorem C33_negative_index :
    ∃ P', exPadded.getItem (.int (-1)) = .ok P' ∧ P'.data.d1 = 0 ∧ P'.lengths = [] :=
  ⟨_, rfl, by decide, by decide⟩

theorem insertAsc_perm (a : Int) (l : List Int) : (insertAsc a l).Perm (a :: l) := by
  induction l with
  | nil => exact List.Perm.refl _
  | cons b l ih =>
    unfold insertAsc
    split
    · exact List.Perm.refl _
    · exact (ih.cons b).trans (List.Perm.swap a b l)

theorem insertAsc_sorted (a : Int) {l : List Int} (h : l.Pairwise (· ≤ ·)) : (insertAsc a l).Pairwise (· ≤ ·) := by
  induction l with
  | nil => simp [insertAsc]
  | cons b l ih =>
    have hb := List.pairwise_cons.1 h
    unfold insertAsc
    split
    · rename_i hab
      refine List.pairwise_cons.2 ⟨fun c hc => ?_, h⟩
      rcases List.mem_cons.1 hc with rfl | hc
      · exact hab
      · exact Int.le_trans hab (hb.1 c hc)
    · rename_i hab
      refine List.pairwise_cons.2 ⟨fun c hc => ?_, ih hb.2⟩
      rcases List.mem_cons.1 ((insertAsc_perm a l).mem_iff.1 hc) with rfl | hc
      · omega
      · exact hb.1 c hc

theorem sortedInts_spec (l : List Int) : (sortedInts l).Perm l ∧ (sortedInts l).Pairwise (· ≤ ·) := by
  induction l with
  | nil => exact ⟨List.Perm.refl _, List.Pairwise.nil⟩
  | cons a l ih => exact ⟨(insertAsc_perm a _).trans (ih.1.cons a), insertAsc_sorted a ih.2⟩

/-- What an index list selects: the time steps, the sizes and the lengths at the indices in ascending order, but the original
positions at the indices in the given order. -/
theorem C33_list_selects (P : Padded α) (is : List Int) : ∃ js : List Int, js.Perm is ∧ js.Pairwise (· ≤ ·) ∧
    ∀ P', P.getItem (.list is) = .ok P' ↔ ∃ d sz ls ix, mapRaise (fun i => pyIndex P.data.data i) js = .ok d ∧
      mapRaise (fun i => pyIndex P.sizeAtT i) js = .ok sz ∧ mapRaise (fun i => pyIndex P.lengths i) js = .ok ls ∧
      mapRaise (fun i => pyIndex P.indices i) is = .ok ix ∧ P' = ⟨⟨is.length, P.data.d1, P.data.tail, d⟩, sz, ls, ix⟩ := by
  have hsp := sortedInts_spec is
  refine ⟨sortedInts is, hsp.1, hsp.2, fun P' => ?_⟩
  have hlen : ∀ {β γ : Type} (f : β → Except PyErr γ) (l : List β) (r : List γ), mapRaise f l = .ok r → r.length = l.length := by
    intro β γ f l
    induction l with
    | nil => intro r h; cases h; rfl
    | cons b l ih =>
      intro r h
      simp only [mapRaise] at h
      split at h
      · cases h
      · split at h
        · rename_i _ e
          cases h
          simp [ih _ e]
        · cases h
  simp only [Padded.getItem, Padded.getList, bind, Except.bind]
  constructor
  · intro h
    split at h
    · cases h
    · rename_i d ed
      split at h
      · cases h
      · rename_i sz es
        split at h
        · cases h
        · rename_i ls el
          split at h
          · cases h
          · rename_i ix ei
            cases h
            exact ⟨d, sz, ls, ix, ed, es, el, ei, by rw [hlen _ _ _ ed, hsp.1.length_eq]⟩
  · rintro ⟨d, sz, ls, ix, ed, es, el, ei, rfl⟩
    simp only [ed, es, el, ei, hlen _ _ _ ed, hsp.1.length_eq, pure, Except.pure]

/-- `padded[[2, 0]]`: rows 0 and 2 of the data, positions 2 and 0. -/
example : ∃ P', exPadded.getItem (.list [2, 0]) = .ok P' ∧ P'.data.data = [[[3, 4], [1, 2], [0, 0]], [[7, 8], [0, 0], [0, 0]]] ∧
    P'.indices = [2, 1] := ⟨_, rfl, by decide, by decide⟩

/-- `padded[[1, 2]]` selects time steps, not sequences: it keeps all three columns, with two
lengths. -/
theorem C33_list_selects_time :
    ∃ P', exPadded.getItem (.list [1, 2]) = .ok P' ∧ P'.data.d0 = 2 ∧ P'.data.d1 = 3 ∧
      P'.data.data = [[[5, 6], [0, 0], [0, 0]], [[7, 8], [0, 0], [0, 0]]] ∧ P'.lengths = [1, 0] ∧
      ¬ Spec.ValidPadded P' :=
  ⟨⟨⟨2, 3, [2], [[[5, 6], [0, 0], [0, 0]], [[7, 8], [0, 0], [0, 0]]]⟩, [1, 1], [1, 0], [0, 2]⟩,
    by decide, rfl, rfl, rfl, rfl, fun h => absurd h.numLengths (by decide)⟩

end Thinc
