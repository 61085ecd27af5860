import Verif.Lemmas.Ragged
import Verif.Props.Packing
/-!
# C32: indexing a Ragged
-/
namespace Thinc
variable {α : Type}

namespace Spec

/-- A ragged batch whose lengths cover its rows, of positive width. -/
structure ValidRagged (r : Ragged α) : Prop where
  covers : r.lengths.sum = r.data.rows.length
  width : r.dataTail.prod ≠ 0
  flat : r.data.rows ≠ [] → r.data.tail = [r.dataTail.prod]

/-- The list of sequences that a ragged batch stands for. -/
def seqs (r : Ragged α) : List (List (List α)) := cut r.lengths r.data.rows

end Spec

/-- Every `Ragged(data, lengths)` built from an array of positive width and lengths that cover it is
valid, and stands for the pieces of the array. -/
theorem make_valid (x : Arr α) (ls : List Nat) (hw : x.tail.prod ≠ 0) (h : ls.sum = x.len) :
    Spec.ValidRagged (Ragged.make x ls) ∧
      Spec.seqs (Ragged.make x ls) = Spec.cut ls x.rows ∧
      (Ragged.make x ls).dataXd = x := by
  have hr := make_rows x ls hw
  refine ⟨⟨?_, hw, ?_⟩, ?_, ?_⟩
  · rw [hr]; exact h
  · rw [hr]; exact fun h0 => make_tail x ls hw h0
  · unfold Spec.seqs; rw [hr]; rfl
  · unfold Ragged.dataXd; rw [hr]; rfl

theorem pyIndex_nat {β : Type} (xs : List β) (k : Nat) (hk : k < xs.length) :
    pyIndex xs (k : Int) = .ok xs[k] := by
  unfold pyIndex
  simp only []
  rw [if_neg (by omega), if_neg (by omega)]
  simp [hk]

theorem pyIndex_neg {β : Type} (xs : List β) (i : Int) (k : Nat) (hi : i < 0)
    (hk : i + xs.length = k) (hk' : k < xs.length) : pyIndex xs i = .ok xs[k] := by
  unfold pyIndex
  simp only []
  rw [if_pos hi, hk, if_neg (by omega)]
  simp [hk']

/-- The position that an in-range Python index means. -/
theorem pyIndex_pos (n : Nat) (i : Int) (h : -(n : Int) ≤ i ∧ i < n) :
    ∃ k : Nat, k < n ∧ ∀ {β : Type} (xs : List β) (_ : xs.length = n),
      ∃ hk : k < xs.length, pyIndex xs i = .ok (xs[k]'hk) := by
  rcases Int.lt_or_le i 0 with hi | hi
  · refine ⟨(i + n).toNat, by omega, ?_⟩
    intro β xs hx
    exact ⟨by omega, pyIndex_neg xs i _ hi (by omega) (by omega)⟩
  · refine ⟨i.toNat, by omega, ?_⟩
    intro β xs hx
    refine ⟨by omega, ?_⟩
    have := pyIndex_nat xs i.toNat (by omega)
    rwa [Int.toNat_of_nonneg hi] at this

theorem sum_take_le (ls : List Nat) (k : Nat) : (ls.take k).sum ≤ ls.sum := by
  have := congrArg List.sum (List.take_append_drop k ls)
  rw [List.sum_append] at this
  omega

theorem sum_take_mono (ls : List Nat) {a b : Nat} (h : a ≤ b) :
    (ls.take a).sum ≤ (ls.take b).sum := by
  have : ls.take a = (ls.take b).take a := by rw [List.take_take, Nat.min_eq_left h]
  rw [this]; exact sum_take_le _ _

/-- What `self.data[starts[i]:ends[i]]` is, for any in-range index (negative ones included). -/
theorem getInt_data (r : Ragged α) (i : Int)
    (h : -(r.lengths.length : Int) ≤ i ∧ i < r.lengths.length) :
    ∃ k : Nat, k < r.lengths.length ∧
      (∀ {β : Type} (xs : List β) (_ : xs.length = r.lengths.length),
        ∃ hk : k < xs.length, pyIndex xs i = .ok (xs[k]'hk)) ∧
      r.getInt i = .ok (Ragged.make ⟨r.data.tail,
        (r.data.rows.take (r.lengths.take (k + 1)).sum).drop (r.lengths.take k).sum⟩
        (pyRange r.lengths i (i + 1))) := by
  obtain ⟨k, hk, hidx⟩ := pyIndex_pos r.lengths.length i h
  refine ⟨k, hk, hidx, ?_⟩
  obtain ⟨h1, hs⟩ := hidx r.starts (by rw [starts_eq]; simp)
  obtain ⟨h2, he⟩ := hidx r.ends (by rw [ends_eq]; simp)
  unfold Ragged.getInt
  rw [hs, he]
  simp only [Arr.slice]
  congr 2
  simp only [starts_eq, ends_eq, List.getElem_map, List.getElem_range]

/-- **C32**, integer index: for `0 <= i < len(ragged)`, `ragged[i]` is a ragged batch with exactly
that sequence.  Missing: negative indices (`C32_negative_index`) and, for arrays of more than two
dimensions, the trailing shape (`C32_int_loses_shape`). -/
theorem C32_int_partial (r : Ragged α) (hv : Spec.ValidRagged r) (i : Nat)
    (hi : i < r.lengths.length) :
    ∃ r', r.getItem (.int i) = .ok r' ∧
      ∃ hs : i < (Spec.seqs r).length, Spec.seqs r' = [(Spec.seqs r)[i]] := by
  obtain ⟨k, hk, hidx, hget⟩ := getInt_data r i (by omega)
  have hki : k = i := by
    obtain ⟨_, h2⟩ := hidx (List.range r.lengths.length) (by simp)
    rw [pyIndex_nat _ i (by simpa using hi)] at h2
    simpa using h2.symm
  subst hki
  refine ⟨_, hget, by rw [Spec.seqs, cut_length]; exact hi, ?_⟩
  have hcut := cut_get r.lengths k r.data.rows hi
  have hlen : pyRange r.lengths (k : Int) (k + 1) = [r.lengths[k]] := by
    unfold pyRange clampPos
    simp only []
    rw [if_neg (by omega), if_neg (by omega)]
    have e1 : min ((k : Int) + 1).toNat r.lengths.length = k + 1 := by omega
    have e2 : min ((k : Int)).toNat r.lengths.length = k := by omega
    rw [e1, e2, List.take_add_one, List.drop_append_of_le_length (by rw [List.length_take]; omega)]
    simp [hi]
  have htk : (r.lengths.take (k + 1)).sum = (r.lengths.take k).sum + r.lengths[k] := by
    rw [List.take_add_one, List.sum_append]; simp [hi]
  have hle := sum_take_le r.lengths (k + 1)
  have hget' : (Spec.seqs r)[k]'(by rw [Spec.seqs, cut_length]; exact hi) =
      (r.data.rows.take (r.lengths.take (k + 1)).sum).drop (r.lengths.take k).sum := by
    have := List.getElem?_eq_getElem (l := Spec.seqs r) (i := k)
      (by rw [Spec.seqs, cut_length]; exact hi)
    unfold Spec.seqs at this ⊢
    rw [hcut] at this
    simpa using this.symm
  rw [hget', hlen]
  have hpl : ((r.data.rows.take (r.lengths.take (k + 1)).sum).drop (r.lengths.take k).sum).length =
      r.lengths[k] := by
    have := hv.covers
    simp only [List.length_drop, List.length_take]; omega
  generalize hp : (r.data.rows.take (r.lengths.take (k + 1)).sum).drop (r.lengths.take k).sum = piece
    at hpl
  have hmr : (Ragged.make ⟨r.data.tail, piece⟩ [r.lengths[k]]).data.rows = piece := by
    by_cases hp0 : piece = []
    · subst hp0; simp [Ragged.make, Arr.size, Arr.len]
    · apply make_rows
      simp only []
      have : r.data.rows ≠ [] := by
        intro h0; rw [h0] at hp; simp at hp; exact hp0 hp
      rw [hv.flat this]; simpa using hv.width
  unfold Spec.seqs
  rw [hmr]
  exact cut_single _ _ hpl

/-- Out-of-range integers raise IndexError. -/
theorem C32_int_out_of_range (r : Ragged α) (i : Int)
    (h : i < -(r.lengths.length : Int) ∨ (r.lengths.length : Int) ≤ i) :
    r.getItem (.int i) = .error .indexError := by
  have hs : r.starts.length = r.lengths.length := by rw [starts_eq]; simp
  have : pyIndex r.starts i = .error .indexError := by
    unfold pyIndex
    simp only [hs]
    rcases h with h | h
    · rw [if_pos (by split <;> omega)]
    · have hi : ¬ i < 0 := by omega
      simp only [if_neg hi]
      rw [List.getElem?_eq_none (by omega)]
  simp only [Ragged.getItem, Ragged.getInt, this]

theorem reshape_ok (r : Ragged α) (hv : Spec.ValidRagged r) (rows : List (List α))
    (h : rows ≠ [] → r.data.rows ≠ []) :
    reshapeTail ⟨r.data.tail, rows⟩ r.dataTail = .ok ⟨r.dataTail, rows⟩ := by
  unfold reshapeTail
  by_cases h0 : rows = []
  · subst h0
    rw [if_pos (by simp [Arr.size, Arr.len]), if_neg hv.width]
  · have ht := hv.flat (h h0)
    have hw : r.data.tail.prod ≠ 0 := by rw [ht]; simpa using hv.width
    rw [if_neg (by
      simp only [Arr.size, Arr.len]
      exact Nat.mul_ne_zero (by simpa using h0) hw), if_pos (by simp [ht])]

/-- **C32**, slices: for an explicit start `a >= 0`, any stop (positive, negative or `None`) and no
step (or step 1), `ragged[a:b]` is a valid ragged batch with the same trailing shape that stands for
that slice of the list of sequences.  Missing: an omitted start (`C32_open_slice_raises`), a negative
start (`C32_negative_start`) and other steps (`C32_step_ignored`). -/
theorem C32_slice_partial (r : Ragged α) (hv : Spec.ValidRagged r) (s : PySlice) (a : Nat)
    (ha : s.start = some (a : Int)) (hstep : s.step = none ∨ s.step = some 1) :
    ∃ r' sel, r.getItem (.slice s) = .ok r' ∧ pySlice (Spec.seqs r) s = .ok sel ∧
      Spec.seqs r' = sel ∧ r'.dataTail = r.dataTail ∧ Spec.ValidRagged r' := by
  have hsl := cut_length r.lengths r.data.rows
  have hseqs := pySlice_step_one (Spec.seqs r) s hstep
  rw [show (Spec.seqs r).length = r.lengths.length from hsl] at hseqs
  have hlens := pySlice_step_one r.lengths s hstep
  have hst := pySlice_step_one r.starts s hstep
  have hen := pySlice_step_one r.ends s hstep
  have hs1 : r.starts.length = r.lengths.length := by rw [starts_eq]; simp
  have he1 : r.ends.length = r.lengths.length := by rw [ends_eq]; simp
  rw [hs1] at hst
  rw [he1] at hen
  have hbn := clampPos_le r.lengths.length r.lengths.length (Nat.le_refl _) s.stop
  generalize hb : clampPos r.lengths.length r.lengths.length s.stop = b at *
  have hA : clampPos r.lengths.length 0 s.start = min a r.lengths.length := by
    rw [ha]; unfold clampPos; simp only []; rw [if_neg (by omega)]; simp
  rw [hA] at hseqs hlens hst hen
  refine ⟨?_, _, ?_, hseqs, ?_⟩
  rotate_left
  · -- the call succeeds
    show r.getSlice s = .ok (Ragged.make ⟨r.dataTail,
      (r.data.rows.take (r.lengths.take b).sum).drop (r.lengths.take (min a r.lengths.length)).sum⟩
      ((r.lengths.take b).drop (min a r.lengths.length)))
    unfold Ragged.getSlice
    rw [hlens]
    by_cases hab : b ≤ min a r.lengths.length
    · have hnil : (r.lengths.take b).drop (min a r.lengths.length) = [] :=
        List.drop_eq_nil_of_le (by rw [List.length_take]; omega)
      have hnil2 : (r.data.rows.take (r.lengths.take b).sum).drop
          (r.lengths.take (min a r.lengths.length)).sum = [] := by
        apply List.drop_eq_nil_of_le
        have := sum_take_mono r.lengths hab
        rw [List.length_take]; omega
      rw [hnil, hnil2]
      simp only [Arr.slice, List.take_zero, List.drop_nil]
      rw [reshape_ok r hv [] (by simp)]
    · have hab' : min a r.lengths.length < b := by omega
      have hmin : min a r.lengths.length = a := by omega
      rw [hmin] at hst hen hlens ⊢
      have hlt : a < r.lengths.length := by omega
      have h1 : (r.lengths.take b).drop a = r.lengths[a] :: (r.lengths.take b).drop (a + 1) := by
        rw [List.drop_eq_getElem_cons (by rw [List.length_take]; omega)]
        simp [List.getElem_take]
      have hst' : ∃ tl, (r.starts.take b).drop a = (r.lengths.take a).sum :: tl := by
        refine ⟨(r.starts.take b).drop (a + 1), ?_⟩
        rw [List.drop_eq_getElem_cons (by rw [List.length_take]; omega)]
        congr 1
        simp only [List.getElem_take, starts_eq, List.getElem_map, List.getElem_range]
      obtain ⟨tl, hst'⟩ := hst'
      have hen0 : (r.ends.take b).drop a ≠ [] := by
        intro h0
        have := congrArg List.length h0
        simp only [List.length_drop, List.length_take, List.length_nil] at this
        omega
      have hlast : ∀ h, ((r.ends.take b).drop a).getLast h = (r.lengths.take b).sum := by
        intro h
        rw [List.getLast_eq_getElem]
        simp only [List.getElem_drop, List.getElem_take, ends_eq, List.getElem_map,
          List.getElem_range, List.length_drop, List.length_take, List.length_map,
          List.length_range]
        congr 2
        omega
      rw [h1]
      simp only [ha, hst, hen, hst']
      rcases hE : (r.ends.take b).drop a with _ | ⟨e0, es⟩
      · exact absurd hE hen0
      · have hl : (e0 :: es).getLast (by simp) = (r.lengths.take b).sum := by
          have := hlast hen0
          simp only [hE] at this
          exact this
        have hstart : (if (a : Int) ≥ 1 then (r.lengths.take a).sum else 0) =
            (r.lengths.take a).sum := by
          split
          · rfl
          · have : a = 0 := by omega
            subst this; simp
        simp only [hl, hstart, Arr.slice]
        rw [reshape_ok r hv _ (by
          intro hne h0; rw [h0] at hne; simp at hne)]
  · -- and denotes the slice
    have hw : ((⟨r.dataTail, (r.data.rows.take (r.lengths.take b).sum).drop
        (r.lengths.take (min a r.lengths.length)).sum⟩ : Arr α)).tail.prod ≠ 0 := hv.width
    have hsum : ((r.lengths.take b).drop (min a r.lengths.length)).sum =
        ((r.data.rows.take (r.lengths.take b).sum).drop
          (r.lengths.take (min a r.lengths.length)).sum).length := by
      have h1 := sum_take_le r.lengths b
      have h2 := congrArg List.sum (List.take_append_drop (min a r.lengths.length) (r.lengths.take b))
      rw [List.sum_append, List.take_take] at h2
      have hcov := hv.covers
      simp only [List.length_drop, List.length_take]
      rcases Nat.le_total (min a r.lengths.length) b with hle | hle
      · rw [Nat.min_eq_left hle] at h2; omega
      · have hnil : (r.lengths.take b).drop (min a r.lengths.length) = [] :=
          List.drop_eq_nil_of_le (by rw [List.length_take]; omega)
        have := sum_take_mono r.lengths hle
        rw [hnil]; simp; omega
    obtain ⟨h1, h2, _⟩ := make_valid _ _ hw hsum
    refine ⟨?_, rfl, h1⟩
    rw [h2]
    simp only [Spec.seqs]
    rw [cut_take, cut_drop]
    rcases Nat.le_total (min a r.lengths.length) b with hle | hle
    · rw [List.take_take, Nat.min_eq_left hle]
    · have hnil : (r.lengths.take b).drop (min a r.lengths.length) = [] :=
        List.drop_eq_nil_of_le (by rw [List.length_take]; omega)
      rw [hnil]; simp [Spec.cut]

theorem mapRaise_ok {β γ ε : Type} (f : β → Except ε γ) (g : β → γ) (xs : List β)
    (h : ∀ x ∈ xs, f x = .ok (g x)) : mapRaise f xs = .ok (xs.map g) := by
  induction xs with
  | nil => rfl
  | cons x xs ih =>
    simp only [mapRaise, h x (by simp), ih (fun y hy => h y (by simp [hy])), List.map_cons]

/-- **C32**, index lists: for a non-empty list of in-range indices (negative and repeated ones
included) none of which selects an empty sequence, `ragged[[i, j, ...]]` stands for the selected
sequences in that order.  Missing: the empty list and lists that select an empty sequence
(`C32_list_with_empty_sequence`). -/
theorem C32_list_partial (r : Ragged α) (hv : Spec.ValidRagged r) (is : List Int) (hne : is ≠ [])
    (hin : ∀ i ∈ is, -(r.lengths.length : Int) ≤ i ∧ i < r.lengths.length)
    (hfull : ∀ i ∈ is, pyIndex (Spec.seqs r) i ≠ .ok []) :
    ∃ r' sel, r.getItem (.list is) = .ok r' ∧ mapRaise (pyIndex (Spec.seqs r)) is = .ok sel ∧
      Spec.seqs r' = sel ∧ r'.dataTail = r.dataTail ∧ Spec.ValidRagged r' := by
  have hsl := cut_length r.lengths r.data.rows
  -- the selected sequence and its length
  have hsel : ∀ i ∈ is, ∃ piece ls, pyIndex (Spec.seqs r) i = .ok piece ∧ piece ≠ [] ∧
      pyIndex r.lengths i = .ok piece.length ∧
      r.getInt i = .ok (Ragged.make ⟨[r.dataTail.prod], piece⟩ ls) := by
    intro i hi
    obtain ⟨k, hk, hidx, hget⟩ := getInt_data r i (hin i hi)
    obtain ⟨h1, hp⟩ := hidx (Spec.seqs r) (by rw [Spec.seqs, cut_length])
    obtain ⟨h2, hl⟩ := hidx r.lengths rfl
    have hcut := cut_get r.lengths k r.data.rows hk
    have hpiece : (Spec.seqs r)[k] =
        (r.data.rows.take (r.lengths.take (k + 1)).sum).drop (r.lengths.take k).sum := by
      have := List.getElem?_eq_getElem (l := Spec.seqs r) (i := k) h1
      unfold Spec.seqs at this ⊢
      rw [hcut] at this
      simpa using this.symm
    have hne' : (Spec.seqs r)[k] ≠ [] := by
      intro h0; exact hfull i hi (by rw [hp, h0])
    have hlen : ((Spec.seqs r)[k]).length = r.lengths[k] := by
      have hc := (cut_lengths r.lengths r.data.rows hv.covers).1
      have : ((Spec.cut r.lengths r.data.rows).map List.length)[k]'(by rw [List.length_map, hsl]; exact hk) =
          r.lengths[k] := by simp only [hc]
      rw [List.getElem_map] at this
      exact this
    have hrows : r.data.rows ≠ [] := by
      intro h0; rw [hpiece, h0] at hne'; simp at hne'
    refine ⟨(Spec.seqs r)[k], pyRange r.lengths i (i + 1), hp, hne', by rw [hl, hlen], ?_⟩
    rw [hget, hv.flat hrows, hpiece]
  -- choose functions
  let piece : Int → List (List α) := fun i => match pyIndex (Spec.seqs r) i with
    | .ok p => p
    | .error _ => []
  have hpc : ∀ i ∈ is, pyIndex (Spec.seqs r) i = .ok (piece i) ∧ piece i ≠ [] ∧
      pyIndex r.lengths i = .ok (piece i).length := by
    intro i hi
    obtain ⟨p, ls, h1, h2, h3, _⟩ := hsel i hi
    have : piece i = p := by simp only [piece, h1]
    rw [this]; exact ⟨h1, h2, h3⟩
  have hparts : ∃ parts, mapRaise (fun i => r.getInt i) is = .ok parts ∧
      parts.map Ragged.data = is.map (fun i => (⟨[r.dataTail.prod], piece i⟩ : Arr α)) := by
    clear hne hfull
    revert hsel hpc hin
    induction is with
    | nil => intro _ _ _; exact ⟨[], rfl, rfl⟩
    | cons i is ih =>
      intro hin hsel hpc
      obtain ⟨parts, e1, e2⟩ := ih (fun j hj => hin j (by simp [hj]))
        (fun j hj => hsel j (by simp [hj])) (fun j hj => hpc j (by simp [hj]))
      obtain ⟨p, ls, h1, h2, h3, h4⟩ := hsel i (by simp)
      have hpi : piece i = p := by simp only [piece, h1]
      refine ⟨Ragged.make ⟨[r.dataTail.prod], p⟩ ls :: parts, ?_, ?_⟩
      · simp only [mapRaise, h4, e1]
      · have hw : ((⟨[r.dataTail.prod], p⟩ : Arr α)).tail.prod ≠ 0 := by simpa using hv.width
        have e3 := make_rows ⟨[r.dataTail.prod], p⟩ ls hw
        have e4 := make_tail ⟨[r.dataTail.prod], p⟩ ls hw h2
        simp only [List.map_cons, e2, hpi]
        congr 1
        rcases hR : (Ragged.make (⟨[r.dataTail.prod], p⟩ : Arr α) ls).data with ⟨t, rw'⟩
        rw [hR] at e3 e4
        simp only at e3 e4
        rw [e3, e4]; simp
  obtain ⟨parts, e1, e2⟩ := hparts
  have hcat := npConcatenate_ok (is.map (fun i => (⟨[r.dataTail.prod], piece i⟩ : Arr α)))
    [r.dataTail.prod] (by
      intro x hx; obtain ⟨i, _, rfl⟩ := List.mem_map.1 hx; rfl) (by simpa using hne)
  have hrows : ((is.map (fun i => (⟨[r.dataTail.prod], piece i⟩ : Arr α))).map Arr.rows).flatten =
      (is.map piece).flatten := by rw [List.map_map]; rfl
  rw [hrows] at hcat
  have hlens := mapRaise_ok (fun i => pyIndex r.lengths i) (fun i => (piece i).length) is
    (fun i hi => (hpc i hi).2.2)
  have hselOk := mapRaise_ok (pyIndex (Spec.seqs r)) piece is (fun i hi => (hpc i hi).1)
  have hresh : reshapeTail ⟨[r.dataTail.prod], (is.map piece).flatten⟩ r.dataTail =
      .ok ⟨r.dataTail, (is.map piece).flatten⟩ := by
    unfold reshapeTail
    have hne2 : (is.map piece).flatten ≠ [] := by
      obtain ⟨i, hi⟩ := List.exists_mem_of_ne_nil is hne
      intro h0
      rw [List.flatten_eq_nil_iff] at h0
      exact (hpc i hi).2.1 (h0 _ (List.mem_map.2 ⟨i, hi, rfl⟩))
    rw [if_neg (by
      simp only [Arr.size, Arr.len]
      exact Nat.mul_ne_zero (fun h => hne2 (List.length_eq_zero_iff.1 h)) (by simpa using hv.width)),
      if_pos (by simp)]
  have hres : r.getItem (.list is) = .ok (Ragged.make ⟨r.dataTail, (is.map piece).flatten⟩
      (is.map (fun i => (piece i).length))) := by
    show r.getList is = _
    unfold Ragged.getList
    rw [e1]
    simp only [bind, Except.bind, e2, hcat, hresh, hlens]
    rfl
  have hlm : is.map (fun i => (piece i).length) = (is.map piece).map List.length := by
    rw [List.map_map]; rfl
  obtain ⟨v1, v2, _⟩ := make_valid (⟨r.dataTail, (is.map piece).flatten⟩ : Arr α)
    (is.map (fun i => (piece i).length)) hv.width (by
      rw [hlm]; simp [Arr.len, List.length_flatten])
  refine ⟨_, _, hres, hselOk, ?_, rfl, v1⟩
  rw [v2, hlm, cut_flatten]

/-- Two-dimensional indices are rejected. -/
theorem C32_tuple (r : Ragged α) : r.getItem .tuple = .error .indexError := rfl

/-! ### Where the property fails in the unchanged code -/

/-- Three sequences `[1 2]`, `[]`, `[3]` of scalars in a column. -/
def exRagged : Ragged Nat := Ragged.make ⟨[1], [[1], [2], [3]]⟩ [2, 0, 1]

theorem exRagged_valid : Spec.ValidRagged exRagged := by
  refine ⟨?_, ?_, ?_⟩ <;> decide

example : Spec.seqs exRagged = [[[1], [2]], [], [[3]]] := by decide

example : ∃ r', exRagged.getItem (.int (0 : Nat)) = .ok r' ∧ ∃ hs : 0 < (Spec.seqs exRagged).length,
    Spec.seqs r' = [(Spec.seqs exRagged)[0]] := C32_int_partial exRagged exRagged_valid 0 (by decide)

example : ∃ r' sel, exRagged.getItem (.slice ⟨some (1 : Nat), none, none⟩) = .ok r' ∧
    pySlice (Spec.seqs exRagged) ⟨some (1 : Nat), none, none⟩ = .ok sel ∧ Spec.seqs r' = sel ∧
    r'.dataTail = exRagged.dataTail ∧ Spec.ValidRagged r' :=
  C32_slice_partial exRagged exRagged_valid ⟨some (1 : Nat), none, none⟩ 1 rfl (.inl rfl)

example : ∃ r' sel, exRagged.getItem (.list [-1, 0, 2]) = .ok r' ∧
    mapRaise (pyIndex (Spec.seqs exRagged)) [-1, 0, 2] = .ok sel ∧ Spec.seqs r' = sel ∧
    r'.dataTail = exRagged.dataTail ∧ Spec.ValidRagged r' :=
  C32_list_partial exRagged exRagged_valid [-1, 0, 2] (by decide) (by decide) (by decide)

/-- `ragged[-1]` has the rows of the last sequence but no lengths: it stands for no sequence. -/
theorem C32_negative_index :
    ∃ r', exRagged.getItem (.int (-1)) = .ok r' ∧ r'.data.rows = [[3]] ∧ r'.lengths = [] ∧
      Spec.seqs r' = [] ∧ pyIndex (Spec.seqs exRagged) (-1) = .ok [[3]] :=
  ⟨⟨⟨[1], [[3]]⟩, [], [1]⟩, by decide, rfl, rfl, rfl, by decide⟩

/-- `ragged[:2]` raises TypeError (`None >= 1`). -/
theorem C32_open_slice_raises :
    exRagged.getItem (.slice ⟨none, some 2, none⟩) = .error .typeError := by decide

/-- `ragged[-1:]` returns all the rows with the length of the last sequence only: it stands for the
wrong rows. -/
theorem C32_negative_start :
    ∃ r', exRagged.getItem (.slice ⟨some (-1), none, none⟩) = .ok r' ∧
      r'.data.rows = [[1], [2], [3]] ∧ r'.lengths = [1] ∧ Spec.seqs r' = [[[1]]] ∧
      pySlice (Spec.seqs exRagged) ⟨some (-1), none, none⟩ = .ok [[[3]]] :=
  ⟨⟨⟨[1], [[1], [2], [3]]⟩, [1], [1]⟩, by decide, rfl, rfl, by decide, by decide⟩

/-- Four sequences of one row each. -/
def exRagged4 : Ragged Nat := Ragged.make ⟨[1], [[1], [2], [3], [4]]⟩ [1, 1, 1, 1]

/-- `ragged[0::2]` keeps every second length but all the rows in between. -/
theorem C32_step_ignored :
    ∃ r', exRagged4.getItem (.slice ⟨some 0, none, some 2⟩) = .ok r' ∧
      Spec.seqs r' = [[[1]], [[2]]] ∧
      pySlice (Spec.seqs exRagged4) ⟨some 0, none, some 2⟩ = .ok [[[1]], [[3]]] :=
  ⟨⟨⟨[1], [[1], [2], [3]]⟩, [1, 1], [1]⟩, by decide, by decide, by decide⟩

/-- `ragged[[0, 1]]` raises ValueError when sequence 1 is empty, and `ragged[[]]` always does. -/
theorem C32_list_with_empty_sequence :
    exRagged.getItem (.list [0, 1]) = .error .valueError ∧
    exRagged.getItem (.list []) = .error .valueError := by decide

/-- An integer index flattens the trailing dimensions: a sequence of 2x2 blocks comes back as rows of
4 numbers. -/
theorem C32_int_loses_shape :
    ∃ r', (Ragged.make (⟨[2, 2], [[1, 2, 3, 4]]⟩ : Arr Nat) [1]).getItem (.int 0) = .ok r' ∧
      r'.dataXd = ⟨[4], [[1, 2, 3, 4]]⟩ :=
  ⟨⟨⟨[4], [[1, 2, 3, 4]]⟩, [1], [4]⟩, by decide, by decide⟩

end Thinc
