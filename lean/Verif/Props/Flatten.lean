import Verif.Lemmas.Arrays
/-!
# C28: flatten and unflatten
-/
namespace Thinc
variable {α : Type}

namespace Spec

/-- The layout that `flatten` documents: the sequences that have rows, in order, with `pad` blank
rows before each one and after the last one. -/
def laidOut {β : Type} (pad : Nat) (blank : β) (seqs : List (List β)) : List β :=
  if seqs.all List.isEmpty then []
  else (seqs.filter (fun s => !s.isEmpty)).flatMap (fun s => List.replicate pad blank ++ s) ++
    List.replicate pad blank

/-- Without padding the layout is plain concatenation. -/
theorem laidOut_zero {β : Type} (blank : β) (seqs : List (List β)) :
    laidOut 0 blank seqs = seqs.flatten := by
  unfold laidOut
  split
  · rename_i h
    symm
    simp only [List.all_eq_true, List.isEmpty_iff] at h
    simpa [List.flatten_eq_nil_iff] using h
  · clear * -
    simp only [List.replicate_zero, List.nil_append, List.append_nil]
    induction seqs with
    | nil => rfl
    | cons s seqs ih =>
      cases s with
      | nil => simpa using ih
      | cons a s => simpa using ih

end Spec

section
variable [Zero α]

omit [Zero α] in
theorem size_ne_zero_iff {x : Arr α} (h : x.tail.prod ≠ 0) : (x.size != 0) = !x.rows.isEmpty := by
  rcases x with ⟨t, rows⟩
  cases rows with
  | nil => simp [Arr.size, Arr.len]
  | cons r rows => simp only [Arr.size, Arr.len] at *; simp; exact Nat.mul_ne_zero (by omega) h

theorem laidOut_segs {β : Type} (pad : Nat) (blank : β) (seqs : List (List β)) :
    ∃ rest, Spec.laidOut pad blank seqs =
      (seqs.map (fun s => if s.isEmpty then [] else List.replicate pad blank ++ s)).flatten ++
        rest := by
  unfold Spec.laidOut
  split
  · rename_i h
    refine ⟨[], ?_⟩
    symm
    simp only [List.all_eq_true, List.isEmpty_iff] at h
    simp only [List.append_nil, List.flatten_eq_nil_iff, List.mem_map]
    rintro l ⟨s, hs, rfl⟩
    simp [h s hs]
  · refine ⟨List.replicate pad blank, ?_⟩
    congr 1
    clear * -
    induction seqs with
    | nil => rfl
    | cons s seqs ih =>
      cases s with
      | nil => simpa using ih
      | cons a s => simpa using ih

theorem flatMap_pad_rows (ys : List (Arr α)) (pad : Nat) (tail : List Nat)
    (h : ∀ x ∈ ys, x.tail = tail) :
    ((ys.flatMap (fun x => [Arr.zeros pad x.tail, x])).map Arr.rows).flatten =
      (ys.map Arr.rows).flatMap
        (fun s => List.replicate pad (List.replicate tail.prod (0 : α)) ++ s) := by
  induction ys with
  | nil => rfl
  | cons y ys ih =>
    have hy := h y (by simp)
    have ih := ih (fun x hx => h x (by simp [hx]))
    simp only [List.flatMap_cons, List.map_append, List.flatten_append, ih, List.map_cons,
      List.map_nil, hy]
    simp [Arr.zeros]

theorem flatten_spec (Xs : List (Arr α)) (tail : List Nat) (pad : Nat)
    (h : ∀ x ∈ Xs, x.tail = tail) (hw : tail.prod ≠ 0) (hne : Xs ≠ []) :
    opsFlatten Xs pad =
      .ok ⟨tail, Spec.laidOut pad (List.replicate tail.prod 0) (Xs.map Arr.rows)⟩ := by
  have hfilter : Xs.filter (fun x => x.size != 0) = Xs.filter (fun x => !x.rows.isEmpty) := by
    apply List.filter_congr
    intro x hx
    rw [size_ne_zero_iff (by rw [h x hx]; exact hw)]
  have hmap : (Xs.map Arr.rows).filter (fun s => !s.isEmpty) =
      (Xs.filter (fun x => !x.rows.isEmpty)).map Arr.rows := by
    rw [List.filter_map]; rfl
  have hall : (Xs.map Arr.rows).all List.isEmpty = true ↔
      Xs.filter (fun x => !x.rows.isEmpty) = [] := by
    simp [List.filter_eq_nil_iff]
  cases hX : Xs with
  | nil => exact absurd hX hne
  | cons x0 xs =>
    rw [← hX]
    have hx0 := h x0 (by simp [hX])
    unfold opsFlatten
    rw [hX]; simp only; rw [← hX, hfilter]
    rcases hf : Xs.filter (fun x => !x.rows.isEmpty) with _ | ⟨y, ys⟩
    · have hz : x0.rows = [] := by
        have := List.filter_eq_nil_iff.1 hf x0 (by simp [hX])
        simpa using this
      simp only [Spec.laidOut, hall.2 hf, if_true, hf, Arr.zeros, Arr.len, hz, hx0]
      rfl
    · have hall' : ¬ (Xs.map Arr.rows).all List.isEmpty = true := by
        rw [hall, hf]; simp
      have htails : ∀ x ∈ y :: ys, x.tail = tail := by
        intro x hx
        rw [← hf] at hx
        exact h x (List.mem_filter.1 hx).1
      have hlast := htails _ (List.getLast_mem (l := y :: ys) (by simp))
      simp only [Spec.laidOut, if_neg hall', hmap, hf]
      by_cases hp : pad ≥ 1
      · rw [if_pos hp, hlast, npConcatenate_ok _ tail]
        · congr 2
          rw [List.map_append, List.flatten_append, flatMap_pad_rows _ _ tail htails]
          simp [Arr.zeros]
        · intro x hx
          rcases List.mem_append.1 hx with hx | hx
          · rcases List.mem_flatMap.1 hx with ⟨z, hz, hx⟩
            have := htails z hz
            simp only [List.mem_cons, List.not_mem_nil, or_false] at hx
            rcases hx with rfl | rfl
            · exact this
            · exact this
          · simp only [List.mem_cons, List.not_mem_nil, or_false] at hx
            rw [hx]; rfl
        · simp
      · rw [if_neg hp, npConcatenate_ok _ tail htails (by simp)]
        have hp : pad = 0 := by omega
        subst hp
        congr 2
        simp [List.flatMap_def, Function.comp_def]

omit [Zero α] in
theorem unflatten_spec (F : Arr α) (pad : Nat) (blank : List α) (seqs : List (List (List α)))
    (hF : F.rows = Spec.laidOut pad blank seqs) :
    opsUnflatten F (seqs.map List.length) pad = .ok (seqs.map (fun s => ⟨F.tail, s⟩)) := by
  obtain ⟨rest, hrest⟩ := laidOut_segs pad blank seqs
  have hsegs := npSplit_segs F _ rest (hF.trans hrest)
  have hlens : (seqs.map (fun s => if s.isEmpty then [] else List.replicate pad blank ++ s)).map
      List.length = seqs.map (fun s => if s.length > 0 then s.length + pad else 0) := by
    rw [List.map_map]
    apply List.map_congr_left
    intro s _
    cases s with
    | nil => simp
    | cons a s => simp; omega
  rw [hlens] at hsegs
  have hl' : (if pad > 0 then (seqs.map List.length).map (fun l => if l > 0 then l + pad else 0)
      else seqs.map List.length) =
        seqs.map (fun s => if s.length > 0 then s.length + pad else 0) := by
    split
    · simp [List.map_map, Function.comp_def]
    · rename_i hp
      have hp : pad = 0 := by omega
      subst hp
      apply List.map_congr_left
      intro s _
      cases s <;> simp
  unfold opsUnflatten
  simp only []
  rw [hl', hsegs]
  simp only [List.dropLast_concat]
  by_cases hp : pad > 0
  · simp only [hp, if_true, List.length_map, List.map_map]
    congr 1
    apply List.map_congr_left
    intro s _
    cases s with
    | nil => simp [Arr.slice]
    | cons a s => simp [Arr.slice, Arr.len, Function.comp_def]
  · simp only [hp, if_false, List.length_map, if_true, List.map_map]
    have hp : pad = 0 := by omega
    subst hp
    congr 1
    apply List.map_congr_left
    intro s _
    cases s <;> simp

/-- **C28** for arrays whose trailing shape is not degenerate: flattening lays the rows out in
order, separated by `pad` zero rows, and unflattening with the original lengths gives back the list.
Empty sequences are allowed anywhere.  What is missing is the case of a trailing shape with a zero
in it (`C28_zero_width_lost`). -/
theorem C28_round_trip_partial (Xs : List (Arr α)) (tail : List Nat) (pad : Nat)
    (h : ∀ x ∈ Xs, x.tail = tail) (hw : tail.prod ≠ 0) :
    ∃ F, opsFlatten Xs pad = .ok F ∧
      F.rows = Spec.laidOut pad (List.replicate tail.prod 0) (Xs.map Arr.rows) ∧
      opsUnflatten F (Xs.map Arr.len) pad = .ok Xs := by
  by_cases hne : Xs = []
  · subst hne
    refine ⟨_, rfl, rfl, ?_⟩
    simp [opsUnflatten, npSplit, cumsumFrom]
  · refine ⟨_, flatten_spec Xs tail pad h hw hne, rfl, ?_⟩
    have := unflatten_spec
      (⟨tail, Spec.laidOut pad (List.replicate tail.prod 0) (Xs.map Arr.rows)⟩ : Arr α) pad _ _ rfl
    rw [List.map_map] at this
    refine Eq.trans this ?_
    congr 1
    rw [List.map_map]
    conv_rhs => rw [← List.map_id Xs]
    apply List.map_congr_left
    intro x hx
    simp only [Function.comp, id]
    rw [← h x hx]

/-- In particular, without padding the flattened array is the concatenation of the rows. -/
theorem C28_no_padding (Xs : List (Arr α)) (tail : List Nat)
    (h : ∀ x ∈ Xs, x.tail = tail) (hw : tail.prod ≠ 0) (hne : Xs ≠ []) :
    opsFlatten Xs 0 = .ok ⟨tail, (Xs.map Arr.rows).flatten⟩ := by
  rw [flatten_spec Xs tail 0 h hw hne, Spec.laidOut_zero]

example : ∃ F, opsFlatten [(⟨[2], [[1, 2], [3, 4]]⟩ : Arr Nat), ⟨[2], []⟩, ⟨[2], [[5, 6]]⟩] 1 = .ok F ∧
    F.rows = [[0, 0], [1, 2], [3, 4], [0, 0], [5, 6], [0, 0]] ∧
    opsUnflatten F [2, 0, 1] 1 = .ok [⟨[2], [[1, 2], [3, 4]]⟩, ⟨[2], []⟩, ⟨[2], [[5, 6]]⟩] :=
  C28_round_trip_partial _ [2] 1 (by decide) (by decide)

/-- The other direction: cutting an array into pieces of the given lengths and flattening the
pieces gives back the array. -/
theorem C28_flatten_of_unflatten (F : Arr α) (lengths : List Nat) (hsum : lengths.sum = F.len)
    (hw : F.tail.prod ≠ 0) (hne : lengths ≠ []) :
    ∃ Xs, opsUnflatten F lengths 0 = .ok Xs ∧ Xs.map Arr.len = lengths ∧
      (∀ x ∈ Xs, x.tail = F.tail) ∧ opsFlatten Xs 0 = .ok F := by
  have key : ∀ (ls : List Nat) (rows : List (List α)), ls.sum = rows.length →
      ∃ segs : List (List (List α)), segs.map List.length = ls ∧ segs.flatten = rows := by
    intro ls
    induction ls with
    | nil => intro rows h; exact ⟨[], rfl, by simpa [eq_comm] using h⟩
    | cons l ls ih =>
      intro rows h
      simp only [List.sum_cons] at h
      obtain ⟨segs, h1, h2⟩ := ih (rows.drop l) (by simp; omega)
      refine ⟨rows.take l :: segs, ?_, ?_⟩
      · simp only [List.map_cons, h1, List.length_take]
        congr 1; omega
      · simp only [List.flatten_cons, h2, List.take_append_drop]
  obtain ⟨segs, h1, h2⟩ := key lengths F.rows hsum
  have hu := unflatten_spec F 0 [] segs (by rw [Spec.laidOut_zero, h2])
  rw [h1] at hu
  refine ⟨_, hu, ?_, ?_, ?_⟩
  · rw [List.map_map, ← h1]; rfl
  · intro x hx
    rcases List.mem_map.1 hx with ⟨s, _, rfl⟩; rfl
  · rw [C28_no_padding _ F.tail _ hw]
    · rw [List.map_map]
      have : segs.map (Arr.rows ∘ fun s => (⟨F.tail, s⟩ : Arr α)) = segs := by
        conv_rhs => rw [← List.map_id segs]
        rfl
      rw [this, h2]
    · intro h
      apply hne
      rw [← h1, List.map_eq_nil_iff.1 h]; rfl
    · intro x hx
      rcases List.mem_map.1 hx with ⟨s, _, rfl⟩; rfl

example : ∃ Xs, opsUnflatten (⟨[1], [[1], [2], [3]]⟩ : Arr Nat) [1, 0, 2] 0 = .ok Xs ∧
    Xs.map Arr.len = [1, 0, 2] ∧ (∀ x ∈ Xs, x.tail = [1]) ∧
    opsFlatten Xs 0 = .ok ⟨[1], [[1], [2], [3]]⟩ :=
  C28_flatten_of_unflatten ⟨[1], [[1], [2], [3]]⟩ [1, 0, 2] rfl (by decide) (by decide)

/-- Arrays that have elements but different trailing shapes are rejected. -/
theorem C28_shapes_must_agree (Xs : List (Arr α)) (pad : Nat) {a b : Arr α} (ha : a ∈ Xs)
    (hb : b ∈ Xs) (ha0 : a.size ≠ 0) (hb0 : b.size ≠ 0) (hab : a.tail ≠ b.tail) :
    opsFlatten Xs pad = .error .valueError := by
  have ha' : a ∈ Xs.filter (fun x => x.size != 0) := by simp [ha, ha0]
  have hb' : b ∈ Xs.filter (fun x => x.size != 0) := by simp [hb, hb0]
  cases hX : Xs with
  | nil => rw [hX] at ha; simp at ha
  | cons x0 xs =>
    rw [← hX]
    unfold opsFlatten
    rw [hX]; simp only; rw [← hX]
    rcases hf : Xs.filter (fun x => x.size != 0) with _ | ⟨y, ys⟩
    · rw [hf] at ha'; simp at ha'
    · rw [hf] at ha' hb'
      simp only [hf]
      have hsub : ∀ z, z ∈ y :: ys →
          z ∈ (y :: ys).flatMap (fun x => [Arr.zeros pad x.tail, x]) ++
          [Arr.zeros pad ((y :: ys).getLast (by simp)).tail] := by
        intro z hz
        exact List.mem_append_left _ (List.mem_flatMap.2 ⟨z, hz, by simp⟩)
      split
      · exact npConcatenate_err _ (hsub a ha') (hsub b hb') hab
      · exact npConcatenate_err _ ha' hb' hab

example : opsFlatten [(⟨[2], [[1, 2]]⟩ : Arr Nat), ⟨[1], [[3]]⟩] 0 = .error .valueError :=
  C28_shapes_must_agree _ 0 (a := ⟨[2], [[1, 2]]⟩) (b := ⟨[1], [[3]]⟩) (by decide) (by decide)
    (by decide) (by decide) (by decide)

/-- The round trip fails for arrays of width zero: the filter on `x.size` drops them and only the
shape of the first one survives, so the second comes back with no rows. -/
theorem C28_zero_width_lost :
    let Xs : List (Arr Nat) := [⟨[0], [[], [], []]⟩, ⟨[0], [[], []]⟩]
    ∃ F, opsFlatten Xs 0 = .ok F ∧ F.len = 3 ∧
      opsUnflatten F [3, 2] 0 = .ok [⟨[0], [[], [], []]⟩, ⟨[0], []⟩] ∧
      opsUnflatten F [3, 2] 0 ≠ .ok Xs := by
  refine ⟨⟨[0], [[], [], []]⟩, ?_, ?_, ?_, ?_⟩ <;> decide

end
end Thinc
