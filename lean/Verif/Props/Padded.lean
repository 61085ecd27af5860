import Verif.Lemmas.Padded
/-!
# C29: list2padded and padded2list
-/
namespace Thinc
variable {α : Type}

section
variable [Zero α]

omit [Zero α] in
/-- The columns in sorted order, as `list2padded` computes them. -/
theorem sorted_columns (seqs : List (Arr α)) :
    let li := sortDesc (seqs.zipIdx.map (fun p => (p.1.len, p.2)))
    (∀ p ∈ li, ∃ s, seqs[p.2]? = some s ∧ s.len = p.1) ∧
    (li.map Prod.snd).Perm (List.range seqs.length) ∧
    (li.map Prod.fst).Pairwise (· ≥ ·) ∧ li.length = seqs.length ∧
    (li.map Prod.fst).Perm (seqs.map Arr.len) := by
  intro li
  have hperm : li.Perm (seqs.zipIdx.map (fun p => (p.1.len, p.2))) := sortDesc_perm _
  refine ⟨?_, ?_, ?_, ?_, ?_⟩
  · intro p hp
    obtain ⟨q, hq, rfl⟩ := List.mem_map.1 (hperm.mem_iff.1 hp)
    refine ⟨q.1, ?_, rfl⟩
    have := List.mem_zipIdx_iff_getElem?.1 hq
    simpa using this
  · refine (hperm.map Prod.snd).trans ?_
    rw [List.map_map]
    have : (seqs.zipIdx.map (Prod.snd ∘ fun p => (p.1.len, p.2))) = List.range seqs.length := by
      have : (Prod.snd ∘ fun p : Arr α × Nat => (p.1.len, p.2)) = Prod.snd := rfl
      rw [this, List.zipIdx_map_snd, List.range_eq_range']
    rw [this]
  · have hs : li.Pairwise (fun a b => geTuple a b = true) :=
      sortDesc_sorted _
    rw [List.pairwise_map]
    refine hs.imp ?_
    intro a b hab
    simp only [geTuple, Bool.or_eq_true, Bool.and_eq_true, decide_eq_true_eq] at hab
    omega
  · simpa using hperm.length_eq
  · refine (hperm.map Prod.fst).trans ?_
    have : (seqs.zipIdx.map (fun p => (p.1.len, p.2))).map Prod.fst = seqs.map Arr.len := by
      rw [List.map_map]
      have : (Prod.fst ∘ fun p : Arr α × Nat => (p.1.len, p.2)) = Arr.len ∘ Prod.fst := rfl
      rw [this, ← List.map_map, List.zipIdx_map_fst]
    rw [this]

/-- The full behaviour of `list2padded` on sequences of the same width. -/
theorem list2padded_spec (seqs : List (Arr α)) (nO : Nat) (h : ∀ s ∈ seqs, s.tail = [nO]) :
    ∃ P, list2padded seqs = .ok P ∧ Spec.ValidPadded P ∧
      Spec.Represents P (seqs.map Arr.rows) ∧ (seqs ≠ [] → P.data.tail = [nO]) ∧
      (∀ t b, t < P.data.d0 → b < P.data.d1 → P.lengths.getD b 0 ≤ t →
        P.data.cell t b = List.replicate nO 0) ∧
      (P.data.d0 = 0 ∨ ∃ s ∈ seqs, s.len = P.data.d0) := by
  match hS : seqs with
  | [] =>
    refine ⟨_, rfl, ?_, ?_, by simp, ?_, .inl rfl⟩
    · constructor <;> simp [Arr3.zeros]
    · exact ⟨rfl, by simp⟩
    · intro t b ht; simp [Arr3.zeros] at ht
  | [s] =>
    have hs := h s (by simp)
    refine ⟨⟨⟨s.len, 1, [nO], s.rows.map (fun r => [r])⟩, List.replicate s.len 1, [s.len], [0]⟩,
      ?_, ?_, ?_, by simp, ?_, .inr ⟨s, by simp, rfl⟩⟩
    · simp only [list2padded, hs]
      rw [if_pos]
      simp [Arr.size, hs]
    · constructor
      · simp [Arr.len]
      · simp
      · rfl
      · simp
      · simp
      · simp
      · simp only
        apply List.ext_getElem
        · simp
        · intro t h1 h2
          simp only [List.length_replicate] at h1
          simp [h1]
    · refine ⟨rfl, ?_⟩
      intro b i hbi
      have hb0 : b = 0 := by
        rcases b with _ | b
        · rfl
        · simp at hbi
      subst hb0
      simp only [List.getElem?_cons_zero, Option.some.injEq] at hbi
      subst hbi
      simp only [List.map_cons, List.map_nil, List.getElem?_cons_zero, Option.some.injEq]
      unfold Spec.column
      apply List.ext_getElem
      · simp [Arr.len]
      · intro t h1 h2
        simp [Arr3.cell, List.getD_eq_getElem?_getD, h1]
    · intro t b ht hb hle
      simp only at ht hb hle
      have : b = 0 := by omega
      subst this
      simp at hle
      omega
  | s0 :: s1 :: rest =>
    rw [← hS] at h ⊢
    obtain ⟨hmem, hperm, hdesc, hlen, hpermLens⟩ := sorted_columns seqs
    generalize hli : sortDesc (seqs.zipIdx.map (fun p => (p.1.len, p.2))) = li at *
    have hs0 : s0.tail = [nO] := h s0 (by simp [hS])
    -- the reordered sequences
    let f : Nat × Nat → Arr α := fun p => seqs.getD p.2 s0
    have hf : ∀ p ∈ li, seqs[p.2]? = some (f p) ∧ (f p).len = p.1 := by
      intro p hp
      obtain ⟨s, hs, hsl⟩ := hmem p hp
      have : f p = s := by simp [f, List.getD_eq_getElem?_getD, hs]
      rw [this]; exact ⟨hs, hsl⟩
    have hsorted : (li.map Prod.snd).filterMap (fun i => seqs[i]?) = li.map f := by
      rw [List.filterMap_map]
      have : ∀ l : List (Nat × Nat), (∀ p ∈ l, seqs[p.2]? = some (f p)) →
          l.filterMap ((fun i => seqs[i]?) ∘ Prod.snd) = l.map f := by
        intro l
        induction l with
        | nil => intro _; rfl
        | cons p l ih =>
          intro hl
          rw [List.filterMap_cons]
          simp only [Function.comp, hl p (by simp)]
          rw [List.map_cons]; congr 1
          exact ih (fun q hq => hl q (by simp [hq]))
      exact this li (fun p hp => (hf p hp).1)
    have hlens : (li.map f).map Arr.len = li.map Prod.fst := by
      rw [List.map_map]
      apply List.map_congr_left
      intro p hp; exact (hf p hp).2
    have htails : ∀ s ∈ li.map f, s.tail = [nO] := by
      intro s hs
      obtain ⟨p, hp, rfl⟩ := List.mem_map.1 hs
      exact h _ (List.mem_of_getElem? (hf p hp).1)
    have hne : li.map f ≠ [] := by
      intro h0
      have := congrArg List.length h0
      rw [List.length_map, hlen, hS] at this
      simp at this
    -- maxima
    let nS := (seqs.map Arr.len).foldl max 0
    have hmaxS : (li.map Prod.fst).foldl max 0 = nS := foldl_max_perm hpermLens
    have hpadLen : padLen (li.map f) 1 = nS := by
      unfold padLen; rw [hlens, hmaxS]; simp
    have hpad := opsPad_ok (li.map f) [nO] 1 htails hne (by omega)
    rw [hpadLen] at hpad
    have hnB : (li.map f).length = seqs.length := by rw [List.length_map, hlen]
    rw [hnB] at hpad
    generalize hA : (⟨seqs.length, nS, [nO], (li.map f).map (fun s => s.rows ++
      List.replicate (nS - s.len) (List.replicate ([nO] : List Nat).prod 0))⟩ : Arr3 α) = A at hpad
    have hA0 : A.d0 = seqs.length := by rw [← hA]
    have hA1 : A.d1 = nS := by rw [← hA]
    have hAt : A.tail = [nO] := by rw [← hA]
    have hle : ∀ l ∈ li.map Prod.fst, l ≤ nS := by
      intro l hl; rw [← hmaxS]; exact le_foldl_max _ 0 l hl
    have hsizes : sizesAtT (li.map Prod.fst) (List.range nS) (li.map Prod.fst).length =
        (List.range nS).map (fun t => (li.map Prod.fst).countP (fun l => t < l)) :=
      sizesAtT_eq _ hdesc _ _ List.pairwise_lt_range (Nat.le_refl _) (fun t _ => by rw [List.take_length])
    have hsum : (li.map Prod.fst).sum =
        ((List.range nS).map (fun t => (li.map Prod.fst).countP (fun l => t < l))).sum :=
      (sum_countP _ _ hle).symm
    have hcell : ∀ b t, b < seqs.length → t < nS → ∀ p, li[b]? = some p →
        A.cell b t = ((f p).rows[t]?).getD (List.replicate nO 0) := by
      intro b t hb ht p hp
      have hpm := List.mem_of_getElem? hp
      have hfl := (hf p hpm).2
      rw [← hA]
      simp only [Arr3.cell, List.getD_eq_getElem?_getD, List.getElem?_map, hp, Option.map_some,
        Option.getD_some]
      by_cases hts : t < (f p).rows.length
      · rw [List.getElem?_append_left hts]; simp [hts]
      · rw [List.getElem?_append_right (by omega), List.getElem?_replicate,
          if_pos (by unfold Arr.len; omega), List.getElem?_eq_none (l := (f p).rows) (by omega)]
        simp
    have hres : list2padded seqs = .ok ⟨A.transpose,
        (List.range nS).map (fun t => (li.map Prod.fst).countP (fun l => t < l)),
        li.map Prod.fst, li.map Prod.snd⟩ := by
      rw [hS]
      unfold list2padded
      simp only []
      rw [← hS, hli, hs0]
      simp only []
      rw [hsorted, hpad]
      simp only []
      rw [if_neg (by simp [hA0, hA1, hAt, nS]), hsizes, if_pos hsum]
    refine ⟨_, hres, ?_, ?_, ?_, ?_, ?_⟩
    · constructor
      · exact transpose_steps A
      · exact transpose_cols A
      · simp [Arr3.transpose, hA0, hlen]
      · exact hdesc
      · simpa [Arr3.transpose, hA1] using hle
      · simpa [Arr3.transpose, hA0] using hperm
      · simp [Arr3.transpose, hA1]
    · refine ⟨by simp [Arr3.transpose, hA0], ?_⟩
      intro b i hbi
      simp only [List.getElem?_map, Option.map_eq_some_iff] at hbi
      obtain ⟨p, hp, rfl⟩ := hbi
      have hpm := List.mem_of_getElem? hp
      have hb : b < seqs.length := by rw [← hlen]; exact (List.getElem?_eq_some_iff.1 hp).1
      rw [List.getElem?_map, (hf p hpm).1]
      simp only [Option.map_some, Option.some.injEq]
      unfold Spec.column
      have hpl : (li.map Prod.fst).getD b 0 = p.1 := by
        simp [List.getD_eq_getElem?_getD, List.getElem?_map, hp]
      have hp1 : p.1 ≤ nS := hle _ (List.mem_map.2 ⟨p, hpm, rfl⟩)
      have hfl : (f p).rows.length = p.1 := (hf p hpm).2
      simp only [hpl]
      apply List.ext_getElem
      · simp [hfl]
      · intro t h1 h2
        simp only [List.getElem_map, List.getElem_range]
        rw [transpose_cell A (by rw [hA0]; exact hb) (by rw [hA1]; omega),
          hcell b t hb (by omega) p hp]
        simp [h1]
    · intro _; exact hAt
    · intro t b ht hb hlt
      simp only [Arr3.transpose, hA1] at ht
      simp only [Arr3.transpose, hA0] at hb
      rw [transpose_cell A (by rw [hA0]; exact hb) (by rw [hA1]; omega)]
      have hbl : b < li.length := by omega
      have hp : li[b]? = some li[b] := by simp [hbl]
      have hfl : (f li[b]).rows.length = li[b].1 := (hf _ (List.getElem_mem hbl)).2
      rw [hcell b t hb ht li[b] hp]
      simp [List.getD_eq_getElem?_getD, hbl] at hlt
      rw [List.getElem?_eq_none (by omega)]
      rfl
    · simp only [Arr3.transpose, hA1]
      rcases foldl_max_mem (seqs.map Arr.len) 0 with h0 | h0
      · exact .inl h0
      · obtain ⟨s, hs, hsl⟩ := List.mem_map.1 h0
        exact .inr ⟨s, hs, hsl⟩

/-- **C29**: for every list of sequences of the same width (empty sequences and the empty list
included) `list2padded` succeeds, and `padded2list` of the result gives back the list in its
original order. -/
theorem C29_round_trip (seqs : List (Arr α)) (nO : Nat) (h : ∀ s ∈ seqs, s.tail = [nO]) :
    ∃ P, list2padded seqs = .ok P ∧ padded2list P = .ok (seqs.map some) := by
  obtain ⟨P, h1, h2, h3, h4, _⟩ := list2padded_spec seqs nO h
  refine ⟨P, h1, ?_⟩
  rw [padded2list_valid P h2 _ h3, List.map_map]
  congr 1
  apply List.map_congr_left
  intro s hs
  have : P.data.tail = s.tail := by
    rw [h4 (List.ne_nil_of_mem hs), h s hs]
  simp [this]

/-- **C29**: the padded batch is consistent.  Its lengths are sorted in decreasing order, its
indices are a permutation, `size_at_t[t]` is the number of sequences longer than `t`, the sums
agree, column `b` holds the sequence number `indices[b]`, every cell past the end of a sequence is
zero, and there are exactly as many time steps as the longest sequence has rows. -/
theorem C29_consistent (seqs : List (Arr α)) (nO : Nat) (h : ∀ s ∈ seqs, s.tail = [nO]) :
    ∃ P, list2padded seqs = .ok P ∧
      P.lengths.Pairwise (· ≥ ·) ∧
      P.indices.Perm (List.range seqs.length) ∧
      P.lengths = P.indices.map (fun i => ((seqs[i]?).map Arr.len).getD 0) ∧
      P.sizeAtT = (List.range P.data.d0).map (fun t => seqs.countP (fun s => t < s.len)) ∧
      P.lengths.sum = P.sizeAtT.sum ∧
      (∀ b i s, P.indices[b]? = some i → seqs[i]? = some s → ∀ t, t < P.data.d0 →
        P.data.cell t b = (s.rows[t]?).getD (List.replicate nO 0)) ∧
      (∀ s ∈ seqs, s.len ≤ P.data.d0) ∧ (P.data.d0 = 0 ∨ ∃ s ∈ seqs, s.len = P.data.d0) := by
  obtain ⟨P, h1, hv, hr, h4, hz, hmax⟩ := list2padded_spec seqs nO h
  have hd1 : P.data.d1 = seqs.length := by rw [← hr.1, List.length_map]
  have hil : P.indices.length = P.data.d1 := by simpa using hv.perm.length_eq
  have hcol : ∀ b i s, P.indices[b]? = some i → seqs[i]? = some s →
      s.rows = Spec.column P b ∧ P.lengths.getD b 0 = s.len := by
    intro b i s hbi his
    have := hr.2 b i hbi
    rw [List.getElem?_map, his] at this
    simp only [Option.map_some, Option.some.injEq] at this
    refine ⟨this, ?_⟩
    rw [Arr.len, this]; simp [Spec.column]
  have hlens : P.lengths = P.indices.map (fun i => ((seqs[i]?).map Arr.len).getD 0) := by
    apply List.ext_getElem
    · rw [hv.numLengths, List.length_map, hil]
    · intro b hb1 hb2
      have hbi : b < P.indices.length := by simpa using hb2
      have hmem : P.indices[b] ∈ List.range P.data.d1 :=
        hv.perm.mem_iff.1 (List.getElem_mem hbi)
      have hlt : P.indices[b] < seqs.length := by rw [← hd1]; exact List.mem_range.1 hmem
      have := (hcol b P.indices[b] seqs[P.indices[b]] (by simp [hbi]) (by simp [hlt])).2
      simp only [List.getD_eq_getElem?_getD, hb1, List.getElem?_eq_getElem, Option.getD_some] at this
      simp [this, hlt]
  have hpermLens : P.lengths.Perm (seqs.map Arr.len) := by
    rw [hlens]
    refine (hv.perm.map _).trans ?_
    rw [hd1]
    have : (List.range seqs.length).map (fun i => ((seqs[i]?).map Arr.len).getD 0) =
        seqs.map Arr.len := by
      apply List.ext_getElem
      · simp
      · intro i h1 h2
        simp only [List.length_map] at h2
        simp [h2]
    rw [this]
  refine ⟨P, h1, hv.sorted, ?_, hlens, ?_, ?_, ?_, ?_, hmax⟩
  · rw [← hd1]; exact hv.perm
  · rw [hv.sizes]
    apply List.map_congr_left
    intro t _
    rw [hpermLens.countP_eq, List.countP_map]
    rfl
  · rw [hv.sizes, sum_countP _ _ hv.fits]
  · intro b i s hbi his t ht
    obtain ⟨hc, hl⟩ := hcol b i s hbi his
    have hb : b < P.data.d1 := by rw [← hil]; exact (List.getElem?_eq_some_iff.1 hbi).1
    by_cases hts : t < s.rows.length
    · simp only [hc, Spec.column, List.getElem?_map]
      rw [List.getElem?_range (by rw [hl]; exact hts)]
      rfl
    · rw [List.getElem?_eq_none (by omega)]
      exact hz t b ht hb (by rw [hl]; unfold Arr.len; omega)
  · intro s hs
    exact hv.fits _ (hpermLens.mem_iff.2 (List.mem_map.2 ⟨s, hs, rfl⟩))

/-- Three sequences of lengths 1, 3, 0. -/
def exSeqs : List (Arr Nat) := [⟨[2], [[1, 2]]⟩, ⟨[2], [[3, 4], [5, 6], [7, 8]]⟩, ⟨[2], []⟩]

example : ∀ s ∈ exSeqs, s.tail = [2] := by decide

example : ∃ P, list2padded exSeqs = .ok P ∧ P.lengths = [3, 1, 0] ∧ P.indices = [1, 0, 2] ∧
    P.sizeAtT = [2, 1, 1] ∧ padded2list P = .ok (exSeqs.map some) := by
  refine ⟨⟨⟨3, 3, [2], [[[3, 4], [1, 2], [0, 0]], [[5, 6], [0, 0], [0, 0]],
    [[7, 8], [0, 0], [0, 0]]]⟩, _, _, _⟩, ?_, rfl, rfl, rfl, ?_⟩
  · decide +kernel
  · decide +kernel

omit [Zero α] in
/-- `padded2list` gives the sequences of any consistent padded batch, not only of those built by
`list2padded`. -/
theorem C29_padded2list_any (P : Padded α) (hv : Spec.ValidPadded P) (seqs : List (List (List α)))
    (hr : Spec.Represents P seqs) :
    padded2list P = .ok (seqs.map (fun s => some ⟨P.data.tail, s⟩)) :=
  padded2list_valid P hv seqs hr

end
end Thinc
