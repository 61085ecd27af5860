import Verif.Lemmas.Pad
import Verif.Spec.Padded
import Mathlib.Data.List.Nodup
/-! Helper lemmas for padded batches. -/
namespace Thinc
variable {α : Type}

/-! ### Sizes at each time step -/

theorem filter_gt_eq_take (t : Nat) (ls : List Nat) (h : ls.Pairwise (· ≥ ·)) :
    ls.filter (fun l => t < l) = ls.take (ls.countP (fun l => t < l)) := by
  induction ls with
  | nil => rfl
  | cons l ls ih =>
    obtain ⟨h1, h2⟩ := List.pairwise_cons.1 h
    by_cases hl : t < l
    · simp [hl, ih h2]
    · have hnone : ∀ x ∈ ls, ¬ t < x := fun x hx => by have := h1 x hx; omega
      have hf : ls.filter (fun l => t < l) = [] := by
        rw [List.filter_eq_nil_iff]; intro a ha; simpa using hnone a ha
      have hc : ls.countP (fun l => t < l) = 0 := by
        rw [List.countP_eq_zero]; intro a ha; simpa using hnone a ha
      simp [hl, hf, hc]

theorem shrinkSize_eq (ls : List Nat) (t : Nat) (h : ls.Pairwise (· ≥ ·)) :
    ∀ n, n ≤ ls.length → shrinkSize ls t n = (ls.take n).countP (fun l => t < l) := by
  intro n
  induction n with
  | zero => intro _; simp [shrinkSize]
  | succ n ih =>
    intro hn
    have hlt : n < ls.length := by omega
    have htake : ls.take (n + 1) = ls.take n ++ [ls[n]] := by
      rw [List.take_add_one]; simp [hlt]
    have hget : ls.getD n 0 = ls[n] := by simp [List.getD_eq_getElem?_getD, hlt]
    unfold shrinkSize
    rw [hget, htake, List.countP_append]
    split
    · rename_i hle
      rw [ih (by omega)]
      simp; omega
    · rename_i hle
      have hall : ∀ x ∈ ls.take n, t < x := by
        intro x hx
        obtain ⟨i, hi, rfl⟩ := List.mem_iff_getElem.1 hx
        simp only [List.length_take] at hi
        have := List.pairwise_iff_getElem.1 h i n (by omega) hlt (by omega)
        simp only [List.getElem_take]; omega
      rw [List.countP_eq_length.2 (by simpa using hall)]
      have hn' : t < ls[n] := by omega
      simp [hn', Nat.min_eq_left (Nat.le_of_lt hlt)]

theorem sizesAtT_eq (ls : List Nat) (h : ls.Pairwise (· ≥ ·)) :
    ∀ (ts : List Nat) (cur : Nat), ts.Pairwise (· < ·) → cur ≤ ls.length →
      (∀ t ∈ ts, (ls.take cur).countP (fun l => t < l) = ls.countP (fun l => t < l)) →
      sizesAtT ls ts cur = ts.map (fun t => ls.countP (fun l => t < l)) := by
  intro ts
  induction ts with
  | nil => intro cur _ _ _; rfl
  | cons t ts ih =>
    intro cur hts hcur hinv
    obtain ⟨h1, h2⟩ := List.pairwise_cons.1 hts
    have hs : shrinkSize ls t cur = ls.countP (fun l => t < l) := by
      rw [shrinkSize_eq ls t h cur hcur, hinv t (by simp)]
    simp only [sizesAtT, hs, List.map_cons]
    rw [ih _ h2 (List.countP_le_length)]
    intro t' ht'
    have hlt := h1 t' ht'
    rw [← filter_gt_eq_take t ls h, List.countP_filter]
    apply List.countP_congr
    intro x _
    simp; omega

theorem sum_map_lt_range (l n : Nat) (h : l ≤ n) :
    ((List.range n).map (fun t => if t < l then 1 else 0)).sum = l := by
  induction n with
  | zero => simp; omega
  | succ n ih =>
    rw [List.range_succ, List.map_append, List.sum_append]
    rcases Nat.lt_or_ge l (n + 1) with hl | hl
    · rw [ih (by omega)]; simp; omega
    · have hl : l = n + 1 := by omega
      subst hl
      have hc : (List.range n).map (fun t => if t < n + 1 then 1 else 0) =
          (List.range n).map (fun _ => 1) := by
        apply List.map_congr_left
        intro t ht; rw [if_pos (by have := List.mem_range.1 ht; omega)]
      rw [hc]; simp

theorem sum_countP (ls : List Nat) (n : Nat) (h : ∀ l ∈ ls, l ≤ n) :
    ((List.range n).map (fun t => ls.countP (fun l => t < l))).sum = ls.sum := by
  induction ls with
  | nil => simp
  | cons l ls ih =>
    have h1 : ((List.range n).map (fun t => (l :: ls).countP (fun l => t < l))) =
        (List.range n).map (fun t => ls.countP (fun l => t < l) + if t < l then 1 else 0) := by
      apply List.map_congr_left
      intro t _
      rw [List.countP_cons]; simp
    rw [h1, List.sum_map_add, ih (fun x hx => h x (by simp [hx])),
      sum_map_lt_range l n (h l (by simp))]
    simp; omega

/-! ### Transposition -/

theorem cell_eq (x : Arr3 α) {i j : Nat} (hi : i < x.data.length) (hj : j < x.data[i].length) :
    x.cell i j = x.data[i][j] := by
  simp [Arr3.cell, List.getD_eq_getElem?_getD, hi, hj]

theorem transpose_cell (x : Arr3 α) {i j : Nat} (hi : i < x.d0) (hj : j < x.d1) :
    x.transpose.cell j i = x.cell i j := by
  simp [Arr3.transpose, Arr3.cell, List.getD_eq_getElem?_getD, hi, hj]

theorem transpose_transpose (x : Arr3 α) (h0 : x.data.length = x.d0)
    (h1 : ∀ r ∈ x.data, r.length = x.d1) : x.transpose.transpose = x := by
  rcases x with ⟨d0, d1, tail, data⟩
  simp only at h0 h1
  unfold Arr3.transpose
  simp only [Arr3.mk.injEq, true_and]
  apply List.ext_getElem
  · simp [h0]
  · intro i h₁ h₂
    simp only [List.getElem_map, List.getElem_range]
    have hr : data[i].length = d1 := h1 _ (List.getElem_mem h₂)
    apply List.ext_getElem
    · simp [hr]
    · intro j h₃ h₄
      simp only [List.getElem_map, List.getElem_range]
      have hj : j < d1 := by omega
      simp only [Arr3.cell, List.getD_eq_getElem?_getD, List.getElem?_map]
      rw [List.getElem?_range hj]
      simp only [Option.map_some, Option.getD_some, List.getElem?_map]
      rw [List.getElem?_range (by omega)]
      simp [h₂, h₄]

theorem transpose_steps (x : Arr3 α) : x.transpose.data.length = x.transpose.d0 := by
  simp [Arr3.transpose]

theorem transpose_cols (x : Arr3 α) : ∀ r ∈ x.transpose.data, r.length = x.transpose.d1 := by
  intro r hr
  simp only [Arr3.transpose, List.mem_map] at hr
  obtain ⟨j, _, rfl⟩ := hr
  simp [Arr3.transpose]

/-! ### padded2list -/

theorem unpadLoop (data : Arr3 α) (indices lengths : List Nat) (hnd : indices.Nodup) :
    ∀ (is : List Nat) (out : List (Option (Arr α))), is.Nodup →
      (∀ i ∈ is, i < indices.length ∧ i < lengths.length) →
      (∀ j ∈ indices, j < out.length) →
      ∃ out', forM' is out (unpadAssign data indices lengths) = .ok out' ∧
        out'.length = out.length ∧
        (∀ i ∈ is, ∀ j n, indices[i]? = some j → lengths[i]? = some n →
          out'[j]? = some (some (data.rowTake i n))) ∧
        (∀ j, (∀ i ∈ is, indices[i]? ≠ some j) → out'[j]? = out[j]?) := by
  intro is
  induction is with
  | nil => intro out _ _ _; exact ⟨out, rfl, rfl, by simp, by simp⟩
  | cons i is ih =>
    intro out hnd' hb hout
    obtain ⟨hni, hnd'⟩ := List.nodup_cons.1 hnd'
    obtain ⟨hi1, hi2⟩ := hb i (by simp)
    have hj : indices[i]? = some indices[i] := by simp [hi1]
    have hn : lengths[i]? = some lengths[i] := by simp [hi2]
    have hjlt : indices[i] < out.length := hout _ (List.getElem_mem hi1)
    obtain ⟨out', h1, h2, h3, h4⟩ := ih (out.set indices[i] (some (data.rowTake i lengths[i])))
      hnd' (fun k hk => hb k (by simp [hk])) (by simpa using hout)
    refine ⟨out', ?_, ?_, ?_, ?_⟩
    · simp only [forM', unpadAssign, hj, hn, if_pos hjlt]
      exact h1
    · simpa using h2
    · intro k hk j n hkj hkn
      rcases List.mem_cons.1 hk with rfl | hk
      · rw [hj] at hkj; rw [hn] at hkn
        cases hkj; cases hkn
        rw [h4]
        · simp [hjlt]
        · intro k' hk' heq
          have hk'1 := (hb k' (by simp [hk'])).1
          have : indices[k'] = indices[k] := by simpa [hk'1] using heq
          have := (List.Nodup.getElem_inj_iff hnd).1 this
          subst this
          exact hni hk'
      · exact h3 k hk j n hkj hkn
    · intro j hjn
      rw [h4 j (fun k hk => hjn k (by simp [hk]))]
      rw [List.getElem?_set_ne]
      intro heq
      exact hjn i (by simp) (by rw [hj, heq])

theorem rowTake_transpose (P : Padded α) (hv : Spec.ValidPadded P) {b : Nat}
    (hb : b < P.lengths.length) :
    P.data.transpose.rowTake b P.lengths[b] = ⟨P.data.tail, Spec.column P b⟩ := by
  have hfit := hv.fits _ (List.getElem_mem hb)
  have hb1 : b < P.data.d1 := by rw [← hv.numLengths]; exact hb
  simp only [Arr3.rowTake, Arr3.transpose, Spec.column]
  congr 1
  simp only [List.getD_eq_getElem?_getD, List.getElem?_map]
  rw [List.getElem?_range hb1]
  simp only [Option.map_some, Option.getD_some, hb, List.getElem?_eq_getElem, ← List.map_take,
    List.take_range, Nat.min_eq_left hfit]

theorem padded2list_valid (P : Padded α) (hv : Spec.ValidPadded P) (seqs : List (List (List α)))
    (hr : Spec.Represents P seqs) :
    padded2list P = .ok (seqs.map (fun s => some ⟨P.data.tail, s⟩)) := by
  have hil : P.indices.length = P.data.d1 := by simpa using hv.perm.length_eq
  have hnd : P.indices.Nodup := hv.perm.nodup_iff.2 List.nodup_range
  obtain ⟨out, h1, h2, h3, h4⟩ := unpadLoop P.data.transpose P.indices P.lengths hnd
    (List.range P.data.d1) (List.replicate P.lengths.length none) List.nodup_range
    (by intro i hi; rw [hil, hv.numLengths]; exact ⟨List.mem_range.1 hi, List.mem_range.1 hi⟩)
    (by
      intro j hj
      have := hv.perm.mem_iff.1 hj
      simpa [hv.numLengths] using this)
  have : padded2list P = .ok out := h1
  rw [this]
  congr 1
  apply List.ext_getElem?
  intro j
  by_cases hj : j < P.data.d1
  · have hmem : j ∈ P.indices := hv.perm.mem_iff.2 (List.mem_range.2 hj)
    obtain ⟨b, hb, hbj⟩ := List.mem_iff_getElem.1 hmem
    have hb' : b < P.data.d1 := by omega
    have hbl : b < P.lengths.length := by rw [hv.numLengths]; exact hb'
    rw [h3 b (List.mem_range.2 hb') j P.lengths[b] (by simp [hb, hbj]) (by simp [hbl]),
      rowTake_transpose P hv hbl, List.getElem?_map, hr.2 b j (by simp [hb, hbj])]
    rfl
  · rw [List.getElem?_eq_none (by rw [h2]; simp [hv.numLengths]; omega),
      List.getElem?_eq_none (by rw [List.length_map, hr.1]; omega)]

/-! ### list2padded -/

theorem foldl_max_perm {a b : List Nat} (h : a.Perm b) : a.foldl max 0 = b.foldl max 0 := by
  have key : ∀ a b : List Nat, a.Perm b → a.foldl max 0 ≤ b.foldl max 0 := by
    intro a b h
    rcases foldl_max_mem a 0 with h0 | h0
    · omega
    · exact le_foldl_max b 0 _ (h.mem_iff.1 h0)
  exact Nat.le_antisymm (key a b h) (key b a h.symm)

theorem geTuple_trans (a b c : Nat × Nat) (h1 : geTuple a b = true) (h2 : geTuple b c = true) :
    geTuple a c = true := by
  simp only [geTuple, Bool.or_eq_true, Bool.and_eq_true, decide_eq_true_eq] at *
  omega

theorem geTuple_total (a b : Nat × Nat) : (geTuple a b || geTuple b a) = true := by
  simp only [geTuple, Bool.or_eq_true, Bool.and_eq_true, decide_eq_true_eq]
  omega

theorem insertDesc_perm (a : Nat × Nat) (l : List (Nat × Nat)) : (insertDesc a l).Perm (a :: l) := by
  induction l with
  | nil => exact List.Perm.refl _
  | cons b l ih =>
    unfold insertDesc
    split
    · exact List.Perm.refl _
    · exact (ih.cons b).trans (List.Perm.swap a b l)

theorem sortDesc_perm (l : List (Nat × Nat)) : (sortDesc l).Perm l := by
  induction l with
  | nil => exact List.Perm.refl _
  | cons a l ih => exact (insertDesc_perm a _).trans (ih.cons a)

theorem insertDesc_sorted (a : Nat × Nat) (l : List (Nat × Nat))
    (h : l.Pairwise (fun a b => geTuple a b = true)) :
    (insertDesc a l).Pairwise (fun a b => geTuple a b = true) := by
  induction l with
  | nil => simp [insertDesc]
  | cons b l ih =>
    obtain ⟨h1, h2⟩ := List.pairwise_cons.1 h
    unfold insertDesc
    split
    · rename_i hab
      refine List.pairwise_cons.2 ⟨?_, h⟩
      intro c hc
      rcases List.mem_cons.1 hc with rfl | hc
      · exact hab
      · exact geTuple_trans _ _ _ hab (h1 c hc)
    · rename_i hab
      refine List.pairwise_cons.2 ⟨?_, ih h2⟩
      intro c hc
      rcases List.mem_cons.1 ((insertDesc_perm a l).mem_iff.1 hc) with rfl | hc
      · have := geTuple_total c b
        simpa [hab] using this
      · exact h1 c hc

theorem sortDesc_sorted (l : List (Nat × Nat)) :
    (sortDesc l).Pairwise (fun a b => geTuple a b = true) := by
  induction l with
  | nil => exact List.Pairwise.nil
  | cons a l ih => exact insertDesc_sorted a _ ih

end Thinc
