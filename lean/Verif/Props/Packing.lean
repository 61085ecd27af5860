import Verif.Lemmas.Padded
import Verif.Model.Ragged
import Verif.Props.Padded
/-!
# C31: packing a padded batch for the LSTM
-/
namespace Thinc
variable {α : Type}

/-- For lengths in decreasing order, the columns still active at time `t` are the first
`size_at_t[t]` ones. -/
theorem lt_countP_iff (ls : List Nat) (h : ls.Pairwise (· ≥ ·)) (t b : Nat) :
    b < ls.countP (fun l => t < l) ↔ t < ls.getD b 0 := by
  have hft := filter_gt_eq_take t ls h
  constructor
  · intro hb
    have hbl : b < ls.length := Nat.lt_of_lt_of_le hb List.countP_le_length
    have hb' : b < (ls.take (ls.countP (fun l => t < l))).length := by
      rw [List.length_take]; omega
    have : (ls.take (ls.countP (fun l => t < l)))[b] ∈ ls.filter (fun l => t < l) := by
      rw [hft]; exact List.getElem_mem hb'
    have := (List.mem_filter.1 this).2
    simpa [List.getElem_take, List.getD_eq_getElem?_getD, hbl] using this
  · intro ht
    by_contra hb
    have hbl : b < ls.length := by
      by_contra hge
      simp [List.getD_eq_getElem?_getD, List.getElem?_eq_none (Nat.le_of_not_lt hge)] at ht
    have hall : ∀ i, (hi : i < ls.length) → i ≤ b → t < ls[i] := by
      intro i hi hib
      have h0 : t < ls[b] := by simpa [List.getD_eq_getElem?_getD, hbl] using ht
      rcases Nat.lt_or_ge i b with hlt | hge
      · have := List.pairwise_iff_getElem.1 h i b hi hbl hlt
        omega
      · have : i = b := by omega
        subst this; exact h0
    have hcount : (ls.take (b + 1)).countP (fun l => t < l) = (ls.take (b + 1)).length := by
      rw [List.countP_eq_length]
      intro a ha
      obtain ⟨i, hi, rfl⟩ := List.mem_iff_getElem.1 ha
      simp only [List.length_take] at hi
      simp only [List.getElem_take, decide_eq_true_eq]
      exact hall i (by omega) (by omega)
    have hsub : (ls.take (b + 1)).countP (fun l => t < l) ≤ ls.countP (fun l => t < l) :=
      (List.take_sublist _ _).countP_le
    rw [hcount, List.length_take] at hsub
    omega

theorem assignRows_exact {β : Type} (dst : List β) (a n : Nat) (src : List β)
    (h : src.length = n) (hd : a + n ≤ dst.length) :
    assignRows dst a n src = .ok (dst.take a ++ src ++ dst.drop (a + n)) := by
  unfold assignRows
  have : min (a + n) dst.length - a = n := by omega
  simp only [this, if_pos h]

theorem mem_le_sum_zero (l : List Nat) (h : l.sum = 0) : ∀ x ∈ l, x = 0 := by
  induction l with
  | nil => simp
  | cons a l ih =>
    simp only [List.sum_cons] at h
    intro x hx
    rcases List.mem_cons.1 hx with rfl | hx
    · omega
    · exact ih (by omega) x hx

theorem make_rows (x : Arr α) (ls : List Nat) (hw : x.tail.prod ≠ 0) :
    (Ragged.make x ls).data.rows = x.rows := by
  unfold Ragged.make
  by_cases h : x.size ≠ 0
  · rw [if_pos h]
  · rw [if_neg h]
    have : x.rows.length = 0 := by
      by_contra hne
      exact h (Nat.mul_ne_zero hne hw)
    exact (List.length_eq_zero_iff.1 this).symm

theorem make_tail (x : Arr α) (ls : List Nat) (hw : x.tail.prod ≠ 0) (hr : x.rows ≠ []) :
    (Ragged.make x ls).data.tail = [x.tail.prod] := by
  unfold Ragged.make
  have : x.size ≠ 0 := Nat.mul_ne_zero (by unfold Arr.len; simpa using hr) hw
  rw [if_pos this]

section
variable [Zero α]

omit [Zero α] in
theorem packLoop (P : Padded α) (z : List α) (hsteps : P.data.data.length = P.sizeAtT.length)
    (hbs : ∀ (t : Nat) (r : List (List α)) (n : Nat), P.data.data[t]? = some r →
      P.sizeAtT[t]? = some n → n ≤ r.length) :
    ∀ (k n : Nat) (done : List (List α)), k + n = P.sizeAtT.length →
      forM' (List.range' k n)
        (done.length, done ++ List.replicate ((P.sizeAtT.drop k).sum) z) (packStep P) =
      .ok (done.length + (P.sizeAtT.drop k).sum, done ++ (List.range' k n).flatMap (fun t =>
        (P.data.data.getD t []).take (P.sizeAtT.getD t 0))) := by
  intro k n
  induction n generalizing k with
  | zero =>
    intro done hk
    have : P.sizeAtT.drop k = [] := List.drop_eq_nil_of_le (by omega)
    simp [forM', this]
  | succ n ih =>
    intro done hk
    have hk1 : k < P.sizeAtT.length := by omega
    have hk2 : k < P.data.data.length := by omega
    have hs : P.sizeAtT[k]? = some P.sizeAtT[k] := by simp [hk1]
    have hr : P.data.data[k]? = some P.data.data[k] := by simp [hk2]
    have hle := hbs k _ _ hr hs
    have hdrop : (P.sizeAtT.drop k).sum = P.sizeAtT[k] + (P.sizeAtT.drop (k + 1)).sum := by
      rw [List.drop_eq_getElem_cons hk1, List.sum_cons]
    have hstep : packStep P (done.length, done ++ List.replicate ((P.sizeAtT.drop k).sum) z) k =
        .ok (done.length + P.sizeAtT[k], done ++ (P.data.data[k].take P.sizeAtT[k] ++
          List.replicate ((P.sizeAtT.drop (k + 1)).sum) z)) := by
      unfold packStep
      simp only [hs, hr]
      rw [assignRows_exact _ _ _ _ (by rw [List.length_take]; omega)
        (by rw [List.length_append, List.length_replicate, hdrop]; omega)]
      simp [List.drop_append, hdrop]
    have := ih (k + 1) (done ++ P.data.data[k].take P.sizeAtT[k]) (by omega)
    rw [List.length_append, List.length_take, Nat.min_eq_left hle, List.append_assoc] at this
    rw [List.range'_succ]
    simp only [forM', hstep, this]
    simp [hk1, hk2, hdrop, Nat.add_assoc]

omit [Zero α] in
theorem unpackLoop (X : List (List α)) (sizes : List Nat) (z : List α) (d1 : Nat)
    (hle : ∀ s ∈ sizes, s ≤ d1) :
    ∀ (k n : Nat) (done : List (List (List α))) (pre : List (List α))
      (segs : List (List (List α))),
      k + n = sizes.length → done.length = k → segs.map List.length = sizes.drop k →
      X = pre ++ segs.flatten →
      ∃ e, forM' (List.range' k n) (pre.length, done ++ List.replicate n (List.replicate d1 z))
        (unpackStep X sizes) =
      .ok (e, done ++ segs.map (fun s => s ++ List.replicate (d1 - s.length) z)) := by
  intro k n
  induction n generalizing k with
  | zero =>
    intro done pre segs hk hd hsegs hX
    have : sizes.drop k = [] := List.drop_eq_nil_of_le (by omega)
    rw [this, List.map_eq_nil_iff] at hsegs
    exact ⟨pre.length, by simp [forM', hsegs]⟩
  | succ n ih =>
    intro done pre segs hk hd hsegs hX
    have hk1 : k < sizes.length := by omega
    rw [List.drop_eq_getElem_cons hk1] at hsegs
    cases segs with
    | nil => simp at hsegs; omega
    | cons s segs =>
      simp only [List.map_cons, List.cons.injEq] at hsegs
      obtain ⟨hs, hsegs⟩ := hsegs
      have hsz : sizes[k]? = some sizes[k] := by simp [hk1]
      have hsd : s.length ≤ d1 := by rw [hs]; exact hle _ (List.getElem_mem hk1)
      have hrow : (done ++ List.replicate (n + 1) (List.replicate d1 z))[k]? =
          some (List.replicate d1 z) := by
        rw [List.getElem?_append_right (by omega)]; simp [hd]
      have hsrc : (X.take (pre.length + sizes[k])).drop pre.length = s := by
        rw [hX, ← hs]; simp [List.take_append]
      have hstep : unpackStep X sizes
          (pre.length, done ++ List.replicate (n + 1) (List.replicate d1 z)) k =
          .ok (pre.length + sizes[k], done ++ ((s ++ List.replicate (d1 - s.length) z) ::
            List.replicate n (List.replicate d1 z))) := by
        unfold unpackStep
        simp only [hsz, hrow, hsrc]
        rw [← hs, assignRows_prefix d1 z s hsd]
        simp only []
        rw [List.set_append_right _ _ (by omega)]
        simp [hd, List.replicate_succ]
      obtain ⟨e, he⟩ := ih (k + 1) (done ++ [s ++ List.replicate (d1 - s.length) z])
        (pre ++ s) segs (by omega) (by simp [hd]) hsegs (by simp [hX])
      refine ⟨e, ?_⟩
      rw [List.range'_succ]
      simp only [forM', hstep]
      rw [List.length_append] at he
      simp only [List.append_assoc, List.singleton_append] at he
      rw [← hs, he]
      simp

/-- The rows of the packed form of a padded batch: for each time step, the cells of the columns
whose sequence is longer than that step. -/
def Spec.packedRows (P : Padded α) : List (List α) :=
  (List.range P.data.d0).flatMap (fun t =>
    ((List.range P.data.d1).filter (fun b => t < P.lengths.getD b 0)).map (fun b => P.data.cell t b))

omit [Zero α] in
theorem active_take (P : Padded α) (hv : Spec.ValidPadded P) (t : Nat) (ht : t < P.data.d0) :
    (P.data.data.getD t []).take (P.sizeAtT.getD t 0) =
      ((List.range P.data.d1).filter (fun b => t < P.lengths.getD b 0)).map
        (fun b => P.data.cell t b) := by
  have hd : t < P.data.data.length := by rw [hv.steps]; exact ht
  have hrow : P.data.data[t].length = P.data.d1 := hv.cols _ (List.getElem_mem hd)
  have hsz : P.sizeAtT.getD t 0 = P.lengths.countP (fun l => t < l) := by
    rw [hv.sizes]; simp [List.getD_eq_getElem?_getD, ht]
  have hk : P.lengths.countP (fun l => t < l) ≤ P.data.d1 := by
    rw [← hv.numLengths]; exact List.countP_le_length
  have hfil : (List.range P.data.d1).filter (fun b => t < P.lengths.getD b 0) =
      List.range (P.lengths.countP (fun l => t < l)) := by
    have : (fun b => decide (t < P.lengths.getD b 0)) =
        (fun b => decide (b < P.lengths.countP (fun l => t < l))) := by
      funext b
      rw [decide_eq_decide]
      exact (lt_countP_iff _ hv.sorted t b).symm
    rw [this]
    generalize P.lengths.countP (fun l => t < l) = k at hk
    have : List.range P.data.d1 = List.range k ++ (List.range (P.data.d1 - k)).map (k + ·) := by
      rw [← List.range_add]; congr 1; omega
    rw [this, List.filter_append]
    have h1 : (List.range k).filter (fun b => decide (b < k)) = List.range k := by
      rw [List.filter_eq_self]; intro a ha; simpa using ha
    have h2 : ((List.range (P.data.d1 - k)).map (k + ·)).filter (fun b => decide (b < k)) = [] := by
      rw [List.filter_eq_nil_iff]; intro a ha
      obtain ⟨c, _, rfl⟩ := List.mem_map.1 ha
      simp
    rw [h1, h2, List.append_nil]
  rw [hfil, hsz]
  have hgd : P.data.data.getD t [] = P.data.data[t] := by
    simp [List.getD_eq_getElem?_getD, hd]
  rw [hgd]
  apply List.ext_getElem
  · simp [hrow, Nat.min_eq_left hk]
  · intro b h1 h2
    simp only [List.length_take] at h1
    simp only [List.getElem_take, List.getElem_map, List.getElem_range]
    rw [cell_eq P.data hd (by omega)]

/-- **C31**: for every consistent padded batch of width `nO > 0`, packing succeeds and lists, for
each time step in turn, exactly the rows of the sequences that are still active; its lengths are the
batch sizes per step. -/
theorem C31_pack (P : Padded α) (hv : Spec.ValidPadded P) (hw : P.data.tail.prod ≠ 0) :
    ∃ R, paddedToPacked P = .ok R ∧ R.data.rows = Spec.packedRows P ∧ R.lengths = P.sizeAtT ∧
      (R.data.rows ≠ [] → R.data.tail = [P.data.tail.prod]) := by
  have hsum : P.lengths.sum = P.sizeAtT.sum := by
    rw [hv.sizes, sum_countP _ _ hv.fits]
  have hlen : P.sizeAtT.length = P.data.d0 := by rw [hv.sizes]; simp
  have hloop := packLoop P (List.replicate P.data.tail.prod 0) (by rw [hv.steps, hlen])
    (by
      intro t r n hr hn
      have h1 := hv.cols r (List.mem_of_getElem? hr)
      have h2 : n ∈ P.sizeAtT := List.mem_of_getElem? hn
      rw [hv.sizes] at h2
      obtain ⟨t', _, rfl⟩ := List.mem_map.1 h2
      rw [h1, ← hv.numLengths]
      exact List.countP_le_length) 0 P.sizeAtT.length [] (by omega)
  simp only [List.length_nil, List.nil_append, List.drop_zero, Nat.zero_add] at hloop
  rw [← List.range_eq_range'] at hloop
  have hrows : (List.range P.sizeAtT.length).flatMap (fun t =>
      (P.data.data.getD t []).take (P.sizeAtT.getD t 0)) = Spec.packedRows P := by
    unfold Spec.packedRows
    rw [hlen]
    simp only [List.flatMap_def]
    congr 1
    apply List.map_congr_left
    intro t ht
    exact active_take P hv t (List.mem_range.1 ht)
  rw [hrows] at hloop
  refine ⟨Ragged.make ⟨P.data.tail, Spec.packedRows P⟩ P.sizeAtT, ?_, ?_, rfl, ?_⟩
  · unfold paddedToPacked
    rw [if_neg (by simpa using hsum)]
    simp only [Arr.zeros]
    rw [hsum, hloop]
  · exact make_rows _ _ hw
  · intro h0
    exact make_tail _ _ hw (by rwa [make_rows _ _ hw] at h0)

/-- **C31**: unpacking the packed rows gives back the batch: the same sizes, lengths and indices, and
every cell equal to the original one inside a sequence and zero in the padding. -/
theorem C31_unpack_pack (P : Padded α) (hv : Spec.ValidPadded P) (hw : P.data.tail.prod ≠ 0)
    (hne : P.lengths.sum ≠ 0) :
    ∃ R P', paddedToPacked P = .ok R ∧ packedToPadded R P = .ok P' ∧
      P'.sizeAtT = P.sizeAtT ∧ P'.lengths = P.lengths ∧ P'.indices = P.indices ∧
      P'.data.d0 = P.data.d0 ∧ P'.data.d1 = P.data.d1 ∧ P'.data.tail = [P.data.tail.prod] ∧
      Spec.ValidPadded P' ∧
      ∀ t b, t < P.data.d0 → b < P.data.d1 → P'.data.cell t b =
        if t < P.lengths.getD b 0 then P.data.cell t b else List.replicate P.data.tail.prod 0 := by
  obtain ⟨R, hR, hrows, hRl, hRt⟩ := C31_pack P hv hw
  have hlen : P.sizeAtT.length = P.data.d0 := by rw [hv.sizes]; simp
  let segs : List (List (List α)) := (List.range P.data.d0).map (fun t =>
    (P.data.data.getD t []).take (P.sizeAtT.getD t 0))
  have hsz : ∀ t, t < P.data.d0 → P.sizeAtT.getD t 0 = P.lengths.countP (fun l => t < l) := by
    intro t ht; rw [hv.sizes]; simp [List.getD_eq_getElem?_getD, ht]
  have hsegs : segs.map List.length = P.sizeAtT.drop 0 := by
    rw [List.drop_zero, List.map_map]
    apply List.ext_getElem
    · simp [hlen]
    · intro t h1 h2
      simp only [List.length_map, List.length_range] at h1
      have hd : t < P.data.data.length := by rw [hv.steps]; exact h1
      have hrow : P.data.data[t].length = P.data.d1 := hv.cols _ (List.getElem_mem hd)
      have hk : P.lengths.countP (fun l => t < l) ≤ P.data.d1 := by
        rw [← hv.numLengths]; exact List.countP_le_length
      have h3 := hsz t h1
      simp only [List.getD_eq_getElem?_getD, List.getElem?_eq_getElem h2, Option.getD_some] at h3
      simp [hd, hrow, h2, h3, Nat.min_eq_left hk]
  have hflat : R.data.rows = [] ++ segs.flatten := by
    rw [hrows, List.nil_append]
    unfold Spec.packedRows
    rw [List.flatMap_def]
    congr 1
    apply List.map_congr_left
    intro t ht
    exact (active_take P hv t (List.mem_range.1 ht)).symm
  have hRne : R.data.rows ≠ [] := by
    intro h0
    have hl := congrArg List.length hflat
    rw [h0, List.nil_append, List.length_flatten, hsegs, List.drop_zero] at hl
    apply hne
    rw [← sum_countP P.lengths P.data.d0 hv.fits, ← hv.sizes]
    simpa using hl.symm
  have htail := hRt hRne
  obtain ⟨e, he⟩ := unpackLoop R.data.rows P.sizeAtT (List.replicate P.data.tail.prod 0) P.data.d1
    (by
      intro s hs
      rw [hv.sizes] at hs
      obtain ⟨t, _, rfl⟩ := List.mem_map.1 hs
      rw [← hv.numLengths]; exact List.countP_le_length) 0 P.sizeAtT.length [] [] segs (by omega) rfl
    hsegs hflat
  simp only [List.length_nil, List.nil_append] at he
  rw [← List.range_eq_range'] at he
  have hP' : packedToPadded R P = .ok ⟨⟨P.data.d0, P.data.d1, [P.data.tail.prod],
      segs.map (fun s => s ++ List.replicate (P.data.d1 - s.length)
        (List.replicate P.data.tail.prod 0))⟩, P.sizeAtT, P.lengths, P.indices⟩ := by
    unfold packedToPadded
    simp only [Arr3.zeros, htail, List.prod_singleton]
    rw [← hlen, he]
  refine ⟨R, _, hR, hP', rfl, rfl, rfl, rfl, rfl, rfl, ?_, ?_⟩
  · refine ⟨?_, ?_, hv.numLengths, hv.sorted, hv.fits, hv.perm, hv.sizes⟩
    · simp [segs]
    · intro r hr
      obtain ⟨s, hs, rfl⟩ := List.mem_map.1 hr
      have : s.length ∈ P.sizeAtT := by
        rw [← List.drop_zero (l := P.sizeAtT), ← hsegs]
        exact List.mem_map.2 ⟨s, hs, rfl⟩
      rw [hv.sizes] at this
      obtain ⟨t, _, ht⟩ := List.mem_map.1 this
      have hk : P.lengths.countP (fun l => t < l) ≤ P.data.d1 := by
        rw [← hv.numLengths]; exact List.countP_le_length
      rw [List.length_append, List.length_replicate]
      simp only []
      omega
  · intro t b ht hb
    have hd : t < P.data.data.length := by rw [hv.steps]; exact ht
    have hrow : P.data.data[t].length = P.data.d1 := hv.cols _ (List.getElem_mem hd)
    have hk : P.lengths.countP (fun l => t < l) ≤ P.data.d1 := by
      rw [← hv.numLengths]; exact List.countP_le_length
    have hiff := lt_countP_iff P.lengths hv.sorted t b
    have hseg : segs[t]? = some (P.data.data[t].take (P.lengths.countP (fun l => t < l))) := by
      simp only [segs, List.getElem?_map]
      rw [List.getElem?_range ht]
      simp only [Option.map_some, Option.some.injEq]
      rw [hsz t ht]
      simp [List.getD_eq_getElem?_getD, hd]
    simp only [Arr3.cell, List.getD_eq_getElem?_getD, List.getElem?_map] at hiff ⊢
    simp only [hseg, Option.map_some, Option.getD_some]
    by_cases hbt : b < P.lengths.countP (fun l => t < l)
    · rw [if_pos (hiff.1 hbt), List.getElem?_append_left (by rw [List.length_take]; omega)]
      simp [hbt, hd]
    · rw [if_neg (fun hc => hbt (hiff.2 hc)),
        List.getElem?_append_right (by rw [List.length_take]; omega), List.getElem?_replicate,
        if_pos (by rw [List.length_take]; omega)]
      rfl

/-- Packing and unpacking a batch made by `list2padded` gives exactly that batch. -/
theorem C31_round_trip (seqs : List (Arr α)) (nO : Nat) (h : ∀ s ∈ seqs, s.tail = [nO])
    (hw : nO ≠ 0) (hne : ∃ s ∈ seqs, s.rows ≠ []) :
    ∃ P R, list2padded seqs = .ok P ∧ paddedToPacked P = .ok R ∧ packedToPadded R P = .ok P := by
  obtain ⟨P, h1, hv, hr, ht, hz, _⟩ := list2padded_spec seqs nO h
  obtain ⟨s, hs, hsne⟩ := hne
  have hPt : P.data.tail = [nO] := ht (List.ne_nil_of_mem hs)
  have hsum : P.lengths.sum ≠ 0 := by
    obtain ⟨i, hi, his⟩ := List.mem_iff_getElem.1 hs
    have hid : i ∈ P.indices := by
      rw [hv.perm.mem_iff, ← hr.1, List.length_map]; exact List.mem_range.2 hi
    obtain ⟨b, hb, hbi⟩ := List.mem_iff_getElem.1 hid
    have hc := hr.2 b i (by simp [hb, hbi])
    rw [List.getElem?_map, List.getElem?_eq_getElem hi, his] at hc
    simp only [Option.map_some, Option.some.injEq] at hc
    have hl : s.rows.length = P.lengths.getD b 0 := by rw [hc]; simp [Spec.column]
    have hbl : b < P.lengths.length := by
      have := hv.perm.length_eq
      rw [List.length_range] at this
      rw [hv.numLengths]; omega
    intro h0
    have : P.lengths[b] = 0 := mem_le_sum_zero _ h0 _ (List.getElem_mem hbl)
    simp [List.getD_eq_getElem?_getD, hbl, this] at hl
    exact hsne hl
  obtain ⟨R, P', h2, h3, e1, e2, e3, e4, e5, e6, hv', hcell⟩ :=
    C31_unpack_pack P hv (by simpa [hPt] using hw) hsum
  refine ⟨P, R, h1, h2, ?_⟩
  rw [h3]
  congr 1
  have htl : P'.data.tail = P.data.tail := by rw [e6, hPt]; simp
  have hdata : P'.data.data = P.data.data := by
    apply List.ext_getElem
    · rw [hv'.steps, hv.steps, e4]
    · intro t ht1 ht2
      have htd : t < P.data.d0 := by rw [← hv.steps]; exact ht2
      have hl1 : P'.data.data[t].length = P.data.d1 := by
        rw [← e5]; exact hv'.cols _ (List.getElem_mem ht1)
      have hl2 : P.data.data[t].length = P.data.d1 := hv.cols _ (List.getElem_mem ht2)
      apply List.ext_getElem
      · rw [hl1, hl2]
      · intro b hb1 hb2
        rw [← cell_eq P'.data ht1 hb1, ← cell_eq P.data ht2 hb2, hcell t b htd (by omega)]
        split
        · rfl
        · rename_i hlt
          rw [hz t b htd (by omega) (by omega), hPt]; simp
  rcases P' with ⟨⟨a0, a1, a2, a3⟩, a4, a5, a6⟩
  rcases P with ⟨⟨b0, b1, b2, b3⟩, b4, b5, b6⟩
  simp only at e1 e2 e3 e4 e5 htl hdata
  subst e1 e2 e3 e4 e5 htl hdata
  rfl

example : ∃ P R, list2padded exSeqs = .ok P ∧ paddedToPacked P = .ok R ∧
    packedToPadded R P = .ok P :=
  C31_round_trip exSeqs 2 (by decide) (by decide) ⟨⟨[2], [[1, 2]]⟩, by decide, by decide⟩

example : ∃ P R, list2padded exSeqs = .ok P ∧ paddedToPacked P = .ok R ∧
    R.data.rows = [[3, 4], [1, 2], [5, 6], [7, 8]] ∧ R.lengths = [2, 1, 1] := by
  refine ⟨⟨⟨3, 3, [2], [[[3, 4], [1, 2], [0, 0]], [[5, 6], [0, 0], [0, 0]],
    [[7, 8], [0, 0], [0, 0]]]⟩, [2, 1, 1], [3, 1, 0], [1, 0, 2]⟩,
    ⟨⟨[2], [[3, 4], [1, 2], [5, 6], [7, 8]]⟩, [2, 1, 1], [2]⟩, ?_, ?_, rfl, rfl⟩ <;> decide +kernel

end
end Thinc
