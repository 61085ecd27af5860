import Verif.Lemmas.LstmStack
import Verif.Model.LstmLayer
import Verif.Props.WithLayers
/-!
# The LSTM layer on padded batches
-/
namespace Thinc
open Spec
variable {α : Type}

theorem exists_segments (sizes : List ℕ) (rows : List α) (h : rows.length = sizes.sum) :
    ∃ segs : List (List α), segs.map List.length = sizes ∧ segs.flatten = rows := by
  induction sizes generalizing rows with
  | nil => exact ⟨[], rfl, (List.eq_nil_of_length_eq_zero (by simpa using h)).symm⟩
  | cons n sizes ih =>
    rw [List.sum_cons] at h
    obtain ⟨segs, h1, h2⟩ := ih (rows.drop n) (by rw [List.length_drop]; omega)
    exact ⟨rows.take n :: segs, by simp [h1, List.length_take]; omega, by simp [h2]⟩

theorem segments_getElem? (segs : List (List α)) (t b : ℕ) (ht : t < segs.length) (hb : b < segs[t].length) :
    segs.flatten[packedRow (segs.map List.length) t b]? = some segs[t][b] := by
  induction segs generalizing t with
  | nil => simp at ht
  | cons s segs ih =>
    cases t with
    | zero =>
      simp only [List.getElem_cons_zero] at hb
      simp [packedRow, List.getElem?_append_left hb, hb]
    | succ t =>
      simp only [List.getElem_cons_succ] at hb ⊢
      have := ih t (by simpa using ht) hb
      unfold packedRow at this ⊢
      rw [List.map_cons, List.take_succ_cons, List.sum_cons, List.flatten_cons, List.getElem?_append_right (by omega),
        show s.length + ((segs.map List.length).take t).sum + b - s.length = ((segs.map List.length).take t).sum + b by omega]
      exact this

/-- Unpacking any rows: cell (t, b) is the row of sequence `b` at time `t`. -/
theorem unpack_rows [Zero α] (P : Padded α) (hv : ValidPadded P) (R : Ragged α) (w : ℕ) (rows : List (List α)) (hR : R.data = ⟨[w], rows⟩)
    (hl : rows.length = P.sizeAtT.sum) :
    ∃ P', packedToPadded R P = .ok P' ∧ ValidPadded P' ∧ SameLayout P' P ∧ P'.data.tail = [w] ∧
      ∀ t b, b < P.sizeAtT.getD t 0 → rows[packedRow P.sizeAtT t b]? = some (P'.data.cell t b) := by
  obtain ⟨segs, h1, h2⟩ := exists_segments P.sizeAtT rows hl
  have hlen : P.sizeAtT.length = P.data.d0 := by rw [hv.sizes]; simp
  obtain ⟨e, he⟩ := unpackLoop rows P.sizeAtT (List.replicate w 0) P.data.d1
    (by
      intro s hs
      rw [hv.sizes] at hs
      obtain ⟨t, _, rfl⟩ := List.mem_map.1 hs
      rw [← hv.numLengths]; exact List.countP_le_length) 0 P.sizeAtT.length [] [] segs (by omega) rfl
    (by simpa using h1) (by simpa using h2.symm)
  simp only [List.length_nil, List.nil_append] at he
  rw [← List.range_eq_range'] at he
  refine ⟨⟨⟨P.data.d0, P.data.d1, [w], segs.map (fun s => s ++ List.replicate (P.data.d1 - s.length) (List.replicate w 0))⟩,
    P.sizeAtT, P.lengths, P.indices⟩, ?_, ?_, ⟨rfl, rfl, rfl, rfl⟩, rfl, ?_⟩
  · unfold packedToPadded
    simp only [Arr3.zeros, hR, List.prod_singleton]
    rw [← hlen, he]
  · refine ⟨?_, ?_, hv.numLengths, hv.sorted, hv.fits, hv.perm, hv.sizes⟩
    · rw [List.length_map, ← hlen, ← h1, List.length_map]
    · intro r hr
      obtain ⟨s, hs, rfl⟩ := List.mem_map.1 hr
      have : s.length ∈ P.sizeAtT := by
        rw [← h1]
        exact List.mem_map.2 ⟨s, hs, rfl⟩
      rw [hv.sizes] at this
      obtain ⟨t, _, ht⟩ := List.mem_map.1 this
      have hk : P.lengths.countP (fun l => t < l) ≤ P.data.d1 := by
        rw [← hv.numLengths]; exact List.countP_le_length
      rw [List.length_append, List.length_replicate]
      simp only []
      omega
  · intro t b hb
    have ht : t < segs.length := by
      by_contra hc
      rw [← h1, List.getD_eq_getElem?_getD, List.getElem?_eq_none (by simpa using hc)] at hb
      simp at hb
    have hb' : b < segs[t].length := by
      rw [← h1, List.getD_eq_getElem?_getD, List.getElem?_map, List.getElem?_eq_getElem ht] at hb
      simpa using hb
    rw [← h2, ← h1, segments_getElem? segs t b ht hb']
    simp [Arr3.cell, ht, List.getElem?_append_left hb', hb', List.getD_eq_getElem?_getD]

/-- Row of a packed batch. -/
theorem packed_cell [Zero α] (P : Padded α) (hv : ValidPadded P) (t b : ℕ) (hb : b < P.sizeAtT.getD t 0) :
    (packedRows P)[packedRow P.sizeAtT t b]? = some (P.data.cell t b) := by
  have hlen : P.sizeAtT.length = P.data.d0 := by rw [hv.sizes]; simp
  let segs : List (List (List α)) := (List.range P.data.d0).map (fun t => (P.data.data.getD t []).take (P.sizeAtT.getD t 0))
  have hsz : ∀ t, t < P.data.d0 → P.sizeAtT.getD t 0 = P.lengths.countP (fun l => t < l) := by
    intro t ht; rw [hv.sizes]; simp [List.getD_eq_getElem?_getD, ht]
  have hsegs : segs.map List.length = P.sizeAtT := by
    rw [List.map_map]
    apply List.ext_getElem
    · simp [hlen]
    · intro t h1 h2
      simp only [List.length_map, List.length_range] at h1
      have hd : t < P.data.data.length := by rw [hv.steps]; exact h1
      have hrow : P.data.data[t].length = P.data.d1 := hv.cols _ (List.getElem_mem hd)
      have hk : P.lengths.countP (fun l => t < l) ≤ P.data.d1 := by
        rw [← hv.numLengths]; exact List.countP_le_length
      have h3 := hsz t h1
      simp only [List.getD_eq_getElem?_getD, List.getElem?_eq_getElem h2, Option.getD_some] at h3
      simp [hd, hrow, h2, h3, Nat.min_eq_left hk]
  have hflat : packedRows P = segs.flatten := by
    unfold packedRows
    rw [List.flatMap_def]
    congr 1
    apply List.map_congr_left
    intro t ht
    exact (active_take P hv t (List.mem_range.1 ht)).symm
  have ht0 : t < P.data.d0 := by
    rw [← hlen]
    by_contra hc
    rw [List.getD_eq_getElem?_getD, List.getElem?_eq_none (Nat.le_of_not_lt hc)] at hb
    simp at hb
  have hd : t < P.data.data.length := by rw [hv.steps]; exact ht0
  have hrow : P.data.data[t].length = P.data.d1 := hv.cols _ (List.getElem_mem hd)
  have hk : P.sizeAtT.getD t 0 ≤ P.data.d1 := by
    rw [hsz t ht0, ← hv.numLengths]; exact List.countP_le_length
  have ht : t < segs.length := by simpa [segs] using ht0
  have hst : segs[t] = (P.data.data[t]).take (P.sizeAtT.getD t 0) := by
    simp [segs, List.getD_eq_getElem?_getD, hd]
  have hb' : b < segs[t].length := by
    rw [hst, List.length_take]; omega
  rw [hflat, ← hsegs, segments_getElem? segs t b ht hb']
  have hbr : b < P.data.data[t].length := by omega
  have : segs[t][b] = P.data.data[t][b] := by
    simp only [hst, List.getElem_take]
  rw [this]
  simp [Arr3.cell, hd, hbr, List.getD_eq_getElem?_getD]

theorem sizeAtT_sorted (P : Padded α) (hv : ValidPadded P) : P.sizeAtT.Pairwise (· ≥ ·) := by
  rw [hv.sizes, List.pairwise_map]
  refine List.Pairwise.imp ?_ (List.pairwise_lt_range (n := P.data.d0))
  intro a b hab
  refine List.countP_mono_left fun l _ hl => ?_
  simp only [decide_eq_true_eq] at hl ⊢
  omega

theorem sizeAtT_sum (P : Padded α) (hv : ValidPadded P) : P.sizeAtT.sum = P.lengths.sum := by
  rw [hv.sizes, sum_countP _ _ hv.fits]

theorem active_iff (P : Padded α) (hv : ValidPadded P) (t b : ℕ) : b < P.sizeAtT.getD t 0 ↔ t < P.lengths.getD b 0 := by
  by_cases ht : t < P.data.d0
  · rw [hv.sizes]
    simp only [List.getD_eq_getElem?_getD, List.getElem?_map, List.getElem?_range ht, Option.map_some, Option.getD_some]
    rw [lt_countP_iff P.lengths hv.sorted t b, List.getD_eq_getElem?_getD]
  · have h1 : P.sizeAtT.getD t 0 = 0 := by
      rw [hv.sizes, List.getD_eq_getElem?_getD, List.getElem?_eq_none (by simpa using ht)]
      rfl
    have h2 : P.lengths.getD b 0 ≤ P.data.d0 := by
      rw [List.getD_eq_getElem?_getD]
      by_cases hb : b < P.lengths.length
      · rw [List.getElem?_eq_getElem hb]
        exact hv.fits _ (List.getElem_mem hb)
      · rw [List.getElem?_eq_none (Nat.le_of_not_lt hb)]
        exact Nat.zero_le _
    omega

theorem packedLength_valid (P : Padded α) (hv : ValidPadded P) (b : ℕ) : packedLength P.sizeAtT b = P.lengths.getD b 0 := by
  have h : ∀ t, t < packedLength P.sizeAtT b ↔ t < P.lengths.getD b 0 := fun t => by
    rw [packedLength_iff _ (sizeAtT_sorted P hv), active_iff P hv]
  refine Nat.le_antisymm ?_ ?_
  · by_contra hc
    have := (h (P.lengths.getD b 0)).1 (by omega)
    omega
  · by_contra hc
    have := (h (packedLength P.sizeAtT b)).2 (by omega)
    omega

theorem paddedColumn_getElem? (P : Padded α) (b t : ℕ) (ht : t < P.lengths.getD b 0) : (column P b)[t]? = some (P.data.cell t b) := by
  unfold column
  rw [List.getElem?_map, List.getElem?_range ht]
  rfl

theorem paddedColumn_length (P : Padded α) (b : ℕ) : (column P b).length = P.lengths.getD b 0 := by simp [column]

theorem rowsMat_at (w : ℕ) (rows : List (List ℝ)) (i k : ℕ) (hk : k < w) (r : List ℝ) (hr : rows[i]? = some r) :
    (rowsMat w rows).at i k = r.getD k 0 := by
  show (rows.getD ((i * w + k) / w) []).getD ((i * w + k) % w) 0 = _
  rw [rowMajor_div _ _ _ hk, rowMajor_mod _ _ _ hk, List.getD_eq_getElem?_getD (l := rows), hr]
  rfl

theorem matRows_length (A : Mat ℝ) : (matRows A).length = A.rows := by simp [matRows]

theorem matRows_getElem? (A : Mat ℝ) (i : ℕ) (hi : i < A.rows) : (matRows A)[i]? = some ((List.range A.cols).map (A.at i)) := by
  unfold matRows
  rw [List.getElem?_map, List.getElem?_range hi]
  rfl

theorem lstmLayer_congr (w : ℕ → CellWeights) (s : ℕ → (ℕ → ℝ) × (ℕ → ℝ)) (nI nO : ℕ) {xs ys : List (ℕ → ℝ)}
    (h : List.Forall₂ (fun x y => ∀ k < nI, x k = y k) xs ys) : lstmLayer w s nI nO xs = lstmLayer w s nI nO ys := by
  unfold lstmLayer
  rw [h.length_eq]
  refine List.map_congr_left fun t _ => ?_
  funext k
  exact congrFun (congrArg Prod.fst (stateAt_congr (k / nO ≠ 0) (w (k / nO)) nI nO h (s (k / nO)) t)) _

theorem lstmStack_congr (w : ℕ → ℕ → CellWeights) (s : ℕ → ℕ → (ℕ → ℝ) × (ℕ → ℝ)) (nI nO dirs : ℕ) {xs ys : List (ℕ → ℝ)}
    (h : List.Forall₂ (fun x y => ∀ k < nI, x k = y k) xs ys) (i : ℕ) :
    lstmStack w s nI nO dirs xs (i + 1) = lstmStack w s nI nO dirs ys (i + 1) := by
  induction i with
  | zero =>
    simp only [lstmStack, layerWidth, if_true]
    exact lstmLayer_congr _ _ _ _ h
  | succ i ih =>
    rw [lstmStack, ih]
    rfl

/-- The forward pass of the layer on a padded batch, and the state kept for the backward pass. -/
theorem lstmPadded_ok (m : LstmParams) (train : Bool) (drop : ℝ) (flips : ℕ → ℕ → ℝ) (nI : ℕ) (hI : 0 < nI) (hO : 0 < m.nO) (hd : 0 < m.dirs)
    (hdep : 0 < m.depth) (hsize : cellStart nI m.nO m.dirs m.depth 0 ≤ m.LSTM.size) (P : Padded ℝ) (seqs : List (List (List ℝ)))
    (hP : HoldsPadded nI P seqs) (hne : seqs.flatten ≠ []) :
    ∃ P' state, lstmPadded m train drop flips P = .ok (P', state) ∧ SameLayout P' P ∧
      HoldsPadded (m.dirs * m.nO) P' (seqs.map (lstmSeq (m.weights train drop flips).val m.C0 m.H0 nI m.nO m.dirs m.depth)) := by
  obtain ⟨hv, htail, hlen, hrep⟩ := hP
  obtain ⟨R, eR, hrows, hRl, hRt⟩ := C31_pack P hv (by rw [htail]; simp; omega)
  have hcount : (packedRows P).length = P.sizeAtT.sum := by
    rw [sizeAtT_sum P hv, packedRows, List.length_flatMap, ← sum_countP P.lengths P.data.d0 hv.fits]
    congr 1
    apply List.map_congr_left
    intro t ht
    rw [← active_take P hv t (List.mem_range.1 ht), List.length_take]
    have ht := List.mem_range.1 ht
    have hd : t < P.data.data.length := by rw [hv.steps]; exact ht
    have hrow : P.data.data[t].length = P.data.d1 := hv.cols _ (List.getElem_mem hd)
    have hk : P.lengths.countP (fun l => t < l) ≤ P.data.d1 := by
      rw [← hv.numLengths]; exact List.countP_le_length
    have hsz : P.sizeAtT.getD t 0 = P.lengths.countP (fun l => t < l) := by
      rw [hv.sizes]; simp [List.getD_eq_getElem?_getD, ht]
    rw [hsz, List.getD_eq_getElem?_getD, List.getElem?_eq_getElem hd]
    simp only [Option.getD_some]
    omega
  have hperm := hv.perm
  -- every sequence is some column
  have hcol : ∀ i (hi : i < seqs.length), ∃ b, b < P.data.d1 ∧ P.indices[b]? = some i := by
    intro i hi
    have : i ∈ P.indices := hperm.mem_iff.2 (List.mem_range.2 (by omega))
    obtain ⟨b, hb, rfl⟩ := List.mem_iff_getElem.1 this
    refine ⟨b, ?_, List.getElem?_eq_getElem hb⟩
    have := hperm.length_eq
    simp at this
    omega
  have hpos : 0 < (packedRows P).length := by
    obtain ⟨r, hr⟩ := List.exists_mem_of_ne_nil _ hne
    obtain ⟨s, hs, hrs⟩ := List.mem_flatten.1 hr
    obtain ⟨i, hi, rfl⟩ := List.mem_iff_getElem.1 hs
    obtain ⟨b, hb, hbi⟩ := hcol i hi
    have h1 := hrep b i hbi
    rw [List.getElem?_eq_getElem hi] at h1
    have h2 : seqs[i] = column P b := Option.some.inj h1
    have h3 : 0 < P.lengths.getD b 0 := by
      rw [← paddedColumn_length P b, ← h2]
      exact List.length_pos_of_mem hrs
    have h4 := packedRow_lt P.sizeAtT ((active_iff P hv 0 b).2 h3)
    omega
  have hRtail : R.data.tail = [nI] := by
    rw [hRt (by rw [hrows]; exact List.ne_nil_of_length_pos hpos), htail]
    simp
  let X := rowsMat nI (packedRows P)
  obtain ⟨H, all, eF, hHr, ⟨hHc, hH⟩, _⟩ := lstmForward_ok (m.weights train drop flips).val m.H0 m.C0 m.LSTM.size m.depth m.dirs m.nO nI X P.sizeAtT hI hO hd rfl
    hpos (sizeAtT_sorted P hv) hcount.symm hsize
  have hwid : layerWidth nI m.nO m.dirs m.depth = m.dirs * m.nO := by
    unfold layerWidth
    rw [if_neg (by omega)]
  rw [hwid] at hHc hH
  have hsame : ∀ b, lstmStack (stackWeights (m.weights train drop flips).val nI m.nO m.dirs) (initStates m.C0 m.H0 m.dirs m.nO) nI m.nO m.dirs
      (packedSeq P.sizeAtT X.at b) m.depth =
      lstmStack (stackWeights (m.weights train drop flips).val nI m.nO m.dirs) (initStates m.C0 m.H0 m.dirs m.nO) nI m.nO m.dirs
      ((column P b).map fun r k => r.getD k 0) m.depth := by
    intro b
    have hdk : m.depth = (m.depth - 1) + 1 := by omega
    rw [hdk]
    apply lstmStack_congr
    rw [List.forall₂_iff_get]
    refine ⟨by rw [packedSeq_length, List.length_map, paddedColumn_length, packedLength_valid P hv], fun t h1 h2 k hk => ?_⟩
    have ht : t < P.lengths.getD b 0 := by rwa [packedSeq_length, packedLength_valid P hv] at h1
    rw [List.get_eq_getElem, List.get_eq_getElem, packedSeq_getElem]
    have hc := paddedColumn_getElem? P b t ht
    have hc' : t < (column P b).length := by rw [paddedColumn_length]; exact ht
    rw [List.getElem?_eq_getElem hc'] at hc
    simp only [List.getElem_map]
    rw [Option.some.inj hc]
    exact rowsMat_at nI _ _ k hk _ (packed_cell P hv t b ((active_iff P hv t b).2 ht))
  have hHpos : 0 < H.rows := by rw [hHr]; exact hpos
  have hwpos : 0 < m.dirs * m.nO := Nat.mul_pos hd hO
  let R' : Ragged ℝ := Ragged.make ⟨[H.cols], matRows H⟩ R.lengths
  have hR' : R'.data = ⟨[m.dirs * m.nO], matRows H⟩ := by
    have hsz : (⟨[H.cols], matRows H⟩ : Arr ℝ).size ≠ 0 := by
      refine Nat.mul_ne_zero ?_ ?_
      · show (matRows H).length ≠ 0
        rw [matRows_length]; omega
      · simp only [List.prod_singleton]
        omega
    show (Ragged.make _ _).data = _
    unfold Ragged.make
    rw [if_pos hsz]
    simp [hHc]
  obtain ⟨P', eP', hv', hlay, htail', hcell⟩ := unpack_rows P hv R' (m.dirs * m.nO) (matRows H) hR'
    (by rw [matRows_length, hHr, ← hcount]; rfl)
  refine ⟨P', all, ?_, hlay, hv', htail', ?_, ?_⟩
  · unfold lstmPadded
    have eF' : lstmForward (m.weights train drop flips).val m.H0 m.C0 m.LSTM.size m.depth m.dirs m.nO
        (rowsMat R.data.tail.prod R.data.rows) R.lengths = .ok (H, all) := by
      rw [hRtail, hrows, hRl, List.prod_singleton]
      exact eF
    have eA : assertRows H R.data.len = .ok () := by
      unfold assertRows Arr.len
      rw [if_pos (by rw [hrows, hHr]; rfl)]
    have eP'' : packedToPadded (Ragged.make ⟨[H.cols], matRows H⟩ R.lengths) P = .ok P' := eP'
    simp only [eR, eF', eA, eP'', bind, Except.bind, pure, Except.pure]
  · rw [List.length_map, hlen, hlay.2.2.2]
  · intro b i hbi
    rw [hlay.1] at hbi
    rw [List.getElem?_map, hrep b i hbi, Option.map_some]
    congr 1
    refine List.ext_getElem? fun t => ?_
    have hlen' : P'.lengths.getD b 0 = P.lengths.getD b 0 := by rw [hlay.2.1]
    have hsl : (lstmStack (stackWeights (m.weights train drop flips).val nI m.nO m.dirs) (initStates m.C0 m.H0 m.dirs m.nO) nI m.nO m.dirs
        ((column P b).map fun r k => r.getD k 0) m.depth).length = P.lengths.getD b 0 := by
      rw [lstmStack_length, List.length_map, paddedColumn_length]
    by_cases ht : t < P.lengths.getD b 0
    · have hact := (active_iff P hv t b).2 ht
      rw [paddedColumn_getElem? P' b t (by rw [hlen']; exact ht), ← hcell t b hact,
        matRows_getElem? H _ (by rw [hHr]; exact (packedRow_lt P.sizeAtT hact).trans_le (le_of_eq hcount.symm))]
      unfold lstmSeq
      rw [List.getElem?_map, List.getElem?_eq_getElem (by rw [hsl]; exact ht), Option.map_some, hHc]
      congr 1
      refine List.map_congr_left fun k hk => ?_
      have hb2 := (hH b).2 t (by rw [(hH b).1, packedLength_valid P hv]; exact ht) k (List.mem_range.1 hk)
      rw [hb2]
      exact (congrFun (List.getElem_of_eq (hsame b) _) k).symm
    · rw [List.getElem?_eq_none (l := column P' b) (by rw [paddedColumn_length, hlen']; omega), List.getElem?_eq_none]
      unfold lstmSeq
      rw [List.length_map, hsl]
      omega

end Thinc
