import Verif.Lemmas.Gather
import Verif.Props.Pooling
/-!
# C42 gather_add and scatter_add
-/
namespace Thinc
open Finset Spec
variable {K : Type}

/-- **C42** (`gather_add`): for a non-empty table and a non-empty index matrix without negative
indices and without the index `T` (the number of table rows): if all indices are rows of the table the
result is the sum of the selected rows, and otherwise IndexError is raised.
Missing: empty arrays (`C42_gather_empty_raises`), the index `T` and negative indices
(`C42_gather_out_of_bounds`). -/
theorem C42_gather_add_partial [Semiring K] (table : Mat K) (idx : Mat Int)
    (hT : 0 < table.rows) (hO : 0 < table.cols) (hB : 0 < idx.rows) (hK : 0 < idx.cols)
    (hix : ∀ b < idx.rows, ∀ k < idx.cols, 0 ≤ idx.at b k ∧ idx.at b k ≠ table.rows) :
    ((∀ b < idx.rows, ∀ k < idx.cols, idx.at b k < table.rows) →
      ∃ Y, gatherAdd table idx = .ok Y ∧ Y.rows = idx.rows ∧ Y.cols = table.cols ∧
        ∀ b < idx.rows, ∀ o < table.cols,
          Y.at b o = ∑ k ∈ range idx.cols, table.at (idx.at b k).toNat o) ∧
    ((∃ b < idx.rows, ∃ k < idx.cols, (table.rows : Int) < idx.at b k) →
      gatherAdd table idx = .error .indexError) := by
  have hdm : ∀ i < idx.rows * idx.cols, i / idx.cols < idx.rows ∧ i % idx.cols < idx.cols ∧
      idx.val i = idx.at (i / idx.cols) (i % idx.cols) := by
    intro i hi
    refine ⟨Nat.div_lt_of_lt_mul (by rw [Nat.mul_comm]; exact hi), Nat.mod_lt _ hK, ?_⟩
    simp only [Mat.at, Nat.div_add_mod']
  have key := cpuGatherAdd_spec (Mat.zeros idx.rows table.cols : Mat K).buf table.buf idx.buf table.rows
    table.cols idx.rows idx.cols rfl rfl rfl (fun _ => rfl) (by
      intro i hi
      obtain ⟨a, b, c⟩ := hdm i hi
      rw [show idx.buf.val i = _ from c]
      exact hix _ a _ b)
  unfold gatherAdd
  rw [pointer_ok table hT hO, pointer_ok idx hB hK]
  simp only [bind, Except.bind]
  rcases key with ⟨⟨i, hi, hi2⟩, herr⟩ | ⟨hall, Y, hok, hval⟩
  · rw [herr]
    refine ⟨fun h => ?_, fun _ => rfl⟩
    obtain ⟨a, b, c⟩ := hdm i hi
    have := h _ a _ b
    rw [show idx.buf.val i = _ from c] at hi2
    omega
  · rw [hok]
    refine ⟨fun _ => ⟨_, rfl, rfl, rfl, fun b hb o ho => hval b hb o ho⟩, ?_⟩
    rintro ⟨b, hb, k, hk, h⟩
    have := hall (b * idx.cols + k) (rowMajor_lt hb hk)
    simp only [Mat.at] at h
    simp only [Mat.buf] at this
    omega

/-- An index matrix with a repeated index. -/
def exIdx : Mat Int := ⟨2, 2, fun k => [2, 0, 1, 1].getD k 0⟩

example : 0 < exPool.rows ∧ 0 < exPool.cols ∧ 0 < exIdx.rows ∧ 0 < exIdx.cols ∧
    (∀ b < exIdx.rows, ∀ k < exIdx.cols, 0 ≤ exIdx.at b k ∧ exIdx.at b k ≠ exPool.rows) ∧
    (∀ b < exIdx.rows, ∀ k < exIdx.cols, exIdx.at b k < exPool.rows) := by decide

example : ∃ b < 1, ∃ k < 1, (exPool.rows : Int) < (⟨1, 1, fun _ => 4⟩ : Mat Int).at b k := by decide

/-- **C42**, where the claim fails: an empty table or index matrix raises IndexError. -/
theorem C42_gather_empty_raises [Semiring K] (table : Mat K) (idx : Mat Int)
    (h : table.rows = 0 ∨ table.cols = 0 ∨ idx.rows = 0 ∨ idx.cols = 0) :
    gatherAdd table idx = .error .indexError := by
  unfold gatherAdd
  by_cases h1 : table.rows = 0 ∨ table.cols = 0
  · simp only [Mat.pointer, if_pos h1, bind, Except.bind]
  · have h2 : idx.rows = 0 ∨ idx.cols = 0 := by omega
    simp only [Mat.pointer, if_neg h1, if_pos h2, bind, Except.bind]

/-- **C42**, where the claim fails: the index `T` (one past the last row) and negative indices are not
rejected; the kernel reads outside the table. -/
theorem C42_gather_out_of_bounds [Semiring K] (table : Mat K) (idx : Mat Int)
    (hT : 0 < table.rows) (hO : 0 < table.cols) (hB : 0 < idx.rows) (hK : 0 < idx.cols)
    (h : idx.at 0 0 = table.rows ∨ idx.at 0 0 < 0) :
    gatherAdd table idx = .error .outOfBounds := by
  obtain ⟨B, hB'⟩ : ∃ B, idx.rows = B + 1 := ⟨idx.rows - 1, by omega⟩
  obtain ⟨k, hk'⟩ : ∃ k, idx.cols = k + 1 := ⟨idx.cols - 1, by omega⟩
  obtain ⟨O, hO'⟩ : ∃ O, table.cols = O + 1 := ⟨table.cols - 1, by omega⟩
  have h00 : idx.at 0 0 = idx.val 0 := by simp only [Mat.at, Nat.zero_mul, Nat.add_zero]
  rw [h00] at h
  have hv : vecAdd (Mat.zeros idx.rows table.cols : Mat K).buf ((0 * table.cols : Nat) : Int) table.buf
      (idx.val 0 * table.cols) 1 table.cols = .error .outOfBounds := by
    unfold vecAdd forN
    rw [hO', List.range_succ_eq_map]
    simp only [forM', bind, Except.bind, Nat.zero_mul, Int.natCast_zero, Int.add_zero]
    have r1 : (Mat.zeros idx.rows (O + 1) : Mat K).buf.read 0 = .ok 0 := by
      have := Buf.read_ok (Mat.zeros idx.rows (O + 1) : Mat K).buf 0 (by
        simp only [Mat.buf, Mat.zeros]
        exact Nat.mul_pos hB (by omega))
      exact this
    have r2 : table.buf.read (idx.val 0 * ((O + 1 : Nat) : Int)) = .error .outOfBounds := by
      unfold Buf.read
      rw [if_neg]
      simp only [Mat.buf, hO']
      rintro ⟨a, b⟩
      rcases h with h | h
      · rw [h] at b
        simp at b
      · have : idx.val 0 * ((O + 1 : Nat) : Int) < 0 := Int.mul_neg_of_neg_of_pos h (by omega)
        omega
    rw [r1]
    simp only
    rw [r2]
  have hp : idx.buf.read (0 * idx.cols + 0 : Nat) = .ok (idx.val 0) := by
    have := Buf.read_ok idx.buf (0 * idx.cols + 0) (by
      simp only [Mat.buf, Nat.zero_mul, Nat.add_zero]
      exact Nat.mul_pos hB hK)
    rw [this]
    simp only [Nat.zero_mul, Nat.add_zero, Mat.buf]
  have hkern : cpuGatherAdd (Mat.zeros idx.rows table.cols : Mat K).buf table.buf idx.buf table.rows
      table.cols idx.rows idx.cols = .error .outOfBounds := by
    unfold cpuGatherAdd
    have hinner : forN idx.cols (Mat.zeros idx.rows table.cols : Mat K).buf (fun out k => (do
        let i ← idx.buf.read (0 * idx.cols + k : Nat)
        if i > table.rows then .error .indexError
        else vecAdd out (0 * table.cols : Nat) table.buf (i * table.cols) 1 table.cols)) =
        .error .outOfBounds := by
      have e : List.range idx.cols = 0 :: List.map Nat.succ (List.range k) := by
        rw [hk', List.range_succ_eq_map]
      unfold forN
      rw [e]
      simp only [forM', bind, Except.bind, hp]
      rw [if_neg (by omega), hv]
    have e : List.range idx.rows = 0 :: List.map Nat.succ (List.range B) := by
      rw [hB', List.range_succ_eq_map]
    rw [forN, e]
    unfold forM'
    rw [hinner]
  unfold gatherAdd
  rw [pointer_ok table hT hO, pointer_ok idx hB hK]
  simp only [bind, Except.bind, hkern]

example : (⟨1, 1, fun _ => 3⟩ : Mat Int).at 0 0 = exPool.rows ∨ (⟨1, 1, fun _ => 3⟩ : Mat Int).at 0 0 < 0 := by
  decide

/-- **C42** (`scatter_add`): with ids that are rows of the table, both code paths add to each row of
the table all the values whose id is that row, and leave the others alone. -/
theorem C42_scatter_add [Semiring K] (fast : Bool) (table values : Mat K) (ids : List Int)
    (hr : values.rows = ids.length) (hc : values.cols = table.cols)
    (hix : ∀ i ∈ ids, 0 ≤ i ∧ i < table.rows) :
    ∃ out, scatterAdd fast table ids values = .ok out ∧ out.rows = table.rows ∧ out.cols = table.cols ∧
      ∀ r < table.rows, ∀ o < table.cols, out.at r o = table.at r o +
        ∑ i ∈ range ids.length, if ids.getD i 0 = (r : Int) then values.at i o else 0 := by
  unfold scatterAdd
  by_cases hf : fast = true
  · rw [if_pos ⟨hf, hr, hc⟩]
    obtain ⟨d, h1, h2⟩ := cpuScatterAdd_spec table.buf values.buf ids table.rows table.cols rfl
      (by simp only [Mat.buf, hr, hc]) (fun i hi => (hix i hi).2)
    rw [h1]
    refine ⟨_, rfl, rfl, rfl, fun r hrT o ho => ?_⟩
    have := h2 r hrT o ho
    simp only [Mat.at, hc]
    exact this
  · rw [if_neg (fun h => hf h.1)]
    obtain ⟨out, h1, h2, h3, h4⟩ := addAt_spec table values ids hr hc (fun i hi => by
      have := hix i hi
      omega)
    refine ⟨out, h1, h2, h3, fun r hrT o ho => ?_⟩
    rw [h4 r hrT o ho]
    congr 1
    refine Finset.sum_congr rfl fun i hi => ?_
    rw [Finset.mem_range] at hi
    have hmem : ids.getD i 0 ∈ ids := by
      rw [List.getD_eq_getElem?_getD, List.getElem?_eq_getElem hi]
      exact List.getElem_mem hi
    have := hix _ hmem
    by_cases h : ids.getD i 0 = (r : Int)
    · rw [if_pos (.inl h), if_pos h]
    · rw [if_neg (by omega), if_neg h]

example : (⟨3, 2, fun _ => 1⟩ : Mat ℚ).rows = [(2 : Int), 0, 2].length ∧
    (⟨3, 2, fun _ => 1⟩ : Mat ℚ).cols = exPool.cols ∧
    (∀ i ∈ [(2 : Int), 0, 2], 0 ≤ i ∧ i < exPool.rows) := by decide

/-- **C42**, where the code paths disagree: for float32 arrays a negative id is ignored, for all other
arrays it counts from the end of the table. -/
theorem C42_negative_ids [Semiring K] (fast : Bool) (table values : Mat K) (ids : List Int)
    (hr : values.rows = ids.length) (hc : values.cols = table.cols)
    (hix : ∀ i ∈ ids, -(table.rows : Int) ≤ i ∧ i < table.rows) :
    ∃ out, scatterAdd fast table ids values = .ok out ∧
      ∀ r < table.rows, ∀ o < table.cols, out.at r o = table.at r o +
        ∑ i ∈ range ids.length,
          if ids.getD i 0 = (r : Int) ∨ (fast = false ∧ ids.getD i 0 + table.rows = r) then values.at i o else 0 := by
  unfold scatterAdd
  by_cases hf : fast = true
  · rw [if_pos ⟨hf, hr, hc⟩]
    obtain ⟨d, h1, h2⟩ := cpuScatterAdd_spec table.buf values.buf ids table.rows table.cols rfl
      (by simp only [Mat.buf, hr, hc]) (fun i hi => (hix i hi).2)
    rw [h1]
    refine ⟨_, rfl, fun r hrT o ho => ?_⟩
    have := h2 r hrT o ho
    simp only [Mat.at, hc, hf, Bool.true_eq_false, false_and, or_false]
    exact this
  · rw [if_neg (fun h => hf h.1)]
    obtain ⟨out, h1, h2, h3, h4⟩ := addAt_spec table values ids hr hc hix
    refine ⟨out, h1, fun r hrT o ho => ?_⟩
    have hf' : fast = false := by simpa using hf
    simp only [hf', true_and]
    exact h4 r hrT o ho

example : ∀ i ∈ [(-1 : Int), 2], -(exPool.rows : Int) ≤ i ∧ i < exPool.rows := by decide

/-- **C42**: an id past the end of the table raises IndexError in the generic path; in the float32 path
the kernel writes outside the table. -/
theorem C42_too_large_id [Semiring K] (table values : Mat K) (id : Int) (rest : List Int)
    (hr : values.rows = (id :: rest).length) (hc : values.cols = table.cols) (hO : 0 < table.cols)
    (hid : (table.rows : Int) ≤ id) :
    scatterAdd false table (id :: rest) values = .error .indexError ∧
    scatterAdd true table (id :: rest) values = .error .outOfBounds := by
  constructor
  · unfold scatterAdd addAt
    rw [if_neg (by simp), if_neg (by rw [not_not]; exact ⟨.inl hr, .inl hc⟩), if_pos]
    rw [List.all_cons, Bool.and_eq_true]
    rintro ⟨h, _⟩
    have := of_decide_eq_true h
    omega
  · unfold scatterAdd
    rw [if_pos ⟨rfl, hr, hc⟩]
    obtain ⟨O, hO'⟩ : ∃ O, table.cols = O + 1 := ⟨table.cols - 1, by omega⟩
    have hv : vecAdd table.buf (id * table.cols) values.buf ((0 * table.cols : Nat) : Int) 1 table.cols =
        .error .outOfBounds := by
      unfold vecAdd forN
      rw [hO', List.range_succ_eq_map]
      simp only [forM', bind, Except.bind, Int.natCast_zero, Int.add_zero]
      have : table.buf.read (id * ((O + 1 : Nat) : Int)) = .error .outOfBounds := by
        unfold Buf.read
        rw [if_neg]
        simp only [Mat.buf, hO']
        rintro ⟨a, b⟩
        have h := Int.mul_le_mul_of_nonneg_right hid (show (0 : Int) ≤ ((O + 1 : Nat) : Int) by omega)
        rw [Int.natCast_mul] at b
        omega
      rw [this]
    unfold cpuScatterAdd
    simp only [forM', bind, Except.bind]
    rw [if_pos (by omega), hv]

example : (Mat.zeros 1 2 : Mat ℚ).rows = [(3 : Int)].length ∧ (Mat.zeros 1 2 : Mat ℚ).cols = exPool.cols ∧
    0 < exPool.cols ∧ (exPool.rows : Int) ≤ 3 := by decide

theorem column_length (x : Mat Int) (k : Nat) : (x.column k).length = x.rows := by
  simp [Mat.column]

theorem column_getD (x : Mat Int) (k b : Nat) (hb : b < x.rows) : (x.column k).getD b 0 = x.at b k := by
  simp [Mat.column, List.getD_eq_getElem?_getD, hb]

/-- **C42**: scattering the gradient once per column of the indices (as `HashEmbed` does) accumulates,
over all positions of the index matrix, the gradient rows into the table rows they were read from. -/
theorem C42_scatter_columns [Semiring K] (fast : Bool) (T O : Nat) (idx : Mat Int) (d : Mat K)
    (hr : d.rows = idx.rows) (hc : d.cols = O)
    (hix : ∀ b < idx.rows, ∀ k < idx.cols, 0 ≤ idx.at b k ∧ idx.at b k < T) :
    ∃ dE, scatterColumns fast T O idx d = .ok dE ∧ dE.rows = T ∧ dE.cols = O ∧
      ∀ r < T, ∀ o < O, dE.at r o =
        ∑ k ∈ range idx.cols, ∑ b ∈ range idx.rows, if idx.at b k = (r : Int) then d.at b o else 0 := by
  obtain ⟨dE, h1, h2, h3, h4⟩ := forN_inv idx.cols
    (fun dE k => scatterAdd fast dE (idx.column k) d)
    (fun n (dE : Mat K) => dE.rows = T ∧ dE.cols = O ∧ ∀ r < T, ∀ o < O, dE.at r o =
        ∑ k ∈ range n, ∑ b ∈ range idx.rows, if idx.at b k = (r : Int) then d.at b o else 0)
    (Mat.zeros T O) ⟨rfl, rfl, fun r hr o ho => by simp [Mat.zeros, Mat.at]⟩
    (by
      rintro k hk dE ⟨h1, h2, h3⟩
      obtain ⟨out, g1, g2, g3, g4⟩ := C42_scatter_add fast dE d (idx.column k)
        (by rw [column_length, hr]) (by omega) (by
          intro i hi
          simp only [Mat.column, List.mem_map, List.mem_range] at hi
          obtain ⟨b, hb, rfl⟩ := hi
          have := hix b hb k hk
          omega)
      refine ⟨out, g1, by omega, by omega, fun r hrT o ho => ?_⟩
      rw [g4 r (by omega) o (by omega), h3 r hrT o ho, Finset.sum_range_succ, column_length]
      congr 1
      refine Finset.sum_congr rfl fun b hb => ?_
      rw [Finset.mem_range] at hb
      rw [column_getD _ _ _ hb])
  exact ⟨dE, h1, h2, h3, h4⟩

/-- **C42**: `gather_add` and the scatter of its gradient are adjoint, also with repeated indices. -/
theorem C42_adjoint_partial [CommSemiring K] (fast : Bool) (table dY : Mat K) (idx : Mat Int)
    (hT : 0 < table.rows) (hO : 0 < table.cols) (hB : 0 < idx.rows) (hK : 0 < idx.cols)
    (hr : dY.rows = idx.rows) (hc : dY.cols = table.cols)
    (hix : ∀ b < idx.rows, ∀ k < idx.cols, 0 ≤ idx.at b k ∧ idx.at b k < table.rows) :
    ∃ Y dE, gatherAdd table idx = .ok Y ∧ scatterColumns fast table.rows table.cols idx dY = .ok dE ∧
      inner Y.rows Y.cols Y.at dY.at = inner table.rows table.cols table.at dE.at := by
  obtain ⟨g, _⟩ := C42_gather_add_partial table idx hT hO hB hK (fun b hb k hk => by
    have := hix b hb k hk
    omega)
  obtain ⟨Y, h1, h2, h3, h4⟩ := g (fun b hb k hk => (hix b hb k hk).2)
  obtain ⟨dE, k1, k2, k3, k4⟩ := C42_scatter_columns fast table.rows table.cols idx dY hr hc hix
  refine ⟨Y, dE, h1, k1, ?_⟩
  rw [h2, h3]
  simp only [Spec.inner]
  -- left: Σ b o k; right: Σ r o k b
  have hL : ∀ b ∈ range idx.rows, ∑ o ∈ range table.cols, Y.at b o * dY.at b o =
      ∑ o ∈ range table.cols, ∑ k ∈ range idx.cols, ∑ r ∈ range table.rows,
        table.at r o * (if idx.at b k = (r : Int) then dY.at b o else 0) := by
    intro b hb
    refine Finset.sum_congr rfl fun o ho => ?_
    rw [Finset.mem_range] at hb ho
    rw [h4 b hb o ho, Finset.sum_mul]
    refine Finset.sum_congr rfl fun k hk => ?_
    rw [Finset.mem_range] at hk
    obtain ⟨w, hw⟩ := Int.eq_ofNat_of_zero_le (hix b hb k hk).1
    have hwT : w < table.rows := by
      have := (hix b hb k hk).2
      omega
    rw [hw, Finset.sum_eq_single w]
    · rw [if_pos rfl]
      rfl
    · intro r _ hrw
      rw [if_neg (by omega), mul_zero]
    · intro hno
      exact absurd (Finset.mem_range.2 hwT) hno
  rw [Finset.sum_congr rfl hL]
  have hR : ∀ r ∈ range table.rows, ∑ o ∈ range table.cols, table.at r o * dE.at r o =
      ∑ o ∈ range table.cols, ∑ k ∈ range idx.cols, ∑ b ∈ range idx.rows,
        table.at r o * (if idx.at b k = (r : Int) then dY.at b o else 0) := by
    intro r hrr
    refine Finset.sum_congr rfl fun o ho => ?_
    rw [Finset.mem_range] at hrr ho
    rw [k4 r hrr o ho, Finset.mul_sum]
    refine Finset.sum_congr rfl fun k _ => ?_
    rw [Finset.mul_sum]
  rw [Finset.sum_congr rfl hR, Finset.sum_comm, Finset.sum_comm (s := range table.rows)]
  refine Finset.sum_congr rfl fun o _ => ?_
  rw [Finset.sum_comm, Finset.sum_comm (s := range table.rows)]
  exact Finset.sum_congr rfl fun k _ => Finset.sum_comm

example : (Mat.zeros 2 2 : Mat ℚ).rows = exIdx.rows ∧ (Mat.zeros 2 2 : Mat ℚ).cols = exPool.cols ∧
    (∀ b < exIdx.rows, ∀ k < exIdx.cols, 0 ≤ exIdx.at b k ∧ exIdx.at b k < exPool.rows) := by decide

/-- **C42** (generic backend): the sum of the selected rows, for every table and index matrix with
indices in range, empty ones included; other indices raise IndexError. -/
theorem C42_generic_gather [Semiring K] (table : Mat K) (idx : Mat Int) :
    ((∀ b < idx.rows, ∀ k < idx.cols, 0 ≤ idx.at b k ∧ idx.at b k < table.rows) →
      ∃ Y, opsGatherAdd table idx = .ok Y ∧ Y.rows = idx.rows ∧ Y.cols = table.cols ∧
        ∀ b < idx.rows, ∀ o < table.cols,
          Y.at b o = ∑ k ∈ range idx.cols, table.at (idx.at b k).toNat o) ∧
    ((∃ b < idx.rows, ∃ k < idx.cols, (table.rows : Int) ≤ idx.at b k ∨ idx.at b k < -(table.rows : Int)) →
      opsGatherAdd table idx = .error .indexError) := by
  have hat : ∀ i < idx.rows * idx.cols, i / idx.cols < idx.rows ∧ i % idx.cols < idx.cols ∧
      idx.val i = idx.at (i / idx.cols) (i % idx.cols) := by
    intro i hi
    have hK : 0 < idx.cols := by
      rcases Nat.eq_zero_or_pos idx.cols with h | h
      · rw [h] at hi
        simp at hi
      · exact h
    refine ⟨Nat.div_lt_of_lt_mul (by rw [Nat.mul_comm]; exact hi), Nat.mod_lt _ hK, ?_⟩
    simp only [Mat.at, Nat.div_add_mod']
  constructor
  · intro hix
    have hnp : ∀ b < idx.rows, ∀ k < idx.cols,
        npIndex table.rows (idx.at b k) = .ok (idx.at b k).toNat := fun b hb k hk => by
      unfold npIndex
      rw [if_pos (hix b hb k hk)]
    unfold opsGatherAdd
    rw [if_pos (by
      intro i hi
      obtain ⟨a, b, c⟩ := hat i hi
      refine ⟨(idx.val i).toNat, ?_, ?_⟩
      · rw [c]
        have := hix _ a _ b
        omega
      · rw [c]
        exact hnp _ a _ b)]
    refine ⟨_, rfl, rfl, rfl, fun b hb o ho => ?_⟩
    simp only [Mat.at, rowMajor_div _ _ _ ho, rowMajor_mod _ _ _ ho]
    rw [← List.sum_toFinset _ List.nodup_range, List.toFinset_range]
    refine Finset.sum_congr rfl fun k hk => ?_
    rw [Finset.mem_range] at hk
    have := hnp b hb k hk
    simp only [Mat.at] at this
    rw [this]
  · rintro ⟨b, hb, k, hk, h⟩
    unfold opsGatherAdd
    rw [if_neg]
    intro hall
    obtain ⟨j, hj, hj2⟩ := hall (b * idx.cols + k) (rowMajor_lt hb hk)
    simp only [Mat.at] at h
    unfold npIndex at hj2
    rw [if_neg (by omega), if_neg (by omega)] at hj2
    cases hj2

example : ∃ b < exIdx.rows, ∃ k < exIdx.cols, ((2 : Nat) : Int) ≤ exIdx.at b k ∨ exIdx.at b k < -((2 : Nat) : Int) := by
  decide

end Thinc
