import Verif.Lemmas.Pooling
import Mathlib.Algebra.BigOperators.Field
import Mathlib.Algebra.BigOperators.Ring.Finset
import Mathlib.Algebra.Field.Rat
import Mathlib.Algebra.Order.Field.Rat
/-!
# C37 Sum and mean pooling
-/
namespace Thinc
open Finset Spec
variable {K : Type} [Field K]

omit [Field K] in
theorem pointer_ok (X : Mat K) (h1 : 0 < X.rows) (h2 : 0 < X.cols) : X.pointer = .ok X.buf := by
  unfold Mat.pointer
  rw [if_neg (by omega)]

/-- **C37** (`reduce_sum`, NumPy backend).  For any matrix with at least one row and any lengths that
fit into it, the result has one row per sequence: the sum of the sequence's rows (zero for an
empty sequence).  The kernel stays inside its buffers.
Missing: matrices without rows, see `C37_all_empty_raises`. -/
theorem C37_reduce_sum_partial (X : Mat K) (ls : List Nat) (hrows : 0 < X.rows)
    (hsum : ls.sum ≤ X.rows) :
    ∃ Y, reduceSum X (asInts ls) = .ok Y ∧ Y.rows = ls.length ∧ Y.cols = X.cols ∧
      ∀ b < ls.length, ∀ o < X.cols,
        Y.at b o = ∑ t ∈ range (seqLen ls b), seqAt X ls b t o := by
  unfold reduceSum
  by_cases h0 : (asInts ls).length = 0 ∨ X.cols = 0
  · rw [if_pos h0]
    refine ⟨_, rfl, by simp [Mat.zeros, asInts], rfl, fun b hb o ho => ?_⟩
    rw [asInts_length] at h0
    omega
  · rw [if_neg h0, pointer_ok X hrows (by omega)]
    obtain ⟨s, h1, h2, _, h3⟩ := reduce_loop (fun _ => (1 : K)) X.buf
      (Mat.zeros (asInts ls).length X.cols).buf X.cols X.rows ls rfl hsum
      (by simp [Mat.zeros, Mat.buf, asInts]) (fun _ => rfl)
    simp only [bind, Except.bind, pure, Except.pure, cpuReduceSum, h1]
    refine ⟨_, rfl, by simp [Buf.toMat, asInts], rfl, fun b hb o ho => ?_⟩
    have := h3 b hb o ho
    simpa [Buf.toMat, Mat.at, Mat.buf, seqAt] using this

/-- **C37** (`reduce_mean`, NumPy backend): the mean of the sequence's rows, zero for an empty
sequence. -/
theorem C37_reduce_mean_partial (X : Mat K) (ls : List Nat) (hrows : 0 < X.rows)
    (hsum : ls.sum ≤ X.rows) :
    ∃ Y, reduceMean X (asInts ls) = .ok Y ∧ Y.rows = ls.length ∧ Y.cols = X.cols ∧
      ∀ b < ls.length, ∀ o < X.cols,
        Y.at b o = if seqLen ls b = 0 then 0
          else (∑ t ∈ range (seqLen ls b), seqAt X ls b t o) / (seqLen ls b : K) := by
  unfold reduceMean
  by_cases h0 : (asInts ls).length = 0 ∨ X.cols = 0
  · rw [if_pos h0]
    refine ⟨_, rfl, by simp [Mat.zeros, asInts], rfl, fun b hb o ho => ?_⟩
    rw [asInts_length] at h0
    omega
  · rw [if_neg h0, pointer_ok X hrows (by omega)]
    obtain ⟨s, h1, h2, _, h3⟩ := reduce_loop (fun l => 1 / (l : K)) X.buf
      (Mat.zeros (asInts ls).length X.cols).buf X.cols X.rows ls rfl hsum
      (by simp [Mat.zeros, Mat.buf, asInts]) (fun _ => rfl)
    simp only [bind, Except.bind, pure, Except.pure, cpuReduceMean, h1]
    refine ⟨_, rfl, by simp [Buf.toMat, asInts], rfl, fun b hb o ho => ?_⟩
    have := h3 b hb o ho
    simp only [Buf.toMat, Mat.at, Mat.buf] at this ⊢
    rw [this]
    by_cases hl : seqLen ls b = 0
    · simp [hl]
    · rw [if_neg hl, ← Finset.mul_sum, one_div, Int.cast_natCast, mul_comm, ← div_eq_mul_inv]
      rfl

/-- A batch of three sequences, one of them empty, meets the hypotheses. -/
def exPool : Mat ℚ := Mat.ofFn 3 2 (fun i j => (i : ℚ) + 10 * (j : ℚ))

example : 0 < exPool.rows ∧ [1, 0, 2].sum ≤ exPool.rows := by decide

/-- **C37**: when every sequence of a non-empty batch is empty (the matrix has no rows), both
functions raise IndexError instead of giving zeros. -/
theorem C37_all_empty_raises (X : Mat K) (ls : List Nat) (hX : X.rows = 0) (hc : 0 < X.cols)
    (hls : ls ≠ []) :
    reduceSum X (asInts ls) = .error .indexError ∧ reduceMean X (asInts ls) = .error .indexError := by
  have h0 : ¬ ((asInts ls).length = 0 ∨ X.cols = 0) := by
    rw [asInts_length]
    have := List.length_pos_iff.2 hls
    omega
  have h1 : X.pointer = .error .indexError := by
    unfold Mat.pointer
    rw [if_pos (by omega)]
  unfold reduceSum reduceMean
  rw [if_neg h0, if_neg h0, h1]
  exact ⟨rfl, rfl⟩

example : (Mat.zeros 0 2 : Mat ℚ).rows = 0 ∧ 0 < (Mat.zeros 0 2 : Mat ℚ).cols := by decide

theorem reduce_bad (scale : Int → K) (X : Mat K) (ls : List Nat) (bad : Int) (rest : List Int)
    (hsum : ls.sum ≤ X.rows) :
    (bad < 0 → forM' (asInts ls ++ bad :: rest)
        ⟨(Mat.zeros (asInts ls ++ bad :: rest).length X.cols).buf, 0, 0, X.rows⟩
        (reduceStep scale X.buf X.cols) = .error .valueError) ∧
    ((X.rows : Int) - ls.sum < bad → forM' (asInts ls ++ bad :: rest)
        ⟨(Mat.zeros (asInts ls ++ bad :: rest).length X.cols).buf, 0, 0, X.rows⟩
        (reduceStep scale X.buf X.cols) = .error .indexError) := by
  obtain ⟨s, h1, h2, h3, _⟩ := reduce_loop scale X.buf
    (Mat.zeros (asInts ls ++ bad :: rest).length X.cols).buf X.cols X.rows ls rfl hsum
    (by
      simp only [Mat.zeros, Mat.buf, asInts, List.length_append, List.length_map, List.length_cons]
      exact Nat.mul_le_mul_right _ (by omega)) (fun _ => rfl)
  constructor
  · intro hb
    rw [forM'_append, h1]
    simp only [forM', reduceStep, if_pos hb]
  · intro hb
    rw [forM'_append, h1]
    have h4 : ¬ bad < 0 := by omega
    have h5 : bad > s.T := by omega
    simp only [forM', reduceStep, if_neg h4, if_pos h5]

/-- **C37**: a negative length, and lengths that reach past the last row, are rejected (after a
prefix `ls` of good lengths; every bad list has a first bad length). -/
theorem C37_bad_lengths_raise (X : Mat K) (ls : List Nat) (bad : Int) (rest : List Int)
    (hrows : 0 < X.rows) (hcols : 0 < X.cols) (hsum : ls.sum ≤ X.rows) :
    (bad < 0 → reduceSum X (asInts ls ++ bad :: rest) = .error .valueError ∧
      reduceMean X (asInts ls ++ bad :: rest) = .error .valueError) ∧
    ((X.rows : Int) - ls.sum < bad → reduceSum X (asInts ls ++ bad :: rest) = .error .indexError ∧
      reduceMean X (asInts ls ++ bad :: rest) = .error .indexError) := by
  have h0 : ¬ ((asInts ls ++ bad :: rest).length = 0 ∨ X.cols = 0) := by
    simp only [List.length_append, List.length_cons]
    omega
  have hs := reduce_bad (fun _ => (1 : K)) X ls bad rest hsum
  have hm := reduce_bad (fun l => 1 / (l : K)) X ls bad rest hsum
  unfold reduceSum reduceMean
  rw [if_neg h0, if_neg h0, pointer_ok X hrows hcols]
  simp only [bind, Except.bind, cpuReduceSum, cpuReduceMean]
  constructor
  · intro hb
    rw [hs.1 hb, hm.1 hb]
    exact ⟨rfl, rfl⟩
  · intro hb
    rw [hs.2 hb, hm.2 hb]
    exact ⟨rfl, rfl⟩

example : [1].sum ≤ exPool.rows ∧ ((exPool.rows : Int) - ([1].sum : Nat) < 3) := by decide

/-- **C37**, where the claim fails: lengths that do not use up the rows are accepted. -/
theorem C37_short_lengths_accepted : ∃ (X : Mat ℚ) (ls : List Nat) (Y : Mat ℚ),
    ls.sum < X.rows ∧ reduceSum X (asInts ls) = .ok Y := by
  obtain ⟨Y, h, _⟩ := C37_reduce_sum_partial exPool [1] (by decide) (by decide)
  exact ⟨exPool, [1], Y, by decide, h⟩

/-- **C37** (`backprop_reduce_sum`): every row of a sequence receives the sequence's gradient. -/
theorem C37_backprop_reduce_sum (d : Mat K) (ls : List Nat) (hd : d.rows = ls.length) :
    ∃ dX, backpropReduceSum d (asInts ls) = .ok dX ∧ dX.rows = ls.sum ∧ dX.cols = d.cols ∧
      ∀ b < ls.length, ∀ t < seqLen ls b, ∀ o < d.cols, seqAt dX ls b t o = d.at b o := by
  unfold backpropReduceSum
  rw [sumLengths_ok]
  simp only [bind, Except.bind, pure, Except.pure]
  by_cases h0 : (ls.sum : Int) = 0 ∨ d.cols = 0
  · rw [if_pos h0]
    refine ⟨_, rfl, Int.toNat_natCast _, rfl, fun b hb t ht o ho => ?_⟩
    have := seqEnd_le ls b hb
    omega
  · rw [if_neg h0]
    have hpos : 0 < ls.length := by
      rcases Nat.eq_zero_or_pos ls.length with h | h
      · rw [List.length_eq_zero_iff.1 h] at h0
        simp at h0
      · exact h
    rw [pointer_ok d (by omega) (by omega)]
    obtain ⟨s, h1, h2, h3⟩ := backReduce_loop (fun _ => (1 : K)) d.buf
      (Mat.zeros (ls.sum : Int).toNat d.cols).buf d.cols ls (by simp [Mat.buf, hd])
      (by simp only [Mat.zeros, Mat.buf, Int.toNat_natCast]) (fun _ => rfl)
    simp only [cpuBackpropReduceSum, bind, Except.bind, pure, Except.pure, h1]
    refine ⟨_, rfl, Int.toNat_natCast _, rfl, fun b hb t ht o ho => ?_⟩
    have := h3 b hb t ht o ho
    simpa [Buf.toMat, Mat.at, Mat.buf, seqAt] using this

/-- **C37** (`backprop_reduce_mean`): every row of a sequence receives the sequence's gradient divided
by its length. -/
theorem C37_backprop_reduce_mean (d : Mat K) (ls : List Nat) (hd : d.rows = ls.length) :
    ∃ dX, backpropReduceMean d (asInts ls) = .ok dX ∧ dX.rows = ls.sum ∧ dX.cols = d.cols ∧
      ∀ b < ls.length, ∀ t < seqLen ls b, ∀ o < d.cols,
        seqAt dX ls b t o = d.at b o / (seqLen ls b : K) := by
  unfold backpropReduceMean
  rw [sumLengths_ok]
  simp only [bind, Except.bind, pure, Except.pure]
  by_cases h0 : (ls.sum : Int) = 0 ∨ d.cols = 0
  · rw [if_pos h0]
    refine ⟨_, rfl, Int.toNat_natCast _, rfl, fun b hb t ht o ho => ?_⟩
    have := seqEnd_le ls b hb
    omega
  · rw [if_neg h0]
    have hpos : 0 < ls.length := by
      rcases Nat.eq_zero_or_pos ls.length with h | h
      · rw [List.length_eq_zero_iff.1 h] at h0
        simp at h0
      · exact h
    rw [pointer_ok d (by omega) (by omega)]
    obtain ⟨s, h1, h2, h3⟩ := backReduce_loop (fun l => 1 / (l : K)) d.buf
      (Mat.zeros (ls.sum : Int).toNat d.cols).buf d.cols ls (by simp [Mat.buf, hd])
      (by simp only [Mat.zeros, Mat.buf, Int.toNat_natCast]) (fun _ => rfl)
    simp only [cpuBackpropReduceMean, bind, Except.bind, pure, Except.pure, h1]
    refine ⟨_, rfl, Int.toNat_natCast _, rfl, fun b hb t ht o ho => ?_⟩
    have := h3 b hb t ht o ho
    simp only [Buf.toMat, Mat.at, Mat.buf, seqAt] at this ⊢
    rw [this, one_div, Int.cast_natCast, mul_comm, ← div_eq_mul_inv]

/-- The inner product of two matrices, sequence by sequence. -/
theorem inner_segments (ls : List Nat) (m : Nat) (f g : Nat → Nat → K) :
    inner ls.sum m f g = ∑ b ∈ range ls.length, ∑ t ∈ range (seqLen ls b), ∑ o ∈ range m,
      f (seqStart ls b + t) o * g (seqStart ls b + t) o := by
  simp only [Spec.inner]
  rw [sum_segments]
  rfl

/-- **C37**: `backprop_reduce_sum` is the exact adjoint of `reduce_sum`. -/
theorem C37_adjoint_sum (X d : Mat K) (ls : List Nat) (hrows : 0 < X.rows)
    (hsum : ls.sum = X.rows) (hd : d.rows = ls.length) (hc : d.cols = X.cols) :
    ∃ Y dX, reduceSum X (asInts ls) = .ok Y ∧ backpropReduceSum d (asInts ls) = .ok dX ∧
      dX.rows = X.rows ∧ dX.cols = X.cols ∧
      inner ls.length X.cols Y.at d.at = inner X.rows X.cols X.at dX.at := by
  obtain ⟨Y, hY, _, _, hY3⟩ := C37_reduce_sum_partial X ls hrows (le_of_eq hsum)
  obtain ⟨dX, hdX, hr, hcol, hdX3⟩ := C37_backprop_reduce_sum d ls hd
  refine ⟨Y, dX, hY, hdX, by omega, by omega, ?_⟩
  rw [← hsum, inner_segments]
  simp only [Spec.inner]
  refine Finset.sum_congr rfl fun b hb => ?_
  rw [Finset.sum_comm]
  refine Finset.sum_congr rfl fun o ho => ?_
  rw [Finset.mem_range] at hb ho
  rw [hY3 b hb o ho, Finset.sum_mul]
  refine Finset.sum_congr rfl fun t ht => ?_
  rw [Finset.mem_range] at ht
  have := hdX3 b hb t ht o (by omega)
  simp only [seqAt] at this ⊢
  rw [this]

/-- **C37**: `backprop_reduce_mean` is the exact adjoint of `reduce_mean`. -/
theorem C37_adjoint_mean (X d : Mat K) (ls : List Nat) (hrows : 0 < X.rows)
    (hsum : ls.sum = X.rows) (hd : d.rows = ls.length) (hc : d.cols = X.cols) :
    ∃ Y dX, reduceMean X (asInts ls) = .ok Y ∧ backpropReduceMean d (asInts ls) = .ok dX ∧
      dX.rows = X.rows ∧ dX.cols = X.cols ∧
      inner ls.length X.cols Y.at d.at = inner X.rows X.cols X.at dX.at := by
  obtain ⟨Y, hY, _, _, hY3⟩ := C37_reduce_mean_partial X ls hrows (le_of_eq hsum)
  obtain ⟨dX, hdX, hr, hcol, hdX3⟩ := C37_backprop_reduce_mean d ls hd
  refine ⟨Y, dX, hY, hdX, by omega, by omega, ?_⟩
  rw [← hsum, inner_segments]
  simp only [Spec.inner]
  refine Finset.sum_congr rfl fun b hb => ?_
  rw [Finset.sum_comm]
  refine Finset.sum_congr rfl fun o ho => ?_
  rw [Finset.mem_range] at hb ho
  rw [hY3 b hb o ho]
  by_cases hl : seqLen ls b = 0
  · simp [hl]
  · rw [if_neg hl, div_mul_eq_mul_div, Finset.sum_mul, Finset.sum_div]
    refine Finset.sum_congr rfl fun t ht => ?_
    rw [Finset.mem_range] at ht
    have := hdX3 b hb t ht o (by omega)
    simp only [seqAt] at this ⊢
    rw [this, mul_div_assoc]

example : 0 < exPool.rows ∧ [1, 0, 2].sum = exPool.rows ∧ (Mat.zeros 3 2 : Mat ℚ).rows = [1, 0, 2].length := by
  decide

/-- The exception of a result, if any. -/
def errOf {β : Type} : Except PyErr β → Option PyErr
  | .ok _ => none
  | .error e => some e

/-- **C37**: the number of gradient rows is not checked.  With fewer gradient rows than sequences the
kernel reads outside the gradient array. -/
theorem C37_short_gradient_out_of_bounds :
    errOf (backpropReduceSum (Mat.zeros 1 2 : Mat ℚ) [1, 1]) = some .outOfBounds := by
  decide +kernel

/-! ### The generic backend gives the same -/

omit [Field K] in
theorem setRow_at (Y : Mat K) (i : Nat) (row : Nat → K) (b o : Nat) (ho : o < Y.cols) :
    (Y.setRow i row).at b o = if b = i then row o else Y.at b o := by
  simp only [Mat.setRow, Mat.at, rowMajor_div _ _ _ ho, rowMajor_mod _ _ _ ho]

theorem opsReduceLoop_spec (agg : List K → K) (X : Mat K) (rest : List Nat) :
    ∀ (i start : Nat) (Y : Mat K), Y.cols = X.cols → start + rest.sum ≤ X.rows →
    ∃ Y', opsReduceLoop agg X (asInts rest) i start Y = .ok Y' ∧ Y'.rows = Y.rows ∧
      Y'.cols = X.cols ∧ ∀ b, ∀ o < X.cols, Y'.at b o =
        if i ≤ b ∧ b < i + rest.length then
          (if seqLen rest (b - i) = 0 then 0 else
            agg (X.colSlice (start + seqStart rest (b - i)) (seqLen rest (b - i)) o))
        else Y.at b o := by
  induction rest with
  | nil =>
    intro i start Y hc _
    refine ⟨Y, rfl, rfl, hc, fun b o ho => ?_⟩
    rw [if_neg (by simp)]
  | cons l rest ih =>
    intro i start Y hc hle
    rw [List.sum_cons] at hle
    have h1 : ¬ (Int.ofNat l < 0) := by simp
    have h2 : ¬ ((start : Int) + Int.ofNat l > X.rows) := by
      simp only [Int.ofNat_eq_natCast]
      omega
    have h3 : ((start : Int) + Int.ofNat l) = ((start + l : Nat) : Int) := by
      simp only [Int.ofNat_eq_natCast]
      push_cast
      ring
    -- the row written in this iteration
    have key : ∃ row, opsReduceLoop agg X (asInts (l :: rest)) i start Y =
        opsReduceLoop agg X (asInts rest) (i + 1) ((start + l : Nat) : Int) (Y.setRow i row) ∧
        ∀ o, row o = if l = 0 then 0 else agg (X.colSlice start l o) := by
      simp only [asInts, List.map_cons]
      by_cases hl : l = 0
      · refine ⟨fun _ => 0, ?_, fun o => by rw [if_pos hl]⟩
        have h4 : ¬ (Int.ofNat l ≠ 0) := by simp [hl]
        rw [opsReduceLoop, if_neg h1, if_neg h2, if_neg h4, h3]
      · refine ⟨fun o => agg (X.colSlice start l o), ?_, fun o => by rw [if_neg hl]⟩
        have h4 : (Int.ofNat l ≠ 0) := by simp [hl]
        rw [opsReduceLoop, if_neg h1, if_neg h2, if_pos h4, h3]
        rfl
    obtain ⟨row, hrow1, hrow2⟩ := key
    obtain ⟨Y', hY1, hY2, hY3, hY4⟩ := ih (i + 1) (start + l) (Y.setRow i row) hc (by omega)
    refine ⟨Y', by rw [hrow1, hY1], hY2, hY3, fun b o ho => ?_⟩
    rw [hY4 b o ho]
    by_cases hb : b = i
    · subst hb
      have h6 : b ≤ b ∧ b < b + (l :: rest).length := by
        rw [List.length_cons]
        omega
      rw [if_neg (by omega), setRow_at _ _ _ _ _ (by omega), if_pos rfl, if_pos h6, Nat.sub_self,
        hrow2 o]
      rfl
    · by_cases hb2 : i + 1 ≤ b ∧ b < i + 1 + rest.length
      · have h5 : b - i = (b - (i + 1)) + 1 := by omega
        have h6 : i ≤ b ∧ b < i + (l :: rest).length := by
          rw [List.length_cons]
          omega
        rw [if_pos hb2, if_pos h6, h5]
        simp only [seqLen, seqStart, List.getD_cons_succ, List.take_succ_cons, List.sum_cons,
          Nat.add_assoc]
      · rw [if_neg hb2, if_neg (by simp only [List.length_cons]; omega),
          setRow_at _ _ _ _ _ (by omega), if_neg hb]

theorem colSlice_sum (X : Mat K) (start l o : Nat) :
    (X.colSlice start l o).sum = ∑ t ∈ range l, X.at (start + t) o := by
  simp only [Mat.colSlice]
  induction l with
  | zero => simp
  | succ l ih => rw [List.range_succ, List.map_append, List.sum_append, Finset.sum_range_succ, ih]; simp

/-- **C37**: the generic `Ops.reduce_sum` and `Ops.reduce_mean` compute the same pooling, also without
rows, whatever the uninitialised result held before. -/
theorem C37_generic_forward (junk : Nat → K) (X : Mat K) (ls : List Nat) (hsum : ls.sum ≤ X.rows) :
    (∃ Y, opsReduceSum junk X (asInts ls) = .ok Y ∧ Y.rows = ls.length ∧ Y.cols = X.cols ∧
      ∀ b < ls.length, ∀ o < X.cols, Y.at b o = ∑ t ∈ range (seqLen ls b), seqAt X ls b t o) ∧
    (∃ Y, opsReduceMean junk X (asInts ls) = .ok Y ∧ Y.rows = ls.length ∧ Y.cols = X.cols ∧
      ∀ b < ls.length, ∀ o < X.cols, Y.at b o = if seqLen ls b = 0 then 0
        else (∑ t ∈ range (seqLen ls b), seqAt X ls b t o) / (seqLen ls b : K)) := by
  constructor
  · obtain ⟨Y, h1, h2, h3, h4⟩ := opsReduceLoop_spec List.sum X ls 0 0
      ⟨(asInts ls).length, X.cols, junk⟩ rfl (by omega)
    refine ⟨Y, h1, by rw [h2]; simp [asInts], h3, fun b hb o ho => ?_⟩
    rw [h4 b o ho, if_pos (by omega)]
    simp only [Nat.sub_zero, Nat.zero_add, colSlice_sum]
    by_cases hl : seqLen ls b = 0
    · simp [hl]
    · rw [if_neg hl]
      rfl
  · obtain ⟨Y, h1, h2, h3, h4⟩ := opsReduceLoop_spec (fun c => c.sum / (c.length : K)) X ls 0 0
      ⟨(asInts ls).length, X.cols, junk⟩ rfl (by omega)
    refine ⟨Y, h1, by rw [h2]; simp [asInts], h3, fun b hb o ho => ?_⟩
    rw [h4 b o ho, if_pos (by omega)]
    simp only [Nat.sub_zero, Nat.zero_add, colSlice_sum]
    have h5 : (X.colSlice (seqStart ls b) (seqLen ls b) o).length = seqLen ls b := by
      simp [Mat.colSlice]
    rw [h5]
    rfl

omit [Field K] in
theorem opsBackpropLoop_spec (f : Int → K → K) (d : Mat K) (rest : List Nat) :
    ∀ (i start : Nat) (dX : Mat K), dX.cols = d.cols → i + rest.length ≤ d.rows →
    ∃ dX', opsBackpropLoop f d (asInts rest) i start dX = .ok dX' ∧ dX'.rows = dX.rows ∧
      dX'.cols = d.cols ∧
      (∀ r < start, ∀ o < d.cols, dX'.at r o = dX.at r o) ∧
      ∀ b < rest.length, ∀ t < seqLen rest b, ∀ o < d.cols,
        dX'.at (start + seqStart rest b + t) o = f (seqLen rest b) (d.at (i + b) o) := by
  induction rest with
  | nil =>
    intro i start dX hc _
    exact ⟨dX, rfl, rfl, hc, fun _ _ _ _ => rfl, fun b hb => absurd hb (by simp)⟩
  | cons l rest ih =>
    intro i start dX hc hle
    rw [List.length_cons] at hle
    have h1 : ¬ (Int.ofNat l < 0) := by simp
    have h2 : ¬ ¬ (i < d.rows) := by omega
    have h3 : ((start : Int) + Int.ofNat l) = ((start + l : Nat) : Int) := by
      simp only [Int.ofNat_eq_natCast]
      push_cast
      ring
    obtain ⟨Y, hY1, hY2, hY3, hY4, hY5⟩ := ih (i + 1) (start + l)
      ⟨dX.rows, dX.cols, fun k => if start ≤ k / dX.cols ∧ k / dX.cols < start + l
        then f (Int.ofNat l) (d.at i (k % dX.cols)) else dX.val k⟩ hc (by omega)
    refine ⟨Y, ?_, hY2, hY3, ?_, ?_⟩
    · simp only [asInts, List.map_cons]
      rw [opsBackpropLoop, if_neg h1, if_neg h2, h3, Int.toNat_natCast, Int.toNat_natCast]
      exact hY1
    · intro r hr o ho
      rw [hY4 r (by omega) o ho]
      simp only [Mat.at, rowMajor_div _ _ _ (show o < dX.cols by omega)]
      rw [if_neg (by omega)]
    · intro b hb t ht o ho
      match b, hb, ht with
      | 0, hb, ht =>
        simp only [seqLen, List.getD_cons_zero] at ht
        simp only [seqStart, List.take_zero, List.sum_nil, Nat.add_zero, seqLen, List.getD_cons_zero]
        rw [hY4 _ (by omega) o ho]
        simp only [Mat.at, rowMajor_div _ _ _ (show o < dX.cols by omega),
          rowMajor_mod _ _ _ (show o < dX.cols by omega)]
        rw [if_pos (by omega)]
        rfl
      | b + 1, hb, ht =>
        have := hY5 b (by simpa using hb) t (by simpa [seqLen] using ht) o ho
        simp only [seqLen, seqStart, List.getD_cons_succ, List.take_succ_cons, List.sum_cons] at this ⊢
        rw [show start + (l + (rest.take b).sum) + t = start + l + (rest.take b).sum + t by omega, this,
          show i + (b + 1) = i + 1 + b by omega]

theorem asInts_sum (ls : List Nat) : (asInts ls).sum = (ls.sum : Int) := by
  induction ls with
  | nil => rfl
  | cons l ls ih =>
    simp only [asInts] at ih
    simp only [asInts, List.map_cons, List.sum_cons, ih, Int.ofNat_eq_natCast, Nat.cast_add]

/-- **C37**: the backward functions of the generic backend. -/
theorem C37_generic_backward (junk : Nat → K) (d : Mat K) (ls : List Nat) (hd : d.rows = ls.length) :
    (∃ dX, opsBackpropReduceSum junk d (asInts ls) = .ok dX ∧ dX.rows = ls.sum ∧ dX.cols = d.cols ∧
      ∀ b < ls.length, ∀ t < seqLen ls b, ∀ o < d.cols, seqAt dX ls b t o = d.at b o) ∧
    (∃ dX, opsBackpropReduceMean junk d (asInts ls) = .ok dX ∧ dX.rows = ls.sum ∧ dX.cols = d.cols ∧
      ∀ b < ls.length, ∀ t < seqLen ls b, ∀ o < d.cols,
        seqAt dX ls b t o = d.at b o / (seqLen ls b : K)) := by
  have hsum := asInts_sum ls
  constructor
  · obtain ⟨Y, h1, h2, h3, _, h5⟩ := opsBackpropLoop_spec (fun _ x => x) d ls 0 0
      ⟨ls.sum, d.cols, junk⟩ rfl (by omega)
    refine ⟨Y, ?_, h2, h3, fun b hb t ht o ho => ?_⟩
    · unfold opsBackpropReduceSum
      rw [if_neg (by omega), hsum, Int.toNat_natCast]
      exact h1
    · have := h5 b hb t ht o ho
      simpa [seqAt] using this
  · obtain ⟨Y, h1, h2, h3, _, h5⟩ := opsBackpropLoop_spec (fun l x => x / (l : K)) d ls 0 0
      ⟨ls.sum, d.cols, junk⟩ rfl (by omega)
    refine ⟨Y, ?_, h2, h3, fun b hb t ht o ho => ?_⟩
    · unfold opsBackpropReduceMean
      rw [if_neg (by omega), hsum, Int.toNat_natCast]
      exact h1
    · have := h5 b hb t ht o ho
      simpa [seqAt] using this

end Thinc
