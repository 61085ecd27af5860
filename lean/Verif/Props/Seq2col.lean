import Verif.Lemmas.Seq2col
import Verif.Props.Pooling
/-!
# C40 Windows over sequences
-/
namespace Thinc
open Finset Spec
variable {K : Type}

/-- The sequence lengths that are used when `lengths` is or is not given. -/
def Spec.effLengths (lengths : Option (List Nat)) (rows : Nat) : List Nat := lengths.getD [rows]

theorem checkLengths_ok (lengths : Option (List Nat)) (rows : Nat)
    (h : (effLengths lengths rows).sum = rows) :
    checkSeq2colLengths (lengths.map asInts) rows = .ok (asInts (effLengths lengths rows)) := by
  cases lengths with
  | none => rfl
  | some ls =>
    simp only [effLengths, Option.getD_some] at h
    simp only [checkSeq2colLengths, Option.map_some, effLengths, Option.getD_some]
    rw [if_neg (by
      rw [not_not, List.all_eq_true]
      intro i hi
      simp only [asInts, List.mem_map] at hi
      obtain ⟨n, _, rfl⟩ := hi
      exact decide_eq_true (by simp)), asInts_sum, h, if_neg (by simp)]

/-- **C40** (`seq2col`): in row `t` of a sequence, the `k`-th of the `2 nW + 1` windows holds row
`t + k - nW` of the same sequence, and zeros if the sequence has no such row. -/
theorem C40_seq2col [Zero K] (X : Mat K) (nW : Nat) (lengths : Option (List Nat)) (ls : List Nat)
    (hls : ls = effLengths lengths X.rows) (hsum : ls.sum = X.rows) :
    ∃ Y, seq2col X nW (lengths.map asInts) = .ok Y ∧ Y.rows = X.rows ∧
      Y.cols = (2 * nW + 1) * X.cols ∧
      ∀ b < ls.length, ∀ t < seqLen ls b, ∀ k < 2 * nW + 1, ∀ i < X.cols,
        seqAt Y ls b t (k * X.cols + i) =
          if nW ≤ t + k ∧ t + k - nW < seqLen ls b then seqAt X ls b (t + k - nW) i else 0 := by
  subst hls
  unfold seq2col
  rw [checkLengths_ok _ _ hsum]
  simp only [bind, Except.bind, pure, Except.pure]
  by_cases h0 : X.rows * X.cols ≠ 0 ∧ (asInts (effLengths lengths X.rows)).length ≠ 0
  · rw [if_pos h0]
    obtain ⟨out, h1, h2⟩ := cpuSeq2col_spec X.buf
      (Mat.zeros X.rows ((2 * nW + 1) * X.cols) : Mat K).buf nW X.cols (effLengths lengths X.rows)
      (by simp only [Mat.buf, hsum]) (by simp only [Mat.buf, Mat.zeros, hsum]) (fun _ => rfl)
    rw [h1]
    exact ⟨_, rfl, rfl, rfl, h2⟩
  · rw [if_neg h0]
    refine ⟨_, rfl, rfl, rfl, fun b hb t ht k hk i hi => ?_⟩
    exfalso
    have := seqEnd_le _ b hb
    rw [hsum] at this
    apply h0
    refine ⟨Nat.mul_ne_zero (by omega) (by omega), ?_⟩
    rw [asInts_length]
    omega

/-- **C40** (`backprop_seq2col`): row `s` of a sequence receives the sum of the gradients of all the
windows of the same sequence that showed it. -/
theorem C40_backprop_seq2col [Semiring K] (dY : Mat K) (nW I : Nat) (lengths : Option (List Nat))
    (ls : List Nat) (hls : ls = effLengths lengths dY.rows) (hsum : ls.sum = dY.rows)
    (hI : dY.cols = (2 * nW + 1) * I) :
    ∃ dX, backpropSeq2col dY nW (lengths.map asInts) = .ok dX ∧ dX.rows = dY.rows ∧ dX.cols = I ∧
      ∀ b < ls.length, ∀ s < seqLen ls b, ∀ i < I, seqAt dX ls b s i =
        ∑ t ∈ range (seqLen ls b), if t ≤ s + nW ∧ s ≤ t + nW then
          seqAt dY ls b t ((s + nW - t) * I + i) else 0 := by
  subst hls
  have hdiv : dY.cols / (nW * 2 + 1) = I := by
    rw [hI, Nat.mul_comm nW 2, Nat.mul_div_cancel_left _ (by omega)]
  unfold backpropSeq2col
  rw [checkLengths_ok _ _ hsum]
  simp only [bind, Except.bind, pure, Except.pure, hdiv]
  by_cases h0 : dY.rows * dY.cols ≠ 0 ∧ (asInts (effLengths lengths dY.rows)).length ≠ 0
  · rw [if_pos h0]
    obtain ⟨out, h1, h2⟩ := cpuBackpropSeq2col_spec dY.buf
      (Mat.zeros dY.rows I : Mat K).buf nW I (effLengths lengths dY.rows)
      (by simp only [Mat.buf, Mat.zeros, hsum]) (by simp only [Mat.buf, hsum, hI, le_refl]) (fun _ => rfl)
    rw [h1]
    refine ⟨_, rfl, rfl, rfl, fun b hb s hs i hi => ?_⟩
    have := h2 b hb s hs i hi
    simp only [seqAt, Mat.at, hI]
    exact this
  · rw [if_neg h0]
    refine ⟨_, rfl, rfl, rfl, fun b hb s hs i hi => ?_⟩
    exfalso
    have := seqEnd_le _ b hb
    rw [hsum] at this
    apply h0
    refine ⟨Nat.mul_ne_zero (by omega) ?_, ?_⟩
    · rw [hI]
      exact Nat.mul_ne_zero (by omega) (by omega)
    · rw [asInts_length]
      omega

/-- A sum over `n * m` columns, by blocks. -/
theorem sum_range_blocks {M : Type} [AddCommMonoid M] (n m : Nat) (f : Nat → M) :
    ∑ c ∈ range (n * m), f c = ∑ k ∈ range n, ∑ i ∈ range m, f (k * m + i) := by
  have h := sum_segments (List.replicate n m) f
  rw [List.sum_replicate, List.length_replicate, Nat.nsmul_eq_mul] at h
  rw [h]
  refine Finset.sum_congr rfl fun k hk => ?_
  rw [Finset.mem_range] at hk
  have h1 : (List.replicate n m).getD k 0 = m := by simp [List.getD_eq_getElem?_getD, hk]
  have h2 : ((List.replicate n m).take k).sum = k * m := by
    rw [List.take_replicate, List.sum_replicate, Nat.nsmul_eq_mul, Nat.min_eq_left (by omega)]
  rw [h1, h2]

/-- Windows seen from the row and rows seen from the window. -/
theorem window_swap [CommSemiring K] (nW len t : Nat) (x : Nat → K) (g : Nat → K) (ht : t < len) :
    ∑ k ∈ range (2 * nW + 1), (if nW ≤ t + k ∧ t + k - nW < len then x (t + k - nW) else 0) * g k =
    ∑ s ∈ range len, x s * (if t ≤ s + nW ∧ s ≤ t + nW then g (s + nW - t) else 0) := by
  have e1 : ∀ k, (if nW ≤ t + k ∧ t + k - nW < len then x (t + k - nW) else 0) * g k =
      if nW ≤ t + k ∧ t + k - nW < len then x (t + k - nW) * g k else 0 := fun k => by
    split <;> simp
  have e2 : ∀ s, x s * (if t ≤ s + nW ∧ s ≤ t + nW then g (s + nW - t) else 0) =
      if t ≤ s + nW ∧ s ≤ t + nW then x s * g (s + nW - t) else 0 := fun s => by
    split <;> simp
  simp only [e1, e2]
  rw [← Finset.sum_filter, ← Finset.sum_filter]
  refine Finset.sum_bij' (fun k _ => t + k - nW) (fun s _ => s + nW - t) ?_ ?_ ?_ ?_ ?_
  · intro k hk
    simp only [mem_filter, mem_range] at hk ⊢
    omega
  · intro s hs
    simp only [mem_filter, mem_range] at hs ⊢
    omega
  · intro k hk
    simp only [mem_filter, mem_range] at hk
    omega
  · intro s hs
    simp only [mem_filter, mem_range] at hs
    omega
  · intro k hk
    simp only [mem_filter, mem_range] at hk
    congr 2
    omega

/-- **C40**: `backprop_seq2col` is the exact adjoint of `seq2col`. -/
theorem C40_adjoint [CommSemiring K] (X dY : Mat K) (nW : Nat) (lengths : Option (List Nat))
    (hsum : (effLengths lengths X.rows).sum = X.rows) (hr : dY.rows = X.rows)
    (hc : dY.cols = (2 * nW + 1) * X.cols) :
    ∃ Y dX, seq2col X nW (lengths.map asInts) = .ok Y ∧
      backpropSeq2col dY nW (lengths.map asInts) = .ok dX ∧ dX.rows = X.rows ∧ dX.cols = X.cols ∧
      inner Y.rows Y.cols Y.at dY.at = inner X.rows X.cols X.at dX.at := by
  obtain ⟨ls, hls⟩ : ∃ ls, ls = effLengths lengths X.rows := ⟨_, rfl⟩
  rw [← hls] at hsum
  obtain ⟨Y, hY1, hY2, hY3, hY4⟩ := C40_seq2col X nW lengths ls hls hsum
  obtain ⟨dX, hd1, hd2, hd3, hd4⟩ := C40_backprop_seq2col dY nW X.cols lengths ls (by rw [hls, hr])
    (by omega) hc
  refine ⟨Y, dX, hY1, hd1, by omega, hd3, ?_⟩
  have e : ∀ (m : Nat) (f g : Nat → Nat → K), inner ls.sum m f g =
      ∑ b ∈ range ls.length, ∑ t ∈ range (seqLen ls b), ∑ o ∈ range m,
        f (seqStart ls b + t) o * g (seqStart ls b + t) o := by
    intro m f g
    simp only [Spec.inner]
    rw [sum_segments]
    rfl
  rw [hY2, hY3, ← hsum, e, e]
  refine Finset.sum_congr rfl fun b hb => ?_
  rw [Finset.mem_range] at hb
  -- left: sum over t, k, i; right: sum over s, i, t
  have hL : ∑ t ∈ range (seqLen ls b), ∑ o ∈ range ((2 * nW + 1) * X.cols),
      Y.at (seqStart ls b + t) o * dY.at (seqStart ls b + t) o =
      ∑ t ∈ range (seqLen ls b), ∑ i ∈ range X.cols, ∑ s ∈ range (seqLen ls b), seqAt X ls b s i *
        (if t ≤ s + nW ∧ s ≤ t + nW then seqAt dY ls b t ((s + nW - t) * X.cols + i) else 0) := by
    refine Finset.sum_congr rfl fun t ht => ?_
    rw [Finset.mem_range] at ht
    rw [sum_range_blocks, Finset.sum_comm]
    refine Finset.sum_congr rfl fun i hi => ?_
    rw [Finset.mem_range] at hi
    rw [← window_swap nW (seqLen ls b) t (fun s => seqAt X ls b s i)
      (fun k => seqAt dY ls b t (k * X.cols + i)) ht]
    refine Finset.sum_congr rfl fun k hk => ?_
    rw [Finset.mem_range] at hk
    have := hY4 b hb t ht k hk i hi
    simp only [seqAt] at this ⊢
    rw [this]
  rw [hL]
  have hR : ∑ s ∈ range (seqLen ls b), ∑ i ∈ range X.cols,
      X.at (seqStart ls b + s) i * dX.at (seqStart ls b + s) i =
      ∑ s ∈ range (seqLen ls b), ∑ i ∈ range X.cols, ∑ t ∈ range (seqLen ls b), seqAt X ls b s i *
        (if t ≤ s + nW ∧ s ≤ t + nW then seqAt dY ls b t ((s + nW - t) * X.cols + i) else 0) := by
    refine Finset.sum_congr rfl fun s hs => Finset.sum_congr rfl fun i hi => ?_
    rw [Finset.mem_range] at hs hi
    have := hd4 b hb s hs i hi
    simp only [seqAt] at this ⊢
    rw [this, Finset.mul_sum]
  rw [hR, Finset.sum_comm]
  rw [Finset.sum_comm (s := range (seqLen ls b)) (t := range X.cols)]
  exact Finset.sum_congr rfl fun i _ => Finset.sum_comm

/-- **C40**: bad lengths are rejected by an assertion, forward and backward. -/
theorem C40_bad_lengths_raise [Semiring K] (X : Mat K) (nW : Nat) (ls : List Int)
    (hbad : (∃ l ∈ ls, l < 0) ∨ ls.sum ≠ X.rows) :
    seq2col X nW (some ls) = .error .assertionError ∧
    backpropSeq2col X nW (some ls) = .error .assertionError := by
  have h : checkSeq2colLengths (some ls) X.rows = .error .assertionError := by
    unfold checkSeq2colLengths
    simp only
    by_cases h1 : ls.all (fun l => decide (0 ≤ l)) = true
    · rw [if_neg (by rw [not_not]; exact h1)]
      rcases hbad with ⟨l, hl, hneg⟩ | h
      · have := of_decide_eq_true (List.all_eq_true.1 h1 l hl)
        omega
      · rw [if_pos h]
    · rw [if_pos h1]
  unfold seq2col backpropSeq2col
  rw [h]
  exact ⟨rfl, rfl⟩

example : (effLengths (some [1, 0, 2]) exPool.rows).sum = exPool.rows ∧
    (effLengths none exPool.rows).sum = exPool.rows := by decide

example : (∃ l ∈ [(4 : Int), -1], l < 0) ∧ [(1 : Int)].sum ≠ exPool.rows := by decide

/-- **C40**: where the generic backend supports the call (`nW = 1`, no lengths) it computes the same. -/
theorem C40_generic [Semiring K] (X dY : Mat K) (I : Nat) (hI : dY.cols = 3 * I) :
    (∃ Y, opsSeq2col X 1 none = .ok Y ∧ Y.rows = X.rows ∧ Y.cols = 3 * X.cols ∧
      ∀ t < X.rows, ∀ k < 3, ∀ i < X.cols, Y.at t (k * X.cols + i) =
        if 1 ≤ t + k ∧ t + k - 1 < X.rows then X.at (t + k - 1) i else 0) ∧
    (∃ dX, opsBackpropSeq2col dY 1 none = .ok dX ∧ dX.rows = dY.rows ∧ dX.cols = I ∧
      ∀ s < dY.rows, ∀ i < I, dX.at s i =
        ∑ t ∈ range dY.rows, if t ≤ s + 1 ∧ s ≤ t + 1 then dY.at t ((s + 1 - t) * I + i) else 0) := by
  constructor
  · refine ⟨_, rfl, rfl, Nat.mul_comm _ _, fun t ht k hk i hi => ?_⟩
    have hlt : k * X.cols + i < X.cols * 3 := by
      rw [Nat.mul_comm X.cols 3]
      exact rowMajor_lt hk hi
    simp only [Mat.at, rowMajor_div _ _ _ hlt, rowMajor_mod _ _ _ hlt, rowMajor_div _ _ _ hi,
      rowMajor_mod _ _ _ hi]
    match k, hk with
    | 0, _ =>
      rw [if_pos rfl]
      by_cases h1 : 1 ≤ t
      · rw [if_pos h1, if_pos (by omega), Nat.add_zero]
      · rw [if_neg h1, if_neg (by omega)]
    | 1, _ =>
      rw [if_neg (by omega), if_pos rfl, if_pos (by omega), Nat.add_sub_cancel]
    | 2, _ =>
      rw [if_neg (by omega), if_neg (by omega)]
      by_cases h1 : t + 1 < X.rows
      · rw [if_pos h1, if_pos (by omega), show t + 2 - 1 = t + 1 by omega]
      · rw [if_neg h1, if_neg (by omega)]
  · have hdiv : dY.cols / 3 = I := by rw [hI, Nat.mul_div_cancel_left _ (by omega)]
    have e : opsBackpropSeq2col dY 1 none = .ok ⟨dY.rows, dY.cols / 3, fun c =>
      let row := c / (dY.cols / 3)
      let i := c % (dY.cols / 3)
      (0 + (if row + 1 < dY.rows then dY.at (row + 1) (0 * (dY.cols / 3) + i) else 0)) +
        dY.at row (1 * (dY.cols / 3) + i) +
        (if 1 ≤ row then dY.at (row - 1) (2 * (dY.cols / 3) + i) else 0)⟩ := by
      unfold opsBackpropSeq2col
      rw [if_neg (by simp), if_neg (by simp), if_neg (by omega)]
    refine ⟨_, e, rfl, hdiv, fun s hs i hi => ?_⟩
    rw [hdiv]
    have hat : ∀ (v : Nat → K), (⟨dY.rows, I, v⟩ : Mat K).at s i = v (s * I + i) := fun _ => rfl
    rw [hat]
    simp only [rowMajor_div _ _ _ hi, rowMajor_mod _ _ _ hi, zero_add]
    -- split the sum at the three rows that matter
    have key : ∀ (n : Nat) (f : Nat → K), s < n →
        ∑ t ∈ range n, (if t ≤ s + 1 ∧ s ≤ t + 1 then f t else 0) =
        (if s + 1 < n then f (s + 1) else 0) + f s + (if 1 ≤ s then f (s - 1) else 0) := by
      intro n f hsn
      rw [← Finset.sum_filter]
      have hset : (range n).filter (fun t => t ≤ s + 1 ∧ s ≤ t + 1) =
          (if s + 1 < n then {s + 1} else ∅) ∪ ({s} ∪ (if 1 ≤ s then {s - 1} else ∅)) := by
        ext t
        simp only [mem_filter, mem_range, mem_union, mem_singleton]
        by_cases h1 : s + 1 < n <;> by_cases h2 : 1 ≤ s <;> simp [h1, h2] <;> omega
      rw [hset, Finset.sum_union, Finset.sum_union, ← add_assoc]
      · congr 1
        · congr 1
          · split <;> simp
          · simp
        · split <;> simp
      · rw [Finset.disjoint_left]
        intro a ha
        simp only [mem_singleton] at ha
        subst ha
        split
        · simp only [mem_singleton]
          omega
        · simp
      · rw [Finset.disjoint_left]
        intro a ha
        by_cases h1 : s + 1 < n
        · rw [if_pos h1, mem_singleton] at ha
          subst ha
          by_cases h2 : 1 ≤ s
          · rw [if_pos h2]
            simp only [mem_union, mem_singleton]
            omega
          · rw [if_neg h2]
            simp
        · rw [if_neg h1] at ha
          simp at ha
    rw [key dY.rows (fun t => dY.at t ((s + 1 - t) * I + i)) hs]
    simp only [Nat.sub_self, Nat.add_sub_cancel_left]
    congr 1
    by_cases h1 : 1 ≤ s
    · rw [if_pos h1, if_pos h1, show s + 1 - (s - 1) = 2 by omega]
    · rw [if_neg h1, if_neg h1]

end Thinc
