import Verif.Lemmas.PositionEncode
/-!
# C91: position encodings and n-gram hashes
-/
namespace Thinc
open Finset

/-- C91.  Whatever the allocated memory held, the result has `N` rows and `D` columns, each the sine
or cosine it should be: nothing is left unwritten, and nothing outside the buffer is touched. -/
theorem C91_encode (fresh : Nat → ℝ) (N D : Nat) (period : ℝ) :
    ∃ y, positionEncode fresh N D period none = .ok y ∧ y.rows = N ∧ y.cols = D ∧
      ∀ i, i < N → ∀ j, j < D → y.at i j = Spec.encoding period D i j := by
  obtain ⟨b, h1, _, h3, _⟩ := cpuPositionEncode_spec period N D (Mat.buf ⟨N, D, fresh⟩) (le_refl _)
  refine ⟨b.toMat N D, ?_, rfl, rfl, h3⟩
  simp only [positionEncode, Option.getD_none, ne_eq, not_true_eq_false, if_false, h1, bind, Except.bind]

/-- C91.  A given array of the right shape is filled in the same way; any other shape is an
`AssertionError`. -/
theorem C91_given (fresh : Nat → ℝ) (N D : Nat) (period : ℝ) (out : Mat ℝ) :
    (out.rows = N ∧ out.cols = D → ∃ y, positionEncode fresh N D period (some out) = .ok y ∧ y.rows = N ∧
      y.cols = D ∧ ∀ i, i < N → ∀ j, j < D → y.at i j = Spec.encoding period D i j) ∧
    (¬ (out.rows = N ∧ out.cols = D) → positionEncode fresh N D period (some out) = .error .assertionError) := by
  constructor
  · rintro ⟨rfl, rfl⟩
    obtain ⟨b, h1, _, h3, _⟩ := cpuPositionEncode_spec period out.rows out.cols out.buf (le_refl _)
    refine ⟨b.toMat out.rows out.cols, ?_, rfl, rfl, h3⟩
    simp only [positionEncode, Option.getD_some, ne_eq, not_true_eq_false, if_false, h1, bind, Except.bind]
  · intro h
    simp only [positionEncode, Option.getD_some]
    by_cases hr : out.rows = N
    · have hc : out.cols ≠ D := fun hc => h ⟨hr, hc⟩
      rw [if_neg (by simpa using hr), if_pos hc]
    · rw [if_pos hr]

/-- C91.  Every entry lies between `-1` and `1`. -/
theorem C91_bounded (fresh : Nat → ℝ) (N D : Nat) (period : ℝ) (y : Mat ℝ)
    (h : positionEncode fresh N D period none = .ok y) (i j : Nat) (hi : i < N) (hj : j < D) :
    -1 ≤ y.at i j ∧ y.at i j ≤ 1 := by
  obtain ⟨y', h1, _, _, h2⟩ := C91_encode fresh N D period
  rw [h] at h1
  obtain rfl := Except.ok.inj h1
  rw [h2 i hi j hj]
  unfold Spec.encoding
  split
  · exact ⟨Real.neg_one_le_sin _, Real.sin_le_one _⟩
  · exact ⟨Real.neg_one_le_cos _, Real.cos_le_one _⟩

/-- C91.  No two positions have the same encoding, however many there are. -/
theorem C91_distinct (fresh : Nat → ℝ) (N D : Nat) (period : ℝ) (y : Mat ℝ) (hD : 1 ≤ D)
    (h : positionEncode fresh N D period none = .ok y) (i i' : Nat) (hi : i < N) (hi' : i' < N)
    (heq : ∀ j, j < D → y.at i j = y.at i' j) : i = i' := by
  obtain ⟨y', h1, _, _, h2⟩ := C91_encode fresh N D period
  rw [h] at h1
  obtain rfl := Except.ok.inj h1
  have := heq 0 hD
  rw [h2 i hi 0 hD, h2 i' hi' 0 hD] at this
  have hp : Spec.pairOf D 0 = 0 := by
    simp only [Spec.pairOf, Nat.zero_sub, Nat.zero_mod, ite_self]
  simp only [Spec.encoding, Nat.zero_mod, if_true, hp, Spec.frequency, Nat.cast_zero, mul_zero, zero_div,
    Real.rpow_zero, div_one, mul_one] at this
  exact sin_nat_injective i i' this

/-- C91.  The encoding of a position `k` further on is a fixed linear map of the encoding of the
position, the same for all positions (any width but one). -/
theorem C91_relative (D k : Nat) (period : ℝ) (hD : D ≠ 1) : ∃ A : Nat → Nat → ℝ,
    ∀ (fresh : Nat → ℝ) (N : Nat) (y : Mat ℝ), positionEncode fresh N D period none = .ok y →
      ∀ i, i + k < N → ∀ j, j < D → y.at (i + k) j = ∑ l ∈ range D, A j l * y.at i l := by
  refine ⟨fun j l =>
    (if l = Spec.pairOf D j then (if j % 2 = 0 then Real.cos (k * Spec.frequency period D (Spec.pairOf D j))
      else - Real.sin (k * Spec.frequency period D (Spec.pairOf D j))) else 0) +
    (if l = Spec.pairOf D j + 1 then (if j % 2 = 0 then Real.sin (k * Spec.frequency period D (Spec.pairOf D j))
      else Real.cos (k * Spec.frequency period D (Spec.pairOf D j))) else 0), ?_⟩
  intro fresh N y h i hik j hj
  obtain ⟨y', h1, _, _, h2⟩ := C91_encode fresh N D period
  rw [h] at h1
  obtain rfl := Except.ok.inj h1
  have hc1 : Spec.pairOf D j + 1 < D := by
    unfold Spec.pairOf
    split <;> omega
  have hc2 : Spec.pairOf D j % 2 = 0 := by
    unfold Spec.pairOf
    split <;> omega
  have hs : Spec.pairOf D (Spec.pairOf D j) = Spec.pairOf D j := by
    generalize Spec.pairOf D j = c at hc1 hc2
    unfold Spec.pairOf
    rw [if_neg (by omega)]
    omega
  have hc : Spec.pairOf D (Spec.pairOf D j + 1) = Spec.pairOf D j := by
    generalize Spec.pairOf D j = c at hc1 hc2
    unfold Spec.pairOf
    rw [if_neg (by omega)]
    omega
  rw [h2 (i + k) hik j hj]
  simp only [add_mul, ite_mul, zero_mul, Finset.sum_add_distrib, Finset.sum_ite_eq', Finset.mem_range]
  rw [if_pos (by omega), if_pos hc1, h2 i (by omega) _ (by omega), h2 i (by omega) _ hc1]
  have ho : (Spec.pairOf D j + 1) % 2 = 1 := by omega
  simp only [Spec.encoding, hs, hc, hc2, ho, if_true, one_ne_zero, if_false]
  generalize Spec.frequency period D (Spec.pairOf D j) = w
  by_cases hp : j % 2 = 0
  · simp only [hp, if_true]
    push_cast
    rw [add_mul, Real.sin_add]
    ring
  · simp only [hp, if_false]
    push_cast
    rw [add_mul, Real.cos_add]
    ring

/-- C91.  With an odd width the last column brings nothing new: it repeats the column two before. -/
theorem C91_odd_repeats (fresh : Nat → ℝ) (N D : Nat) (period : ℝ) (y : Mat ℝ) (hD : 3 ≤ D) (hodd : D % 2 = 1)
    (h : positionEncode fresh N D period none = .ok y) (i : Nat) (hi : i < N) :
    y.at i (D - 1) = y.at i (D - 3) := by
  obtain ⟨y', h1, _, _, h2⟩ := C91_encode fresh N D period
  rw [h] at h1
  obtain rfl := Except.ok.inj h1
  rw [h2 i hi _ (by omega), h2 i hi _ (by omega)]
  have e1 : Spec.pairOf D (D - 1) = D - 3 := by
    unfold Spec.pairOf
    rw [if_pos (by omega)]
    omega
  have e2 : Spec.pairOf D (D - 3) = D - 3 := by
    unfold Spec.pairOf
    rw [if_neg (by omega)]
    omega
  have e3 : (D - 1) % 2 = 0 := by omega
  have e4 : (D - 3) % 2 = 0 := by omega
  simp only [Spec.encoding, e1, e2, e3, e4, if_true]

/-- C91, non-vacuity: three positions in four columns. -/
example (fresh : Nat → ℝ) : ∃ y, positionEncode fresh 3 4 10000 none = .ok y ∧ y.at 0 0 = 0 ∧ y.at 0 3 = 1 ∧
    y.at 2 1 = Real.cos 2 ∧ y.at 2 2 = Real.sin (2 / 10000) := by
  obtain ⟨y, h1, _, _, h2⟩ := C91_encode fresh 3 4 10000
  refine ⟨y, h1, ?_, ?_, ?_, ?_⟩
  · rw [h2 0 (by omega) 0 (by omega)]
    simp [Spec.encoding]
  · rw [h2 0 (by omega) 3 (by omega)]
    simp [Spec.encoding]
  · rw [h2 2 (by omega) 1 (by omega)]
    simp [Spec.encoding, Spec.frequency, Spec.pairOf]
  · rw [h2 2 (by omega) 2 (by omega)]
    norm_num [Spec.encoding, Spec.frequency, Spec.pairOf, div_eq_mul_inv]

/-- C91.  With at least one key, `ngrams` gives the hash of every stretch of `n` consecutive keys,
from left to right, and reads nothing outside the keys; for `n < 1` it gives nothing. -/
theorem C91_ngrams_partial {α β : Type} (zero : β) (hash64 : List α → β) (n : Int) (keys : List α) (pad : α)
    (hk : keys ≠ []) :
    ngrams zero hash64 n keys pad =
      .ok (if n < 1 then [] else (Spec.windows n.toNat keys).map hash64) := by
  by_cases hn : n < 1
  · simp only [ngrams, if_pos hn]
  · have hlen : keys.length ≠ 0 := by simpa using hk
    have hm : (max 0 ((keys.length : Int) - (n - 1))).toNat = ((keys.length : Int) - (n - 1)).toNat := by omega
    obtain ⟨b, h1, h2, h3⟩ := ngrams_loop hash64 keys pad n.toNat ((keys.length : Int) - (n - 1)).toNat zero
      (fun i hi => by omega)
    simp only [ngrams, if_neg hn, if_neg hlen, hm, h1, bind, Except.bind, h2]
    rw [windows_eq _ (by omega), List.map_map]
    have e : ((keys.length : Int) - (n - 1)).toNat = keys.length + 1 - n.toNat := by omega
    rw [e] at h3 ⊢
    congr 1
    apply List.map_congr_left
    intro i hi
    exact h3 i (by simpa using hi)

/-- C91, what is missing: without keys `ngrams` raises `IndexError` instead of giving no n-grams. -/
theorem C91_ngrams_empty {α β : Type} (zero : β) (hash64 : List α → β) (n : Int) (pad : α) (hn : 1 ≤ n) :
    ngrams zero hash64 n ([] : List α) pad = .error .indexError ∧ Spec.windows n.toNat ([] : List α) = [] := by
  constructor
  · simp only [ngrams, if_neg (show ¬ n < 1 by omega), List.length_nil, if_true]
  · rfl

/-- C91, non-vacuity: the three pairs of four keys. -/
example : ngrams 0 (fun w : List Nat => w.foldl (fun a x => 10 * a + x) 0) 2 [1, 2, 3, 4] 0 = .ok [12, 23, 34] := by
  rw [C91_ngrams_partial _ _ _ _ _ (by simp)]
  decide

/-- C91.  The backends other than numpy keep only the low 32 bits of each hash, with a sign: the
n-grams agree with numpy's exactly when every hash is below `2^31`. -/
theorem C91_backends (hash64 : List (BitVec 64) → BitVec 64) (n : Int) (keys : List (BitVec 64)) (hk : keys ≠ [])
    (hn : 1 ≤ n) : ∃ ys, opsNgrams hash64 n keys = .ok ys ∧
      (ys = ((Spec.windows n.toNat keys).map hash64).map (fun h => (h.toNat : Int)) ↔
        ∀ w ∈ Spec.windows n.toNat keys, (hash64 w).toNat < 2 ^ 31) := by
  refine ⟨((Spec.windows n.toNat keys).map hash64).map (fun h => (h.truncate 32).toInt), ?_, ?_⟩
  · simp only [opsNgrams, C91_ngrams_partial 0 hash64 n keys 0 hk, if_neg (show ¬ n < 1 by omega), bind, Except.bind]
  · rw [List.map_inj_left]
    constructor
    · intro h w hw
      have h1 := h (hash64 w) (List.mem_map_of_mem hw)
      have h2 : ((hash64 w).truncate 32).toInt < 2 ^ 31 := by
        have := BitVec.toInt_lt (x := (hash64 w).truncate 32)
        simpa using this
      rw [h1] at h2
      omega
    · intro h a ha
      obtain ⟨w, hw, rfl⟩ := List.mem_map.mp ha
      have := h w hw
      rw [BitVec.toInt_eq_toNat_of_lt]
      · simp only [BitVec.truncate_eq_setWidth, BitVec.toNat_setWidth, Nat.cast_inj]
        exact Nat.mod_eq_of_lt (by omega)
      · simp only [BitVec.truncate_eq_setWidth, BitVec.toNat_setWidth]
        rw [Nat.mod_eq_of_lt (by omega)]
        omega

end Thinc
