import Verif.Props.FloatAcc
import Verif.Props.FloatWrong
import Mathlib.Algebra.Order.Floor.Semiring
import Mathlib.Data.Real.Archimedean
/-!
# float32 with rounding towards zero is accurate
-/
namespace Thinc
open Spec

/-- Rounding down: the multiples of a power of two that is small enough. -/
theorem roundDown_eq {x : ℝ} (hx : 0 ≤ x) : ∃ e m : ℕ, roundDown x = m * 2 ^ e / 2 ^ 149 ∧ (m : ℝ) * 2 ^ e ≤ x * 2 ^ 149 ∧
    x * 2 ^ 149 < (m + 1) * 2 ^ e ∧ (e = 0 ∨ 2 ^ 23 * 2 ^ e ≤ x * 2 ^ 149) := by
  set X := x * 2 ^ 149 with hX
  have hX0 : 0 ≤ X := by positivity
  have hex : ∃ e : ℕ, X < 2 ^ 24 * 2 ^ e := by
    obtain ⟨e, he⟩ := pow_unbounded_of_one_lt X (by norm_num : (1 : ℝ) < 2)
    exact ⟨e, by nlinarith [pow_pos (by norm_num : (0 : ℝ) < 2) e]⟩
  classical
  set e := Nat.find hex with he
  have h1 : X < 2 ^ 24 * 2 ^ e := Nat.find_spec hex
  have h2 : e = 0 ∨ 2 ^ 23 * 2 ^ e ≤ X := by
    rcases Nat.eq_zero_or_pos e with h | h
    · exact Or.inl h
    · right
      have := Nat.find_min hex (m := e - 1) (by omega)
      rw [not_lt] at this
      refine le_trans (le_of_eq ?_) this
      obtain ⟨k, hk⟩ : ∃ k, e = k + 1 := ⟨e - 1, by omega⟩
      rw [hk, Nat.add_sub_cancel, pow_succ]
      ring
  have hp : (0 : ℝ) < 2 ^ e := by positivity
  set m := ⌊X / 2 ^ e⌋₊ with hm
  have h3 : (m : ℝ) * 2 ^ e ≤ X := by
    have := Nat.floor_le (div_nonneg hX0 hp.le)
    rw [← hm] at this
    rwa [le_div_iff₀ hp] at this
  have h4 : X < (m + 1) * 2 ^ e := by
    have := Nat.lt_floor_add_one (X / 2 ^ e)
    rw [← hm] at this
    rwa [div_lt_iff₀ hp] at this
  have h5 : m ≤ 2 ^ 24 := by
    have : (m : ℝ) * 2 ^ e < 2 ^ 24 * 2 ^ e := lt_of_le_of_lt h3 h1
    have := lt_of_mul_lt_mul_right this hp.le
    have : (m : ℝ) < ((2 ^ 24 : ℕ) : ℝ) := by norm_num at this ⊢; exact this
    exact_mod_cast this.le
  refine ⟨e, m, ?_, h3, h4, h2⟩
  refine IsGreatest.csSup_eq ⟨⟨⟨m, e, h5, rfl⟩, ?_⟩, ?_⟩
  · rw [div_le_iff₀ (by positivity)]
    exact h3
  · rintro _ ⟨⟨m', e', hm', rfl⟩, hle⟩
    rw [div_le_iff₀ (by positivity), ← hX] at hle
    refine div_le_div_of_nonneg_right ?_ (by positivity)
    rcases le_or_gt e e' with c | c
    · obtain ⟨k, rfl⟩ := Nat.exists_eq_add_of_le c
      rw [pow_add, mul_comm ((2 : ℝ) ^ e), ← mul_assoc] at hle ⊢
      have : m' * 2 ^ k ≤ m := by
        refine Nat.le_floor ?_
        rw [le_div_iff₀ hp]
        push_cast
        exact hle
      have : ((m' * 2 ^ k : ℕ) : ℝ) ≤ m := by exact_mod_cast this
      push_cast at this
      exact mul_le_mul_of_nonneg_right this hp.le
    · have h6 : 2 ^ 23 * 2 ^ e ≤ X := by
        rcases h2 with h | h
        · omega
        · exact h
      have h7 : 2 ^ 23 ≤ m := by
        refine Nat.le_floor ?_
        rw [le_div_iff₀ hp]
        norm_num at h6 ⊢
        exact h6
      have h8 : ((2 ^ 23 : ℕ) : ℝ) ≤ m := by exact_mod_cast h7
      have h8 : (2 : ℝ) ^ 23 ≤ m := by norm_num at h8 ⊢; exact h8
      have h9 : (m' : ℝ) ≤ 2 ^ 24 := by exact_mod_cast hm'
      obtain ⟨k, hk⟩ := Nat.exists_eq_add_of_lt c
      rw [hk]
      have h10 : (1 : ℝ) ≤ 2 ^ k := one_le_pow₀ (by norm_num)
      have h11 : (0 : ℝ) < 2 ^ e' := by positivity
      calc (m' : ℝ) * 2 ^ e' ≤ 2 ^ 24 * 2 ^ e' := mul_le_mul_of_nonneg_right h9 h11.le
        _ ≤ 2 ^ 23 * 2 ^ (e' + k + 1) := by
            have : (2 : ℝ) ^ (e' + k + 1) = 2 * (2 ^ e' * 2 ^ k) := by ring
            rw [this]
            have : (2 : ℝ) ^ e' ≤ 2 ^ e' * 2 ^ k := le_mul_of_one_le_right h11.le h10
            linarith
        _ ≤ m * 2 ^ (e' + k + 1) := mul_le_mul_of_nonneg_right h8 (by positivity)

theorem roundDown_near {x : ℝ} (hx : 0 ≤ x) : x - roundDown x ≤ 1 / 2 ^ 23 * x + 1 / 2 ^ 149 ∧
    ((∃ k : ℕ, x * 2 ^ 149 = k) → x - roundDown x ≤ 1 / 2 ^ 23 * x) ∧ ∃ k : ℕ, roundDown x * 2 ^ 149 = k := by
  obtain ⟨e, m, h1, h2, h3, h4⟩ := roundDown_eq hx
  rw [h1]
  have hp : (0 : ℝ) < 2 ^ 149 := by positivity
  have h5 : x - m * 2 ^ e / 2 ^ 149 = (x * 2 ^ 149 - m * 2 ^ e) / 2 ^ 149 := by
    field_simp
  have h6 : x * 2 ^ 149 - m * 2 ^ e ≤ 2 ^ e := by linarith
  have hbig : 2 ^ 23 * 2 ^ e ≤ x * 2 ^ 149 → x - m * 2 ^ e / 2 ^ 149 ≤ 1 / 2 ^ 23 * x := by
    intro h
    rw [h5, div_le_iff₀ hp]
    have : (2 : ℝ) ^ e ≤ 1 / 2 ^ 23 * (x * 2 ^ 149) := by
      rw [← div_le_iff₀' (by positivity)]
      linarith [show (2 : ℝ) ^ e / (1 / 2 ^ 23) = 2 ^ 23 * 2 ^ e by ring]
    linarith
  refine ⟨?_, ?_, ?_⟩
  · rcases h4 with rfl | h4
    · rw [h5]
      have : (x * 2 ^ 149 - m * 2 ^ 0) / 2 ^ 149 ≤ 1 / 2 ^ 149 := div_le_div_of_nonneg_right (by simpa using h6) hp.le
      have : 0 ≤ 1 / 2 ^ 23 * x := by positivity
      linarith
    · have := hbig h4
      have : (0 : ℝ) ≤ 1 / 2 ^ 149 := by positivity
      linarith
  · rintro ⟨k, hk⟩
    rcases h4 with rfl | h4
    · rw [hk] at h2 h3
      simp only [pow_zero, mul_one] at h2 h3
      have a : m ≤ k := by exact_mod_cast h2
      have b : k < m + 1 := by exact_mod_cast h3
      have c : k = m := by omega
      rw [h5, hk, c]
      simp
      positivity
    · exact hbig h4
  · exact ⟨m * 2 ^ e, by push_cast; field_simp⟩

/-- The numbers of the format are multiples of the smallest one. -/
theorem rndZero_multiple {x : ℝ} (h : rndZero x = x) : ∃ k : ℤ, x * 2 ^ 149 = k := by
  rcases le_total 0 x with hx | hx
  · rw [rndZero_pos hx] at h
    obtain ⟨k, hk⟩ := (roundDown_near hx).2.2
    exact ⟨k, by rw [h] at hk; exact_mod_cast hk⟩
  · rw [rndZero_neg hx] at h
    obtain ⟨k, hk⟩ := (roundDown_near (neg_nonneg.2 hx)).2.2
    have h' : roundDown (-x) = -x := by linarith
    rw [h'] at hk
    exact ⟨-k, by push_cast; linarith⟩

theorem float32_accurate : Accurate float32Lib (1 / 2 ^ 23) (1 / 2 ^ 149) 0 where
  uNonneg := by norm_num
  uHalf := by norm_num
  etaNonneg := by norm_num
  vNonneg := le_refl _
  near := by
    intro x
    show |rndZero x - x| ≤ _
    rcases le_total 0 x with hx | hx
    · rw [rndZero_pos hx, abs_sub_comm, abs_of_nonneg (by linarith [roundDown_le hx]), abs_of_nonneg hx]
      exact (roundDown_near hx).1
    · have h := roundDown_le (neg_nonneg.2 hx)
      rw [rndZero_neg hx, abs_of_nonneg (by linarith), abs_of_nonpos hx]
      have := (roundDown_near (neg_nonneg.2 hx)).1
      linarith
  addNear := by
    intro x y h1 h2
    show |rndZero (x + y) - (x + y)| ≤ _
    obtain ⟨k, hk⟩ := rndZero_multiple h1
    obtain ⟨l, hl⟩ := rndZero_multiple h2
    have hz : (x + y) * 2 ^ 149 = ((k + l : ℤ) : ℝ) := by push_cast; linarith
    generalize x + y = z at *
    rcases le_total 0 z with hx | hx
    · rw [rndZero_pos hx, abs_sub_comm, abs_of_nonneg (by linarith [roundDown_le hx]), abs_of_nonneg hx]
      refine (roundDown_near hx).2.1 ⟨(k + l).toNat, ?_⟩
      have : (0 : ℝ) ≤ ((k + l : ℤ) : ℝ) := by rw [← hz]; positivity
      have h0 : 0 ≤ k + l := by exact_mod_cast this
      rw [hz]
      exact_mod_cast (Int.toNat_of_nonneg h0).symm
    · have h := roundDown_le (neg_nonneg.2 hx)
      rw [rndZero_neg hx, abs_of_nonneg (by linarith), abs_of_nonpos hx]
      have := (roundDown_near (neg_nonneg.2 hx)).2.1 ⟨(-(k + l)).toNat, by
        have : (0 : ℝ) ≤ ((-(k + l) : ℤ) : ℝ) := by
          push_cast
          push_cast at hz
          nlinarith [pow_pos (by norm_num : (0 : ℝ) < 2) 149]
        have h0 : 0 ≤ -(k + l) := by exact_mod_cast this
        rw [neg_mul, hz]
        have h3 := Int.toNat_of_nonneg h0
        have h4 : (((-(k + l)).toNat : ℤ) : ℝ) = ((-(k + l) : ℤ) : ℝ) := by rw [h3]
        rw [← Int.cast_neg, ← h4]
        exact Int.cast_natCast _⟩
      linarith
  expNear := by
    intro x
    show |Real.exp x - Real.exp x| ≤ _
    simp
  wide := by norm_num [float32Lib, float32Base]

/-- In float32, ten classes with any scores: each probability is accurate to five digits. -/
example (xs : List ℝ) (hne : xs ≠ []) (hlen : xs.length ≤ 10) (hrow : ∀ x ∈ xs, IsFinite float32Lib (.fin x)) :
    ∃ ps : List ℝ, float32Lib.softmaxRow (.fin 1) (xs.map .fin) = .ok (ps.map .fin) ∧ ps.length = xs.length ∧
      ∀ (i : ℕ) p q, ps[i]? = some p → (softmaxReal xs)[i]? = some q → |p - q| ≤ 1 / 10 ^ 5 := by
  obtain ⟨ps, h1, h2, h3⟩ := C127_softmax_accurate float32Lib_ok float32_accurate xs hne (hlen.trans (by norm_num)) hrow
  refine ⟨ps, h1, h2, fun i p q hp hq => (h3 i p q hp hq).trans ?_⟩
  have h10 : (xs.length : ℝ) ≤ 10 := by exact_mod_cast hlen
  have h4 : (1 - 1 / 2 ^ 23 : ℝ) ^ 10 ≤ (1 - 1 / 2 ^ 23) ^ xs.length := pow_le_pow_of_le_one (by norm_num) (by norm_num) hlen
  have h5 : 1 / (1 - 1 / 2 ^ 23 : ℝ) ^ xs.length ≤ 1 / (1 - 1 / 2 ^ 23) ^ 10 := one_div_le_one_div_of_le (by norm_num) h4
  have h6 : 1 / (1 - 1 / 2 ^ 23 : ℝ) ^ 10 ≤ 1 + 2 / 10 ^ 6 := by
    rw [div_le_iff₀ (by norm_num)]
    norm_num
  have h7 : ((xs.length : ℝ) + 1) * (2 * (1 / 2 ^ 23) + 0 + 3 * (1 / 2 ^ 149)) ≤ 11 * (2 * (1 / 2 ^ 23) + 0 + 3 * (1 / 2 ^ 149)) :=
    mul_le_mul_of_nonneg_right (by linarith) (by norm_num)
  have h8 : (1 : ℝ) / 2 ^ 23 + 1 / 2 ^ 149 + 2 / 10 ^ 6 + 11 * (2 * (1 / 2 ^ 23) + 0 + 3 * (1 / 2 ^ 149)) ≤ 1 / 10 ^ 5 := by norm_num
  linarith

/-- In float32, sigmoid is accurate to six digits. -/
example (x : ℝ) : ∃ y, float32Lib.sigmoid (.fin x) = .fin y ∧ |y - logistic x| ≤ Real.exp (-20) + 1 / 10 ^ 6 := by
  obtain ⟨y, h1, h2⟩ := C127_sigmoid_accurate float32Lib_ok float32_accurate x
  refine ⟨y, h1, h2.trans ?_⟩
  have : 4 * (1 / 2 ^ 23) + 1 / 2 ^ 23 * 0 + 0 + 2 * (1 / 2 ^ 149) ≤ (1 : ℝ) / 10 ^ 6 := by norm_num
  linarith

example (row : List Fl) (hne : row ≠ []) (hlen : row.length ≤ 2 ^ 24) (hrow : ∀ x ∈ row, IsFinite float32Lib x) :=
  C127_softmax_sum float32Lib_ok float32_accurate (T := 3) (by norm_num) row hne (by exact_mod_cast hlen) hrow

end Thinc
