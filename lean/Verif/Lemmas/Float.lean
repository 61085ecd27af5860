import Verif.Spec.Float
import Mathlib.Tactic.Linarith
import Mathlib.Tactic.Positivity
import Mathlib.Tactic.NormNum
/-!
# Lemmas on floating-point numbers
-/
namespace Thinc
open Spec
variable {L : FloatLib} {N : ℕ}

theorem Spec.IsFloatLib.zero (ok : IsFloatLib L N) : L.rnd 0 = 0 := by
  have := ok.nat 0 (Nat.zero_le _)
  simpa using this

theorem Spec.IsFloatLib.one (ok : IsFloatLib L N) : L.rnd 1 = 1 := by
  have := ok.nat 1 (by have := ok.thousand; omega)
  simpa using this

theorem Spec.IsFloatLib.count (ok : IsFloatLib L N) : (1000 : ℝ) ≤ N := by
  exact_mod_cast ok.thousand

theorem Spec.IsFloatLib.bigBound (ok : IsFloatLib L N) : 1000 ≤ L.big := ok.count.trans ok.large

theorem Spec.IsFloatLib.nonneg (ok : IsFloatLib L N) {x : ℝ} (h : 0 ≤ x) : 0 ≤ L.rnd x := by
  have := ok.mono h
  rwa [ok.zero] at this

theorem Spec.IsFloatLib.nonpos (ok : IsFloatLib L N) {x : ℝ} (h : x ≤ 0) : L.rnd x ≤ 0 := by
  have := ok.mono h
  rwa [ok.zero] at this

theorem Spec.IsFloatLib.pos (ok : IsFloatLib L N) {x : ℝ} (h : 1 / 1000 ≤ x) : 0 < L.rnd x := by
  refine lt_of_lt_of_le ok.fine (ok.mono (le_trans ?_ h))
  exact one_div_le_one_div_of_le (by norm_num) ok.count

/-- Rounding does not leave an interval whose ends are in the format. -/
theorem Spec.IsFloatLib.le_of_le (ok : IsFloatLib L N) {x y : ℝ} (hy : L.rnd y = y) (h : x ≤ y) : L.rnd x ≤ y := hy ▸ ok.mono h
theorem Spec.IsFloatLib.ge_of_ge (ok : IsFloatLib L N) {x y : ℝ} (hy : L.rnd y = y) (h : y ≤ x) : y ≤ L.rnd x := hy ▸ ok.mono h

theorem Spec.IsFloatLib.neg (ok : IsFloatLib L N) {y : ℝ} (hy : L.rnd y = y) : L.rnd (-y) = -y := by rw [ok.odd, hy]

theorem Spec.IsFloatLib.abs_le (ok : IsFloatLib L N) {x y : ℝ} (hy : L.rnd y = y) (h : |x| ≤ y) : |L.rnd x| ≤ y := by
  rw [_root_.abs_le] at h ⊢
  exact ⟨ok.ge_of_ge (ok.neg hy) h.1, ok.le_of_le hy h.2⟩

/-- A result whose exact value is within the format does not overflow. -/
theorem round_fin (ok : IsFloatLib L N) {x : ℝ} (h : |x| ≤ L.big) : L.round x = .fin (L.rnd x) :=
  if_pos (ok.abs_le ok.rndBig h)

theorem round_between (ok : IsFloatLib L N) {x lo hi : ℝ} (h : |x| ≤ L.big) (hlo : L.rnd lo = lo) (hhi : L.rnd hi = hi) (h1 : lo ≤ x)
    (h2 : x ≤ hi) : Between L lo hi (L.round x) :=
  ⟨_, round_fin ok h, ok.idem x, ok.abs_le ok.rndBig h, ok.ge_of_ge hlo h1, ok.le_of_le hhi h2⟩

theorem Spec.Between.finite {a : Fl} {lo hi : ℝ} (h : Between L lo hi a) : IsFinite L a := by
  obtain ⟨x, h1, h2, h3, -⟩ := h
  exact ⟨x, h1, h2, h3⟩

theorem Spec.Between.weaken {a : Fl} {lo hi lo' hi' : ℝ} (h : Between L lo hi a) (h1 : lo' ≤ lo) (h2 : hi ≤ hi') : Between L lo' hi' a := by
  obtain ⟨x, e, h3, h4, h5, h6⟩ := h
  exact ⟨x, e, h3, h4, h1.trans h5, h6.trans h2⟩

/-- What `round` gives if it does not give a finite number: an infinity with the sign of the number. -/
theorem round_cases (L : FloatLib) (x : ℝ) : L.round x = .fin (L.rnd x) ∧ |L.rnd x| ≤ L.big ∨ L.round x = .inf (decide (x < 0)) ∧ L.big < |L.rnd x| := by
  unfold FloatLib.round
  by_cases h : |L.rnd x| ≤ L.big
  · exact Or.inl ⟨if_pos h, h⟩
  · exact Or.inr ⟨if_neg h, not_le.1 h⟩

theorem round_ne_nan (L : FloatLib) (x : ℝ) : L.round x ≠ .nan := by
  rcases round_cases L x with ⟨h, -⟩ | ⟨h, -⟩ <;> rw [h] <;> exact fun h => by cases h

/-- A product with a factor between -1 and 1 does not overflow. -/
theorem mul_small (ok : IsFloatLib L N) {a b : Fl} (ha : IsFinite L a) (hb : Between L (-1) 1 b) : IsFinite L (L.mul a b) := by
  obtain ⟨x, rfl, h1, h2⟩ := ha
  obtain ⟨y, rfl, -, -, h3, h4⟩ := hb
  have : |x * y| ≤ |x| := by
    rw [abs_mul]
    exact mul_le_of_le_one_right (abs_nonneg x) (_root_.abs_le.2 ⟨h3, h4⟩)
  exact ⟨_, round_fin ok (this.trans h2), ok.idem _, ok.abs_le ok.rndBig (this.trans h2)⟩

/-- What clipping gives of a number that is not NaN. -/
theorem clip_between {a : Fl} {lo hi : ℝ} (ha : a ≠ .nan) (hf : ∀ x, a = .fin x → L.rnd x = x) (h : lo ≤ hi) (h1 : L.rnd lo = lo)
    (h2 : L.rnd hi = hi) (h3 : |lo| ≤ L.big) (h4 : |hi| ≤ L.big) : Between L lo hi (a.clip (.fin lo) (.fin hi)) := by
  have hlo : Between L lo hi (.fin lo) := ⟨lo, rfl, h1, h3, le_refl _, h⟩
  have hhi : Between L lo hi (.fin hi) := ⟨hi, rfl, h2, h4, h, le_refl _⟩
  unfold Fl.clip Fl.max Fl.min
  cases a with
  | nan => exact absurd rfl ha
  | inf s =>
    cases s
    · simpa [Fl.le] using hhi
    · simpa [Fl.le, h] using hlo
  | fin x =>
    by_cases c1 : x ≤ lo
    · simpa [Fl.le, c1, h] using hlo
    · by_cases c2 : x ≤ hi
      · rw [_root_.abs_le] at h3 h4
        have : Between L lo hi (.fin x) :=
          ⟨x, rfl, hf x rfl, _root_.abs_le.2 ⟨h3.1.trans (not_le.1 c1).le, c2.trans h4.2⟩, (not_le.1 c1).le, c2⟩
        simpa [Fl.le, c1, c2] using this
      · simpa [Fl.le, c1, c2] using hhi

/-- The value of `clip` on a finite number. -/
theorem clip_fin {x lo hi : ℝ} (h : lo ≤ hi) : (Fl.fin x).clip (.fin lo) (.fin hi) = .fin (Min.min (Max.max x lo) hi) := by
  unfold Fl.clip Fl.max Fl.min
  by_cases c1 : x ≤ lo
  · simp [Fl.le, c1, h]
  · by_cases c2 : x ≤ hi
    · simp [Fl.le, c1, c2, (not_le.1 c1).le]
    · simp [Fl.le, c1, c2, (not_le.1 c1).le, (not_le.1 c2).le]

end Thinc
