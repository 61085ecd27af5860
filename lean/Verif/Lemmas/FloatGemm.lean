import Verif.Model.FloatGemm
import Verif.Spec.FloatGemm
import Verif.Lemmas.FloatAcc
/-!
# The error of a sum of products
-/
namespace Thinc
open Spec
variable {L : FloatLib} {N : ℕ} {u η v : ℝ}

/-- The exact sum of a list of products. -/
def exactDot (ps : List (Fl × Fl)) : ℝ := (ps.map fun p => p.1.val * p.2.val).sum
def sizeDot (ps : List (Fl × Fl)) : ℝ := (ps.map fun p => |p.1.val * p.2.val|).sum

theorem exactDot_perm {xs ys : List (Fl × Fl)} (h : xs.Perm ys) : exactDot xs = exactDot ys := (h.map _).sum_eq
theorem sizeDot_perm {xs ys : List (Fl × Fl)} (h : xs.Perm ys) : sizeDot xs = sizeDot ys := (h.map _).sum_eq
theorem exactDot_append (xs ys : List (Fl × Fl)) : exactDot (xs ++ ys) = exactDot xs + exactDot ys := by simp [exactDot]
theorem sizeDot_append (xs ys : List (Fl × Fl)) : sizeDot (xs ++ ys) = sizeDot xs + sizeDot ys := by simp [sizeDot]

theorem sizeDot_nonneg (xs : List (Fl × Fl)) : 0 ≤ sizeDot xs := by
  refine List.sum_nonneg fun y hy => ?_
  obtain ⟨x, _, rfl⟩ := List.mem_map.1 hy
  exact abs_nonneg _

theorem exact_le_size (xs : List (Fl × Fl)) : |exactDot xs| ≤ sizeDot xs := by
  induction xs with
  | nil => simp [exactDot, sizeDot]
  | cons p xs ih =>
    simp only [exactDot, sizeDot, List.map_cons, List.sum_cons] at ih ⊢
    exact (abs_add_le _ _).trans (by linarith)

theorem dotError_mono (hu : 0 ≤ u) (hη : 0 ≤ η) {n m : ℕ} (h : n ≤ m) {S : ℝ} (hS : 0 ≤ S) : dotError u η n S ≤ dotError u η m S := by
  unfold dotError
  have h1 : (1 + u) ^ n ≤ (1 + u) ^ m := pow_le_pow_right₀ (by linarith) h
  have h2 : (n : ℝ) ≤ m := by exact_mod_cast h
  have h3 : (0 : ℝ) ≤ n := Nat.cast_nonneg n
  have h4 : 0 ≤ (1 + u) ^ n := by positivity
  have h5 : (n : ℝ) * (1 + u) ^ n ≤ m * (1 + u) ^ m := mul_le_mul h2 h1 h4 (h3.trans h2)
  nlinarith

theorem dotError_nonneg (hu : 0 ≤ u) (hη : 0 ≤ η) (n : ℕ) {S : ℝ} (hS : 0 ≤ S) : 0 ≤ dotError u η n S := by
  have : (1 : ℝ) ≤ (1 + u) ^ n := one_le_pow₀ (by linarith)
  unfold dotError
  have h1 : 0 ≤ ((1 + u) ^ n - 1) * S := mul_nonneg (by linarith) hS
  positivity

/-- One more rounding after two sums. -/
theorem dotError_add (hu : 0 ≤ u) (hη : 0 ≤ η) {n m k : ℕ} (hn : n + 1 ≤ k) (hm : m + 1 ≤ k) (hk : n + m ≤ k) {S T : ℝ} (hS : 0 ≤ S) (hT : 0 ≤ T) :
    (1 + u) * (dotError u η n S + dotError u η m T) + u * (S + T) ≤ dotError u η k (S + T) := by
  unfold dotError
  have h1 : (1 + u) ^ (n + 1) ≤ (1 + u) ^ k := pow_le_pow_right₀ (by linarith) hn
  have h2 : (1 + u) ^ (m + 1) ≤ (1 + u) ^ k := pow_le_pow_right₀ (by linarith) hm
  have h3 : (n : ℝ) + m ≤ k := by exact_mod_cast hk
  have e1 : (1 + u) * (1 + u) ^ n = (1 + u) ^ (n + 1) := by rw [pow_succ]; ring
  have e2 : (1 + u) * (1 + u) ^ m = (1 + u) ^ (m + 1) := by rw [pow_succ]; ring
  have e : (1 + u) * (((1 + u) ^ n - 1) * S + n * (1 + u) ^ n * η + (((1 + u) ^ m - 1) * T + m * (1 + u) ^ m * η)) + u * (S + T) =
      ((1 + u) ^ (n + 1) - 1) * S + ((1 + u) ^ (m + 1) - 1) * T + (n * (1 + u) ^ (n + 1) + m * (1 + u) ^ (m + 1)) * η := by
    rw [← e1, ← e2]; ring
  rw [e]
  have hP : 0 ≤ (1 + u) ^ k := by positivity
  have a1 : ((1 + u) ^ (n + 1) - 1) * S ≤ ((1 + u) ^ k - 1) * S := mul_le_mul_of_nonneg_right (by linarith) hS
  have a2 : ((1 + u) ^ (m + 1) - 1) * T ≤ ((1 + u) ^ k - 1) * T := mul_le_mul_of_nonneg_right (by linarith) hT
  have a3 : n * (1 + u) ^ (n + 1) + m * (1 + u) ^ (m + 1) ≤ k * (1 + u) ^ k := by
    have b1 : (n : ℝ) * (1 + u) ^ (n + 1) ≤ n * (1 + u) ^ k := mul_le_mul_of_nonneg_left h1 (Nat.cast_nonneg n)
    have b2 : (m : ℝ) * (1 + u) ^ (m + 1) ≤ m * (1 + u) ^ k := mul_le_mul_of_nonneg_left h2 (Nat.cast_nonneg m)
    nlinarith
  have a4 := mul_le_mul_of_nonneg_right a3 hη
  nlinarith

theorem dotError_fma (hu : 0 ≤ u) (hη : 0 ≤ η) {n : ℕ} {S T : ℝ} (hS : 0 ≤ S) (hT : 0 ≤ T) :
    (1 + u) * dotError u η n S + u * (S + T) + η ≤ dotError u η (n + 1) (S + T) := by
  unfold dotError
  have hP : (1 : ℝ) ≤ (1 + u) ^ n := one_le_pow₀ (by linarith)
  have e1 : (1 + u) ^ (n + 1) = (1 + u) * (1 + u) ^ n := by rw [pow_succ]; ring
  rw [e1]
  push_cast
  have hQ : (1 : ℝ) ≤ (1 + u) * (1 + u) ^ n := by nlinarith
  have a1 : u * T ≤ ((1 + u) * (1 + u) ^ n - 1) * T := mul_le_mul_of_nonneg_right (by nlinarith) hT
  have a2 : η ≤ (1 + u) * (1 + u) ^ n * η := le_mul_of_one_le_left hη hQ
  nlinarith

/-- Sums of products in any order: finite, and near the exact sum. -/
theorem dots_near (ok : IsFloatLib L N) (ac : Accurate L u η v) {ps : List (Fl × Fl)} {s : Fl} (h : L.Dots ps s)
    (hp : ∀ p ∈ ps, IsFinite L p.1 ∧ IsFinite L p.2) (hbig : sizeDot ps + dotError u η ps.length (sizeDot ps) ≤ L.big) :
    ∃ r, s = .fin r ∧ L.rnd r = r ∧ |r - exactDot ps| ≤ dotError u η ps.length (sizeDot ps) ∧ (ps = [] → r = 0) := by
  have hu := ac.uNonneg
  have hη := ac.etaNonneg
  induction h with
  | zero => exact ⟨0, rfl, ok.zero, by simp [exactDot, dotError], fun _ => rfl⟩
  | prod a b =>
    obtain ⟨⟨x, rfl, hx1, hx2⟩, y, rfl, hy1, hy2⟩ := hp (a, b) (by simp)
    have hS : sizeDot [(Fl.fin x, Fl.fin y)] = |x * y| := by simp [sizeDot, Fl.val]
    have hE : exactDot [(Fl.fin x, Fl.fin y)] = x * y := by simp [exactDot, Fl.val]
    rw [hS] at hbig ⊢
    rw [hE]
    have h0 := dotError_nonneg hu hη 1 (abs_nonneg (x * y))
    refine ⟨L.rnd (x * y), round_fin ok (by simp only [List.length_singleton] at hbig; linarith), ok.idem _, (ac.near _).trans ?_, nofun⟩
    simp only [dotError, List.length_singleton, pow_one, Nat.cast_one]
    nlinarith
  | @add xs ys zs s t h1 h2 hperm ih1 ih2 =>
    have hl : zs.length = xs.length + ys.length := by rw [hperm.length_eq, List.length_append]
    have hS : sizeDot zs = sizeDot xs + sizeDot ys := by rw [sizeDot_perm hperm, sizeDot_append]
    have hE : exactDot zs = exactDot xs + exactDot ys := by rw [exactDot_perm hperm, exactDot_append]
    have s1 := sizeDot_nonneg xs
    have s2 := sizeDot_nonneg ys
    have k1 : dotError u η xs.length (sizeDot xs) + dotError u η ys.length (sizeDot ys) ≤ dotError u η zs.length (sizeDot zs) := by
      have b1 := dotError_mono (u := u) hu hη (show xs.length ≤ zs.length by omega) s1
      have b2 := dotError_mono (u := u) hu hη (show ys.length ≤ zs.length by omega) s2
      rw [hS]
      unfold dotError at b1 b2 ⊢
      have hP : (1 : ℝ) ≤ (1 + u) ^ zs.length := one_le_pow₀ (by linarith)
      have c1 : (1 + u) ^ xs.length ≤ (1 + u) ^ zs.length := pow_le_pow_right₀ (by linarith) (by omega)
      have c2 : (1 + u) ^ ys.length ≤ (1 + u) ^ zs.length := pow_le_pow_right₀ (by linarith) (by omega)
      have d1 : ((1 + u) ^ xs.length - 1) * sizeDot xs ≤ ((1 + u) ^ zs.length - 1) * sizeDot xs := mul_le_mul_of_nonneg_right (by linarith) s1
      have d2 : ((1 + u) ^ ys.length - 1) * sizeDot ys ≤ ((1 + u) ^ zs.length - 1) * sizeDot ys := mul_le_mul_of_nonneg_right (by linarith) s2
      have d3 : xs.length * (1 + u) ^ xs.length * η ≤ xs.length * (1 + u) ^ zs.length * η :=
        mul_le_mul_of_nonneg_right (mul_le_mul_of_nonneg_left c1 (Nat.cast_nonneg _)) hη
      have d4 : ys.length * (1 + u) ^ ys.length * η ≤ ys.length * (1 + u) ^ zs.length * η :=
        mul_le_mul_of_nonneg_right (mul_le_mul_of_nonneg_left c2 (Nat.cast_nonneg _)) hη
      have e : (zs.length : ℝ) = xs.length + ys.length := by exact_mod_cast hl
      rw [e]
      nlinarith
    have e1 := dotError_nonneg (u := u) hu hη xs.length s1
    have e2 := dotError_nonneg (u := u) hu hη ys.length s2
    obtain ⟨r, rfl, r1, r2, r3⟩ := ih1 (fun p h => hp p (hperm.mem_iff.2 (by simp [h]))) (by linarith)
    obtain ⟨q, rfl, q1, q2, q3⟩ := ih2 (fun p h => hp p (hperm.mem_iff.2 (by simp [h]))) (by linarith)
    have habs : |r + q| ≤ sizeDot zs + (dotError u η xs.length (sizeDot xs) + dotError u η ys.length (sizeDot ys)) := by
      have := exact_le_size zs
      rw [hE] at this
      rw [abs_le] at *
      constructor <;> linarith [r2.1, r2.2, q2.1, q2.2, this.1, this.2]
    refine ⟨L.rnd (r + q), round_fin ok (habs.trans (by linarith)), ok.idem _, ?_, fun hz => ?_⟩
    · by_cases cx : xs = []
      · rw [r3 cx, zero_add, q1]
        subst cx
        have : zs.length = ys.length := by simpa using hl
        rw [this, hS, hE]
        simpa [exactDot, sizeDot] using q2
      by_cases cy : ys = []
      · rw [q3 cy, add_zero, r1]
        subst cy
        have : zs.length = xs.length := by simpa using hl
        rw [this, hS, hE]
        simpa [exactDot, sizeDot] using r2
      have lx : 0 < xs.length := List.length_pos_iff.2 cx
      have ly : 0 < ys.length := List.length_pos_iff.2 cy
      have key := dotError_add (u := u) (η := η) hu hη (n := xs.length) (m := ys.length) (k := zs.length) (by omega) (by omega) (by omega) s1 s2
      have hn := ac.addNear r q r1 q1
      have hm := mul_le_mul_of_nonneg_left habs hu
      rw [hE, hS]
      rw [hS] at hm
      have t : L.rnd (r + q) - (exactDot xs + exactDot ys) = (L.rnd (r + q) - (r + q)) + (r - exactDot xs) + (q - exactDot ys) := by ring
      rw [t]
      have t2 := abs_add_three (L.rnd (r + q) - (r + q)) (r - exactDot xs) (q - exactDot ys)
      nlinarith
    · rw [hz] at hl
      have : xs = [] := List.length_eq_zero_iff.1 (by simp at hl; omega)
      have h' : ys = [] := List.length_eq_zero_iff.1 (by simp at hl; omega)
      rw [r3 this, q3 h', add_zero, ok.zero]
  | @fma xs zs s a b h1 hperm ih1 =>
    obtain ⟨⟨x, rfl, hx1, hx2⟩, y, rfl, hy1, hy2⟩ := hp (a, b) (hperm.mem_iff.2 (by simp))
    have hl : zs.length = xs.length + 1 := by rw [hperm.length_eq, List.length_cons]
    have hS : sizeDot zs = sizeDot xs + |x * y| := by rw [sizeDot_perm hperm]; simp [sizeDot, Fl.val]; ring
    have hE : exactDot zs = x * y + exactDot xs := by rw [exactDot_perm hperm]; simp [exactDot, Fl.val]
    have s1 := sizeDot_nonneg xs
    have s2 := abs_nonneg (x * y)
    have e1 := dotError_nonneg (u := u) hu hη xs.length s1
    have key := dotError_fma (u := u) (η := η) hu hη (n := xs.length) s1 s2
    rw [← hl, ← hS] at key
    have k1 : dotError u η xs.length (sizeDot xs) ≤ dotError u η zs.length (sizeDot zs) := by nlinarith [mul_nonneg hu e1, mul_nonneg hu (sizeDot_nonneg zs)]
    obtain ⟨r, rfl, r1, r2, r3⟩ := ih1 (fun p h => hp p (hperm.mem_iff.2 (by simp [h]))) (by linarith)
    have habs : |x * y + r| ≤ sizeDot zs + dotError u η xs.length (sizeDot xs) := by
      have := exact_le_size zs
      rw [hE] at this
      rw [abs_le] at this r2 ⊢
      constructor <;> linarith [r2.1, r2.2, this.1, this.2]
    refine ⟨L.rnd (x * y + r), round_fin ok (habs.trans (by linarith)), ok.idem _, ?_, fun hz => by rw [hz] at hl; simp at hl⟩
    have hn := ac.near (x * y + r)
    have hm := mul_le_mul_of_nonneg_left habs hu
    rw [hE]
    have t : L.rnd (x * y + r) - (x * y + exactDot xs) = (L.rnd (x * y + r) - (x * y + r)) + (r - exactDot xs) := by ring
    rw [t]
    have t2 := abs_add_le (L.rnd (x * y + r) - (x * y + r)) (r - exactDot xs)
    linarith

/-- Sums of products of whole numbers are exact. -/
theorem dots_int (ok : IsFloatLib L N) {ps : List (Fl × Fl)} {s : Fl} (h : L.Dots ps s) (hp : ∀ p ∈ ps, ∃ a b : ℤ, p = (.fin a, .fin b))
    (hbig : sizeDot ps ≤ N) : s = .fin (exactDot ps) := by
  have hint : ∀ z : ℤ, |(z : ℝ)| ≤ N → L.round z = .fin z := by
    intro z hz
    have hr : L.rnd z = z := by
      rcases Int.le_total 0 z with h0 | h0
      · obtain ⟨k, rfl⟩ := Int.eq_ofNat_of_zero_le h0
        have : (k : ℝ) ≤ N := by simpa using hz
        simpa using ok.nat k (by exact_mod_cast this)
      · obtain ⟨k, hk⟩ := Int.eq_ofNat_of_zero_le (Int.neg_nonneg_of_nonpos h0)
        obtain rfl : z = -(k : ℤ) := by omega
        have : (k : ℝ) ≤ N := by simpa using hz
        have := ok.neg (ok.nat k (by exact_mod_cast this))
        simpa using this
    rw [round_fin ok (hz.trans ok.large), hr]
  have hsum : ∀ qs : List (Fl × Fl), (∀ p ∈ qs, ∃ a b : ℤ, p = (.fin a, .fin b)) → ∃ z : ℤ, exactDot qs = z := by
    intro qs
    induction qs with
    | nil => exact fun _ => ⟨0, by simp [exactDot]⟩
    | cons q qs ih =>
      intro h
      obtain ⟨a, b, rfl⟩ := h q (by simp)
      obtain ⟨z, hz⟩ := ih fun p hp => h p (by simp [hp])
      refine ⟨a * b + z, ?_⟩
      simp only [exactDot, List.map_cons, List.sum_cons, Fl.val] at hz ⊢
      rw [hz]
      push_cast
      rfl
  induction h with
  | zero => simp [exactDot]
  | prod a b =>
    obtain ⟨x, y, e⟩ := hp (a, b) (by simp)
    cases e
    have := hint (x * y) (by push_cast; simpa [sizeDot, Fl.val] using hbig)
    push_cast at this
    simpa [exactDot, Fl.val, FloatLib.mul] using this
  | @add xs ys zs s t h1 h2 hperm ih1 ih2 =>
    have hS : sizeDot zs = sizeDot xs + sizeDot ys := by rw [sizeDot_perm hperm, sizeDot_append]
    have hE : exactDot zs = exactDot xs + exactDot ys := by rw [exactDot_perm hperm, exactDot_append]
    have p1 : ∀ p ∈ xs, ∃ a b : ℤ, p = (.fin a, .fin b) := fun p h => hp p (hperm.mem_iff.2 (by simp [h]))
    have p2 : ∀ p ∈ ys, ∃ a b : ℤ, p = (.fin a, .fin b) := fun p h => hp p (hperm.mem_iff.2 (by simp [h]))
    rw [ih1 p1 (by linarith [sizeDot_nonneg ys]), ih2 p2 (by linarith [sizeDot_nonneg xs])]
    obtain ⟨z, hz⟩ := hsum zs hp
    have hb := exact_le_size zs
    show L.round _ = _
    rw [← hE, hz]
    exact hint z (by rw [← hz]; linarith)
  | @fma xs zs s a b h1 hperm ih1 =>
    obtain ⟨x, y, e⟩ := hp (a, b) (hperm.mem_iff.2 (by simp))
    cases e
    have hE : exactDot zs = x * y + exactDot xs := by rw [exactDot_perm hperm]; simp [exactDot, Fl.val]
    have hS : sizeDot zs = |(x : ℝ) * y| + sizeDot xs := by rw [sizeDot_perm hperm]; simp [sizeDot, Fl.val]
    rw [ih1 (fun p h => hp p (hperm.mem_iff.2 (by simp [h]))) (by linarith [abs_nonneg ((x : ℝ) * y)])]
    obtain ⟨z, hz⟩ := hsum zs hp
    have hb := exact_le_size zs
    show L.round _ = _
    rw [← hE, hz]
    exact hint z (by rw [← hz]; linarith)

end Thinc
