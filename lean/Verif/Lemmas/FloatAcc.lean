import Verif.Lemmas.FloatSum
import Verif.Spec.FloatAcc
/-!
# Error bounds
-/
namespace Thinc
open Spec
variable {L : FloatLib} {N : ℕ} {u η v : ℝ}

/-- The real numbers of a list of finite numbers. -/
def Fl.val : Fl → ℝ
  | .fin x => x
  | _ => 0

/-- The sum of numbers between 0 and 1, computed in any order, is the exact sum up to a factor. -/
theorem sums_near (ok : IsFloatLib L N) (ac : Accurate L u η v) {xs : List Fl} {s : Fl} (h : Sums L xs s) (hlen : xs.length ≤ N)
    (hx : ∀ x ∈ xs, Between L 0 1 x) :
    ∃ r, s = .fin r ∧ L.rnd r = r ∧ 0 ≤ r ∧ (1 - u) ^ xs.length * (xs.map Fl.val).sum ≤ r ∧ r ≤ (1 + u) ^ xs.length * (xs.map Fl.val).sum := by
  have hu := ac.uNonneg
  have hu2 := ac.uHalf
  have h0 : ∀ xs : List Fl, (∀ x ∈ xs, Between L 0 1 x) → 0 ≤ (xs.map Fl.val).sum := by
    intro xs h
    refine List.sum_nonneg fun y hy => ?_
    obtain ⟨x, hx, rfl⟩ := List.mem_map.1 hy
    obtain ⟨r, rfl, -, -, hr, -⟩ := h x hx
    exact hr
  induction h with
  | zero => exact ⟨0, rfl, ok.zero, le_refl _, by simp, by simp⟩
  | one x =>
    obtain ⟨r, rfl, h1, -, h2, h3⟩ := hx x (by simp)
    refine ⟨r, rfl, h1, h2, ?_, ?_⟩ <;> simp [Fl.val] <;> nlinarith
  | @add xs ys zs a b hr' hq' hp ih1 ih2 =>
    have hl : zs.length = xs.length + ys.length := by rw [hp.length_eq, List.length_append]
    have hx1 : ∀ x ∈ xs, Between L 0 1 x := fun x h => hx x (hp.mem_iff.2 (by simp [h]))
    have hx2 : ∀ x ∈ ys, Between L 0 1 x := fun x h => hx x (hp.mem_iff.2 (by simp [h]))
    obtain ⟨r, rfl, p1, p2, p3, p4⟩ := ih1 (by omega) hx1
    obtain ⟨q, rfl, q1, q2, q3, q4⟩ := ih2 (by omega) hx2
    have hsum : (zs.map Fl.val).sum = (xs.map Fl.val).sum + (ys.map Fl.val).sum := by
      rw [(hp.map Fl.val).sum_eq, List.map_append, List.sum_append]
    obtain ⟨r', e1, -, -, e2, -⟩ := sums_unit ok hr' (by omega) hx1
    obtain ⟨q', e3, -, -, e4, -⟩ := sums_unit ok hq' (by omega) hx2
    cases e1
    cases e3
    have hN : ((xs.length : ℝ)) + ys.length ≤ N := by exact_mod_cast (by omega : xs.length + ys.length ≤ N)
    have hbig : |r + q| ≤ L.big := by
      rw [abs_of_nonneg (by linarith)]
      linarith [ok.large]
    have hn := ac.addNear r q p1 q1
    rw [abs_of_nonneg (by linarith : 0 ≤ r + q), abs_le] at hn
    rw [hsum, hl]
    have X0 := h0 xs hx1
    have Y0 := h0 ys hx2
    by_cases cx : xs = []
    · subst cx
      have : r = 0 := by simp at p3 p4; linarith
      subst this
      refine ⟨L.rnd (0 + q), round_fin ok hbig, ok.idem _, ok.nonneg (by linarith), ?_, ?_⟩
      · rw [zero_add, q1]; simpa using q3
      · rw [zero_add, q1]; simpa using q4
    by_cases cy : ys = []
    · subst cy
      have : q = 0 := by simp at q3 q4; linarith
      subst this
      refine ⟨L.rnd (r + 0), round_fin ok hbig, ok.idem _, ok.nonneg (by linarith), ?_, ?_⟩
      · rw [add_zero, p1]; simpa using p3
      · rw [add_zero, p1]; simpa using p4
    have lx : 1 ≤ xs.length := List.length_pos_iff.2 cx
    have ly : 1 ≤ ys.length := List.length_pos_iff.2 cy
    have d1 : (1 - u) ^ (xs.length + ys.length) ≤ (1 - u) * (1 - u) ^ xs.length := by
      rw [← pow_succ']
      exact pow_le_pow_of_le_one (by linarith) (by linarith) (by omega)
    have d2 : (1 - u) ^ (xs.length + ys.length) ≤ (1 - u) * (1 - u) ^ ys.length := by
      rw [← pow_succ']
      exact pow_le_pow_of_le_one (by linarith) (by linarith) (by omega)
    have u1 : (1 + u) * (1 + u) ^ xs.length ≤ (1 + u) ^ (xs.length + ys.length) := by
      rw [← pow_succ']
      exact pow_le_pow_right₀ (by linarith) (by omega)
    have u2 : (1 + u) * (1 + u) ^ ys.length ≤ (1 + u) ^ (xs.length + ys.length) := by
      rw [← pow_succ']
      exact pow_le_pow_right₀ (by linarith) (by omega)
    refine ⟨L.rnd (r + q), round_fin ok hbig, ok.idem _, ok.nonneg (by linarith), ?_, ?_⟩
    · have a1 := mul_le_mul_of_nonneg_right d1 X0
      have a2 := mul_le_mul_of_nonneg_right d2 Y0
      have a3 := mul_le_mul_of_nonneg_left p3 (by linarith : (0 : ℝ) ≤ 1 - u)
      have a4 := mul_le_mul_of_nonneg_left q3 (by linarith : (0 : ℝ) ≤ 1 - u)
      nlinarith [hn.1]
    · have a1 := mul_le_mul_of_nonneg_right u1 X0
      have a2 := mul_le_mul_of_nonneg_right u2 Y0
      have a3 := mul_le_mul_of_nonneg_left p4 (by linarith : (0 : ℝ) ≤ 1 + u)
      have a4 := mul_le_mul_of_nonneg_left q4 (by linarith : (0 : ℝ) ≤ 1 + u)
      nlinarith [hn.2]

end Thinc
