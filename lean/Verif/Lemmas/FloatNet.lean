import Verif.Props.FloatGemm
import Verif.Spec.FloatNet
/-!
# Lemmas for C134: one layer of a network in floating point
-/
namespace Thinc
open Spec FloatLib BigOperators
variable {L : FloatLib} {count : ℕ} {u η v : ℝ}

theorem dotError_le (hu : 0 ≤ u) (n : ℕ) {S T : ℝ} (h : S ≤ T) : dotError u η n S ≤ dotError u η n T := by
  have : (1 : ℝ) ≤ (1 + u) ^ n := one_le_pow₀ (by linarith)
  unfold dotError
  have := mul_le_mul_of_nonneg_left h (show 0 ≤ (1 + u) ^ n - 1 by linarith)
  linarith

theorem out_size {l : DenseReal} (hl : l.IsSize) {x : ℕ → ℝ} {M : ℝ} (hx : ∀ k < l.nI, |x k| ≤ M) (hM : 0 ≤ M) {j : ℕ} (hj : j < l.nO) :
    dotSize l.nI x (l.w j) + |l.c j| ≤ l.outSize M ∧ |l.out x j| ≤ l.outSize M := by
  have h1 : dotSize l.nI x (l.w j) ≤ M * ∑ k ∈ Finset.range l.nI, |l.w j k| := by
    unfold dotSize
    rw [Finset.mul_sum]
    refine Finset.sum_le_sum fun k hk => ?_
    rw [abs_mul]
    exact mul_le_mul_of_nonneg_right (hx k (Finset.mem_range.1 hk)) (abs_nonneg _)
  have h2 := mul_le_mul_of_nonneg_left (hl.weights j hj) hM
  have h3 := hl.bias j hj
  have h4 : dotSize l.nI x (l.w j) + |l.c j| ≤ l.outSize M := by
    unfold DenseReal.outSize
    linarith [mul_comm M l.A]
  refine ⟨h4, ?_⟩
  have h5 : |∑ k ∈ Finset.range l.nI, x k * l.w j k| ≤ dotSize l.nI x (l.w j) := Finset.abs_sum_le_sum_abs _ _
  have h6 := abs_add_le (∑ k ∈ Finset.range l.nI, x k * l.w j k) (l.c j)
  unfold DenseReal.out
  linarith

theorem out_lipschitz {l : DenseReal} (hl : l.IsSize) {x y : ℕ → ℝ} {e : ℝ} (hx : ∀ k < l.nI, |y k - x k| ≤ e) (he : 0 ≤ e) {j : ℕ}
    (hj : j < l.nO) : |l.out y j - l.out x j| ≤ l.A * e := by
  have h0 : l.out y j - l.out x j = ∑ k ∈ Finset.range l.nI, (y k - x k) * l.w j k := by
    unfold DenseReal.out
    rw [add_sub_add_right_eq_sub, ← Finset.sum_sub_distrib]
    exact Finset.sum_congr rfl fun k _ => by ring
  rw [h0]
  refine (Finset.abs_sum_le_sum_abs _ _).trans ?_
  have h1 : ∑ k ∈ Finset.range l.nI, |(y k - x k) * l.w j k| ≤ e * ∑ k ∈ Finset.range l.nI, |l.w j k| := by
    rw [Finset.mul_sum]
    refine Finset.sum_le_sum fun k hk => ?_
    rw [abs_mul]
    exact mul_le_mul_of_nonneg_right (hx k (Finset.mem_range.1 hk)) (abs_nonneg _)
  have h2 := mul_le_mul_of_nonneg_left (hl.weights j hj) he
  linarith [mul_comm e l.A]

theorem near_size {X : Mat Fl} {x : ℕ → ℕ → ℝ} {M e : ℝ} (hX : NearMat L X x M e) {i : ℕ} (hi : i < X.rows) {k : ℕ} (hk : k < X.cols) :
    |(X.at i k).val| ≤ M + e ∧ |(X.at i k).val - x i k| ≤ e := by
  obtain ⟨h1, r, h2, -, h3⟩ := hX i hi k hk
  rw [h2]
  refine ⟨?_, h3⟩
  show |r| ≤ _
  rw [abs_le] at *
  constructor <;> linarith [h1.1, h1.2, h3.1, h3.2]

theorem affine_shape {X Y : Mat Fl} {W : Mat Fl} {b : ℕ → Fl} (h : L.Affine X W b Y) : X.cols = W.cols ∧ Y.rows = X.rows ∧ Y.cols = W.rows := by
  obtain ⟨Z, ⟨h1, h2, h3, -⟩, h4, h5, -⟩ := h
  exact ⟨h1, h4.trans h2, h5.trans h3⟩

/-- The affine part of a layer. -/
theorem affine_near (ok : IsFloatLib L count) (ac : Accurate L u η v) {d : FlDense} {l : DenseReal} (hd : IsFlDense L d l) {X Y : Mat Fl}
    (h : L.Affine X d.W d.b Y) {x : ℕ → ℕ → ℝ} {M e : ℝ} (hM : 0 ≤ M) (he : 0 ≤ e) (hX : NearMat L X x M e)
    (hbig : l.outSize (M + e) + dotError u η (l.nI + 1) (l.outSize (M + e)) ≤ L.big) :
    Y.rows = X.rows ∧ Y.cols = l.nO ∧ NearMat L Y (fun i => l.out (x i)) (l.outSize M) (l.outError u η M e) := by
  obtain ⟨s1, s2, s3⟩ := affine_shape h
  rw [hd.cols] at s1
  rw [hd.rows] at s3
  refine ⟨s2, s3, fun i hi j hj => ?_⟩
  have hi' : i < X.rows := s2 ▸ hi
  have hjO : j < l.nO := s3 ▸ hj
  have hu := ac.uNonneg
  have hval : FlMat L X (fun i k => (X.at i k).val) := by
    intro i hi k hk
    obtain ⟨-, r, h2, h3, -⟩ := hX i hi k hk
    exact ⟨by simp only [h2, Fl.val], h3⟩
  have z1 := out_size hd.size (x := fun k => (X.at i k).val) (M := M + e) (fun k hk => (near_size hX hi' (s1 ▸ hk)).1) (by linarith) hjO
  have z2 := out_size hd.size (x := x i) (M := M) (fun k hk => (hX i hi' k (s1 ▸ hk)).1) hM hjO
  have z3 := out_lipschitz hd.size (x := x i) (y := fun k => (X.at i k).val) (e := e) (fun k hk => (near_size hX hi' (s1 ▸ hk)).2) he hjO
  have z4 := dotError_le (η := η) hu (l.nI + 1) z1.1
  obtain ⟨r, r1, r2, r3⟩ := C133_linear ok ac hval hd.W (by rw [hd.rows]; exact hd.b) h hi hj (by rw [s1]; linarith [z1.1])
  rw [s1] at r3
  refine ⟨z2.2, r, r1, r2, ?_⟩
  have r4 : |r - l.out (fun k => (X.at i k).val) j| ≤ dotError u η (l.nI + 1) (l.outSize (M + e)) := r3.trans z4
  show |r - l.out (x i) j| ≤ l.A * e + dotError u η (l.nI + 1) (l.outSize (M + e))
  rw [abs_le] at *
  constructor <;> linarith [r4.1, r4.2, z3.1, z3.2]

theorem relu_fin (ok : IsFloatLib L count) {r : ℝ} (h : IsFinite L (.fin r)) (cpu : Bool) : L.reluFl cpu (.fin r) = .fin (max 0 r) := by
  obtain ⟨y, hy, h1, h2⟩ := h
  cases hy
  cases cpu
  · show L.opsReluFl _ = _
    unfold opsReluFl
    by_cases h0 : 0 < r
    · rw [if_pos (show (Fl.fin 0).lt (.fin r) from h0), max_eq_right h0.le]
      show L.round (r * 1) = _
      rw [mul_one, round_fin ok h2, h1]
    · rw [if_neg (show ¬ (Fl.fin 0).lt (.fin r) from h0), max_eq_left (not_lt.1 h0)]
      show L.round (r * 0) = _
      have := ok.bigBound
      rw [mul_zero, round_fin ok (by rw [abs_zero]; linarith), ok.zero]
  · show cpuReluFl _ = _
    unfold cpuReluFl
    by_cases h0 : r ≤ 0
    · rw [if_pos (show (Fl.fin r).le (.fin 0) from h0), max_eq_left h0]
    · rw [if_neg (show ¬ (Fl.fin r).le (.fin 0) from h0), max_eq_right (not_le.1 h0).le]

theorem relu_near (ok : IsFloatLib L count) {cpu : Bool} {Y Z : Mat Fl} {z : ℕ → ℕ → ℝ} {M e : ℝ} (hM : 0 ≤ M) (hr : Y.rows = Z.rows) (hc : Y.cols = Z.cols)
    (h : ∀ i < Y.rows, ∀ j < Y.cols, Y.at i j = L.reluFl cpu (Z.at i j)) (hZ : NearMat L Z z M e) :
    NearMat L Y (fun i j => max 0 (z i j)) M e := by
  intro i hi j hj
  obtain ⟨h1, r, h2, h3, h4⟩ := hZ i (hr ▸ hi) j (hc ▸ hj)
  rw [h2] at h3
  have h5 := relu_fin ok h3 cpu
  have h6 : Y.at i j = .fin (max 0 r) := by rw [h i hi j hj, h2, h5]
  refine ⟨?_, max 0 r, h6, ?_, ?_⟩
  · rw [abs_of_nonneg (le_max_left _ _)]
    exact max_le hM ((le_abs_self _).trans h1)
  · rw [h6]
    obtain ⟨y, hy, h7, h8⟩ := h3
    cases hy
    refine ⟨_, rfl, ?_, ?_⟩
    · rcases le_total 0 r with h0 | h0
      · rw [max_eq_right h0, h7]
      · rw [max_eq_left h0, ok.zero]
    · rcases le_total 0 r with h0 | h0
      · rw [max_eq_right h0]; exact h8
      · have := ok.bigBound
        rw [max_eq_left h0, abs_zero]; linarith
  · have := abs_max_sub_max_le_abs r (z i j) 0
    rw [max_comm r, max_comm (z i j)] at this
    exact this.trans h4

theorem outSize_nonneg {l : DenseReal} (hl : l.IsSize) {M : ℝ} (hM : 0 ≤ M) : 0 ≤ l.outSize M := by
  have := mul_nonneg hl.nonneg.1 hM
  have := hl.nonneg.2
  unfold DenseReal.outSize
  linarith

theorem outError_nonneg (ac : Accurate L u η v) {l : DenseReal} (hl : l.IsSize) {M e : ℝ} (hM : 0 ≤ M) (he : 0 ≤ e) : 0 ≤ l.outError u η M e := by
  have h1 := mul_nonneg hl.nonneg.1 he
  have h2 := dotError_nonneg ac.uNonneg ac.etaNonneg (l.nI + 1) (outSize_nonneg hl (add_nonneg hM he))
  unfold DenseReal.outError
  linarith

end Thinc
