import Verif.Lemmas.FloatMaxout
import Verif.Spec.FloatGrad
/-!
# Lemmas for C137: one layer of the backward pass in floating point
-/
namespace Thinc
open Spec FloatLib BigOperators
variable {L : FloatLib} {count : ℕ} {u η v : ℝ}

theorem colSize_le (l : DenseReal) {k : ℕ} (hk : k < l.nI) : ∑ j ∈ Finset.range l.nO, |l.w j k| ≤ l.colSize :=
  maxTo_ge (fun k => ∑ j ∈ Finset.range l.nO, |l.w j k|) (by omega)

theorem colSize_nonneg (l : DenseReal) : 0 ≤ l.colSize :=
  (Finset.sum_nonneg fun _ _ => abs_nonneg _).trans (maxTo_ge (fun k => ∑ j ∈ Finset.range l.nO, |l.w j k|) (Nat.zero_le _))

theorem gradSize_nonneg {D : ℝ} (hD : 0 ≤ D) : ∀ ls : List DenseReal, 0 ≤ gradSize ls D
  | [] => hD
  | l :: ls => mul_nonneg (colSize_nonneg l) (gradSize_nonneg hD ls)

theorem gradError_nonneg (ac : Accurate L u η v) {D f : ℝ} (hD : 0 ≤ D) (hf : 0 ≤ f) : ∀ ls : List DenseReal, 0 ≤ gradError u η ls D f
  | [] => hf
  | l :: ls => by
    have h1 := gradError_nonneg ac hD hf ls
    have h2 := gradSize_nonneg hD ls
    have h3 := colSize_nonneg l
    have h4 := dotError_nonneg ac.uNonneg ac.etaNonneg l.nO (mul_nonneg h3 (add_nonneg h2 h1))
    have h5 := mul_nonneg h3 h1
    unfold gradError
    linarith

/-- A sum of products of numbers that are at most `a` with the weights of an input. -/
theorem col_sum_le (l : DenseReal) {k : ℕ} (hk : k < l.nI) {d : ℕ → ℝ} {a : ℝ} (ha : 0 ≤ a) (hd : ∀ j < l.nO, |d j| ≤ a) :
    ∑ j ∈ Finset.range l.nO, |d j * l.w j k| ≤ l.colSize * a := by
  have h1 : ∑ j ∈ Finset.range l.nO, |d j * l.w j k| ≤ a * ∑ j ∈ Finset.range l.nO, |l.w j k| := by
    rw [Finset.mul_sum]
    refine Finset.sum_le_sum fun j hj => ?_
    rw [abs_mul]
    exact mul_le_mul_of_nonneg_right (hd j (Finset.mem_range.1 hj)) (abs_nonneg _)
  have h2 := mul_le_mul_of_nonneg_left (colSize_le l hk) ha
  linarith [mul_comm a l.colSize]

theorem sum_abs_le {N : ℕ} {f : ℕ → ℝ} {a : ℝ} (h : ∀ n < N, |f n| ≤ a) : ∑ n ∈ Finset.range N, |f n| ≤ N * a := by
  have := Finset.sum_le_sum fun n hn => h n (Finset.mem_range.1 hn)
  rwa [Finset.sum_const, Finset.card_range, nsmul_eq_mul] at this

theorem near_vals {X : Mat Fl} {x : ℕ → ℕ → ℝ} {M e : ℝ} (hX : NearMat L X x M e) : FlMat L X (fun i k => (X.at i k).val) := by
  intro i hi k hk
  obtain ⟨-, r, h2, h3, -⟩ := hX i hi k hk
  exact ⟨by simp only [h2, Fl.val], h3⟩

theorem backRelu_fin (ok : IsFloatLib L count) {r : ℝ} (h : IsFinite L (.fin r)) (cpu : Bool) (y : ℝ) :
    L.backpropReluFl cpu (.fin r) (.fin y) = .fin (if 0 < y then r else 0) := by
  obtain ⟨z, hz, h1, h2⟩ := h
  cases hz
  cases cpu
  · show L.opsBackpropReluFl _ _ = _
    unfold opsBackpropReluFl
    by_cases h0 : 0 < y
    · rw [if_pos (show (Fl.fin 0).lt (.fin y) from h0), if_pos h0]
      show L.round (r * 1) = _
      rw [mul_one, round_fin ok h2, h1]
    · rw [if_neg (show ¬ (Fl.fin 0).lt (.fin y) from h0), if_neg h0]
      show L.round (r * 0) = _
      have := ok.bigBound
      rw [mul_zero, round_fin ok (by rw [abs_zero]; linarith), ok.zero]
  · show cpuBackpropReluFl _ _ = _
    unfold cpuBackpropReluFl
    by_cases h0 : y ≤ 0
    · rw [if_pos (show (Fl.fin y).le (.fin 0) from h0), if_neg (not_lt.2 h0)]
    · rw [if_neg (show ¬ (Fl.fin y).le (.fin 0) from h0), if_pos (not_le.1 h0)]

/-- `Linear`'s callback, on numbers that are near others. -/
theorem linearBack_near (ok : IsFloatLib L count) (ac : Accurate L u η v) {d : FlDense} {l : DenseReal} (hd : IsFlDense L d l) {X dY dX : Mat Fl}
    {g : FlGrad} (h : L.LinearBack X d.W dY dX g.dW g.db) (hrows : dY.rows = X.rows) (hcols : X.cols = l.nI) {x delta : ℕ → ℕ → ℝ} {M e D f : ℝ}
    (hM : 0 ≤ M) (he : 0 ≤ e) (hD : 0 ≤ D) (hf : 0 ≤ f) (hX : NearMat L X x M e) (hdY : NearMat L dY delta D f)
    (b1 : l.colSize * (D + f) + dotError u η l.nO (l.colSize * (D + f)) ≤ L.big)
    (b2 : X.rows * ((D + f) * (M + e)) + dotError u η X.rows (X.rows * ((D + f) * (M + e))) ≤ L.big)
    (b3 : X.rows * (D + f) + dotError u η X.rows (X.rows * (D + f)) ≤ L.big) :
    dX.rows = X.rows ∧ dX.cols = l.nI ∧
    NearMat L dX (fun i k => ∑ j ∈ Finset.range l.nO, delta i j * l.w j k) (l.colSize * D)
      (l.colSize * f + dotError u η l.nO (l.colSize * (D + f))) ∧ LayerGradNear u η X.rows l delta x D f M e g := by
  have hu := ac.uNonneg
  have hc : dY.cols = l.nO := h.1.1.trans hd.rows
  have s1 : dX.rows = X.rows := h.1.2.1.trans hrows
  have s2 : dX.cols = l.nI := h.1.2.2.1.trans hd.cols
  have s3 : g.dW.rows = l.nO := h.2.1.2.1.trans hc
  have s4 : g.dW.cols = l.nI := h.2.1.2.2.1.trans hcols
  obtain ⟨-, k2, k3⟩ := C133_linear_backprop ok ac (near_vals hX) hd.W (near_vals hdY) h
  refine ⟨s1, s2, fun i hi k hk => ?_, ⟨s3, s4⟩, fun o ho k hk => ?_, fun o ho => ?_⟩
  · have hi' : i < dY.rows := by rw [hrows, ← s1]; exact hi
    have hk' : k < l.nI := s2 ▸ hk
    have v1 : dotSize dY.cols (fun j => (dY.at i j).val) (fun j => l.w j k) ≤ l.colSize * (D + f) := by
      rw [hc]
      exact col_sum_le l hk' (add_nonneg hD hf) fun j hj => (near_size hdY hi' (hc ▸ hj)).1
    have v2 := dotError_le (η := η) hu dY.cols v1
    obtain ⟨r, r1, r2, r3⟩ := C133_gemm ok ac (near_vals hdY) hd.W h.1 hi hk (by rw [hc] at v2 v1 ⊢; linarith)
    have v3 : |dotReal dY.cols (fun j => (dY.at i j).val) (fun j => l.w j k) - ∑ j ∈ Finset.range l.nO, delta i j * l.w j k| ≤ l.colSize * f := by
      unfold dotReal
      rw [hc, ← Finset.sum_sub_distrib]
      refine (Finset.abs_sum_le_sum_abs _ _).trans ?_
      have := col_sum_le l hk' (d := fun j => (dY.at i j).val - delta i j) hf fun j hj => (near_size hdY hi' (hc ▸ hj)).2
      refine le_trans (le_of_eq (Finset.sum_congr rfl fun j _ => ?_)) this
      rw [sub_mul]
    have v4 : |∑ j ∈ Finset.range l.nO, delta i j * l.w j k| ≤ l.colSize * D :=
      (Finset.abs_sum_le_sum_abs _ _).trans (col_sum_le l hk' hD fun j hj => (hdY i hi' j (hc ▸ hj)).1)
    refine ⟨v4, r, r1, r2, ?_⟩
    rw [hc] at v2 v3 r3
    have r3 := r3.trans v2
    show |r - ∑ j ∈ Finset.range l.nO, delta i j * l.w j k| ≤ _
    rw [abs_le] at *
    constructor <;> linarith [r3.1, r3.2, v3.1, v3.2]
  · have w0 : ∀ n < X.rows, |(dY.at n o).val| ≤ D + f ∧ |(dY.at n o).val - delta n o| ≤ f ∧ |(X.at n k).val| ≤ M + e ∧
        |(X.at n k).val - x n k| ≤ e ∧ |x n k| ≤ M := by
      intro n hn
      have h1 := near_size hdY (hrows.symm ▸ hn) (hc.symm ▸ ho)
      have h2 := near_size hX hn (hcols.symm ▸ hk)
      exact ⟨h1.1, h1.2, h2.1, h2.2, (hX n hn k (hcols.symm ▸ hk)).1⟩
    have w1 : dotSize dY.rows (fun n => (dY.at n o).val) (fun n => (X.at n k).val) ≤ X.rows * ((D + f) * (M + e)) := by
      unfold dotSize
      rw [hrows]
      refine sum_abs_le fun n hn => ?_
      obtain ⟨h1, -, h2, -⟩ := w0 n hn
      rw [abs_mul]
      exact mul_le_mul h1 h2 (abs_nonneg _) (add_nonneg hD hf)
    have w2 := dotError_le (η := η) hu dY.rows w1
    obtain ⟨r, r1, r2⟩ := k2 o (s3.symm ▸ ho) k (s4.symm ▸ hk) (by rw [hrows] at w1 w2 ⊢; linarith)
    refine ⟨r, r1, ?_⟩
    have w3 : |∑ n ∈ Finset.range X.rows, (dY.at n o).val * (X.at n k).val - ∑ n ∈ Finset.range X.rows, delta n o * x n k| ≤
        X.rows * (D * e + f * M + f * e) := by
      rw [← Finset.sum_sub_distrib]
      refine (Finset.abs_sum_le_sum_abs _ _).trans (sum_abs_le fun n hn => ?_)
      obtain ⟨h1, h2, h3, h4, h5⟩ := w0 n hn
      have e1 : (dY.at n o).val * (X.at n k).val - delta n o * x n k =
          (dY.at n o).val * ((X.at n k).val - x n k) + ((dY.at n o).val - delta n o) * x n k := by ring
      rw [e1]
      refine (abs_add_le _ _).trans ?_
      rw [abs_mul, abs_mul]
      have q1 := mul_le_mul h1 h4 (abs_nonneg _) (add_nonneg hD hf)
      have q2 := mul_le_mul h2 h5 (abs_nonneg _) hf
      linarith
    rw [hrows] at r2 w2
    have r2 := r2.trans w2
    unfold weightError
    rw [abs_le] at *
    constructor <;> linarith [r2.1, r2.2, w3.1, w3.2]
  · have w0 : ∀ n < X.rows, |(dY.at n o).val| ≤ D + f ∧ |(dY.at n o).val - delta n o| ≤ f := fun n hn =>
      near_size hdY (hrows.symm ▸ hn) (hc.symm ▸ ho)
    have w1 : dotSize dY.rows (fun n => (dY.at n o).val) (fun _ => 1) ≤ X.rows * (D + f) := by
      unfold dotSize
      rw [hrows]
      exact sum_abs_le fun n hn => by rw [mul_one]; exact (w0 n hn).1
    have w2 := dotError_le (η := η) hu dY.rows w1
    obtain ⟨r, r1, r2⟩ := k3 o (hc.symm ▸ ho) (by rw [hrows] at w1 w2 ⊢; linarith)
    refine ⟨r, r1, ?_⟩
    have w3 : |∑ n ∈ Finset.range X.rows, (dY.at n o).val - ∑ n ∈ Finset.range X.rows, delta n o| ≤ X.rows * f := by
      rw [← Finset.sum_sub_distrib]
      exact (Finset.abs_sum_le_sum_abs _ _).trans (sum_abs_le fun n hn => (w0 n hn).2)
    rw [hrows] at r2 w2
    have r2 := r2.trans w2
    unfold biasError
    rw [abs_le] at *
    constructor <;> linarith [r2.1, r2.2, w3.1, w3.2]

/-- The mask: a unit that is far enough from zero is on or off as with real numbers. -/
theorem maskRelu_near (ok : IsFloatLib L count) {cpu : Bool} {Z Y dY dZ : Mat Fl} {z δ : ℕ → ℕ → ℝ} {M e D f : ℝ} (hf : 0 ≤ f) (hD : 0 ≤ D)
    (hZ : NearMat L Z z M e) (y1 : Y.rows = Z.rows) (y2 : Y.cols = Z.cols)
    (hY : ∀ i < Y.rows, ∀ j < Y.cols, Y.at i j = L.reluFl cpu (Z.at i j)) (hclear : ∀ i < Z.rows, ∀ j < Z.cols, e < |z i j|)
    (d1 : dY.rows = Y.rows) (d2 : dY.cols = Y.cols) (hdY : NearMat L dY δ D f) (m1 : dZ.rows = dY.rows) (m2 : dZ.cols = dY.cols)
    (hdZ : ∀ i < dZ.rows, ∀ j < dZ.cols, dZ.at i j = L.backpropReluFl cpu (dY.at i j) (Y.at i j)) :
    NearMat L dZ (fun i j => if 0 < z i j then δ i j else 0) D f := by
  intro i hi j hj
  have iY : i < Y.rows := by rw [← d1, ← m1]; exact hi
  have jY : j < Y.cols := by rw [← d2, ← m2]; exact hj
  obtain ⟨-, r, h2, h3, h4⟩ := hZ i (y1 ▸ iY) j (y2 ▸ jY)
  have h0 := hclear i (y1 ▸ iY) j (y2 ▸ jY)
  obtain ⟨g1, s, g2, g3, g4⟩ := hdY i (d1.symm ▸ iY) j (d2.symm ▸ jY)
  rw [h2] at h3
  rw [g2] at g3
  have e1 : dZ.at i j = .fin (if 0 < max 0 r then s else 0) := by
    rw [hdZ i hi j hj, hY i iY j jY, h2, g2, relu_fin ok h3, backRelu_fin ok g3]
  have e2 : (0 < max 0 r) ↔ 0 < z i j := by
    rw [lt_max_iff]
    constructor
    · rintro (h | h)
      · exact absurd h (lt_irrefl _)
      · by_contra hz
        rw [abs_of_nonpos (not_lt.1 hz)] at h0
        rw [abs_le] at h4
        linarith [h4.2]
    · intro hz
      right
      rw [abs_of_pos hz] at h0
      rw [abs_le] at h4
      linarith [h4.1]
  rw [if_congr e2 rfl rfl] at e1
  by_cases hz : 0 < z i j
  · rw [if_pos hz] at e1
    simp only [if_pos hz]
    exact ⟨g1, s, e1, e1.symm ▸ g3, g4⟩
  · rw [if_neg hz] at e1
    simp only [if_neg hz]
    refine ⟨by rw [abs_zero]; exact hD, 0, e1, e1.symm ▸ ⟨0, rfl, ok.zero, ?_⟩, by simpa using hf⟩
    have := ok.bigBound
    rw [abs_zero]; linarith

end Thinc
