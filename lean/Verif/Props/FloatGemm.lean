import Verif.Lemmas.FloatGemm
import Verif.Props.Instances.Float32
import Mathlib.Tactic.IntervalCases
/-!
# C133: matrix products in floating point
-/
namespace Thinc
open Spec FloatLib BigOperators
variable {L : FloatLib} {count : ℕ} {u η v : ℝ}

theorem sum_range_list (n : ℕ) (f : ℕ → ℝ) : ((List.range n).map f).sum = ∑ k ∈ Finset.range n, f k := rfl

theorem pairs_real {A B : Mat Fl} {f g : ℕ → ℕ → ℝ} (hA : FlMat L A f) (hB : FlMat L B g) (h : A.cols = B.rows) {i j : ℕ} (hi : i < A.rows)
    (hj : j < B.cols) :
    (pairs A B i j).length = A.cols ∧ (∀ p ∈ pairs A B i j, IsFinite L p.1 ∧ IsFinite L p.2) ∧
      exactDot (pairs A B i j) = dotReal A.cols (f i) (fun k => g k j) ∧ sizeDot (pairs A B i j) = dotSize A.cols (f i) (fun k => g k j) := by
  refine ⟨by simp [pairs], ?_, ?_, ?_⟩
  · intro p hp
    obtain ⟨k, hk, rfl⟩ := List.mem_map.1 hp
    rw [List.mem_range] at hk
    exact ⟨(hA i hi k hk).2, (hB k (h ▸ hk) j hj).2⟩
  · unfold exactDot pairs dotReal
    rw [List.map_map, sum_range_list]
    refine Finset.sum_congr rfl fun k hk => ?_
    rw [Finset.mem_range] at hk
    simp only [Function.comp, (hA i hi k hk).1, (hB k (h ▸ hk) j hj).1, Fl.val]
  · unfold sizeDot pairs dotSize
    rw [List.map_map, sum_range_list]
    refine Finset.sum_congr rfl fun k hk => ?_
    rw [Finset.mem_range] at hk
    simp only [Function.comp, (hA i hi k hk).1, (hB k (h ▸ hk) j hj).1, Fl.val]

/-- **C133.**  Every entry of a matrix product that is computed in floating point, in any order of the additions and with or without fused
operations, is near the exact entry, unless the numbers are so large that the sum of their absolute values (and the error) exceeds the largest
number. -/
theorem C133_gemm (ok : IsFloatLib L count) (ac : Accurate L u η v) {A B C : Mat Fl} {f g : ℕ → ℕ → ℝ} (hA : FlMat L A f) (hB : FlMat L B g)
    (h : L.Gemm A B C) {i j : ℕ} (hi : i < C.rows) (hj : j < C.cols)
    (hbig : dotSize A.cols (f i) (fun k => g k j) + dotError u η A.cols (dotSize A.cols (f i) (fun k => g k j)) ≤ L.big) :
    ∃ r, C.at i j = .fin r ∧ IsFinite L (C.at i j) ∧
      |r - dotReal A.cols (f i) (fun k => g k j)| ≤ dotError u η A.cols (dotSize A.cols (f i) (fun k => g k j)) := by
  obtain ⟨h1, h2, h3, h4⟩ := h
  obtain ⟨p1, p2, p3, p4⟩ := pairs_real hA hB h1 (h2 ▸ hi) (h3 ▸ hj)
  obtain ⟨r, r1, r2, r3, -⟩ := dots_near ok ac (h4 i hi j hj) p2 (by rw [p1, p4]; exact hbig)
  rw [p1, p3, p4] at r3
  refine ⟨r, r1, ⟨r, r1, r2, ?_⟩, r3⟩
  have h5 := exact_le_size (pairs A B i j)
  rw [p3, p4] at h5
  rw [abs_le] at h5 r3 ⊢
  constructor <;> linarith [h5.1, h5.2, r3.1, r3.2]

/-- Two backends (or two runs, or two sizes of a batch) may add in different orders.  Their results differ by at most twice the error. -/
theorem C133_backends (ok : IsFloatLib L count) (ac : Accurate L u η v) {A B C D : Mat Fl} {f g : ℕ → ℕ → ℝ} (hA : FlMat L A f) (hB : FlMat L B g)
    (hC : L.Gemm A B C) (hD : L.Gemm A B D) {i j : ℕ} (hi : i < C.rows) (hj : j < C.cols)
    (hbig : dotSize A.cols (f i) (fun k => g k j) + dotError u η A.cols (dotSize A.cols (f i) (fun k => g k j)) ≤ L.big) :
    ∃ r s, C.at i j = .fin r ∧ D.at i j = .fin s ∧ |r - s| ≤ 2 * dotError u η A.cols (dotSize A.cols (f i) (fun k => g k j)) := by
  obtain ⟨r, r1, -, r2⟩ := C133_gemm ok ac hA hB hC hi hj hbig
  obtain ⟨s, s1, -, s2⟩ := C133_gemm ok ac hA hB hD (by rw [hD.2.1, ← hC.2.1]; exact hi) (by rw [hD.2.2.1, ← hC.2.2.1]; exact hj) hbig
  refine ⟨r, s, r1, s1, ?_⟩
  rw [abs_le] at *
  constructor <;> linarith [r2.1, r2.2, s2.1, s2.2]

/-- Products of matrices of whole numbers (counts, one-hot rows) are exact in every order, so they are the same on all backends. -/
theorem C133_whole (ok : IsFloatLib L count) {A B C : Mat Fl} {f g : ℕ → ℕ → ℤ} (hA : ∀ i < A.rows, ∀ k < A.cols, A.at i k = .fin (f i k))
    (hB : ∀ k < B.rows, ∀ j < B.cols, B.at k j = .fin (g k j)) (h : L.Gemm A B C) {i j : ℕ} (hi : i < C.rows) (hj : j < C.cols)
    (hsize : ∑ k ∈ Finset.range A.cols, |f i k * g k j| ≤ count) : C.at i j = .fin ((∑ k ∈ Finset.range A.cols, f i k * g k j : ℤ) : ℝ) := by
  obtain ⟨h1, h2, h3, h4⟩ := h
  have hpairs : pairs A B i j = (List.range A.cols).map fun k => ((.fin (f i k : ℝ), .fin (g k j : ℝ)) : Fl × Fl) := by
    refine List.map_congr_left fun k hk => ?_
    rw [List.mem_range] at hk
    rw [hA i (h2 ▸ hi) k hk, hB k (h1 ▸ hk) j (h3 ▸ hj)]
  have hd := h4 i hi j hj
  rw [hpairs] at hd
  rw [dots_int ok hd ?_ ?_]
  · unfold exactDot
    rw [List.map_map, sum_range_list]
    push_cast
    rfl
  · intro p hp
    obtain ⟨k, _, rfl⟩ := List.mem_map.1 hp
    exact ⟨_, _, rfl⟩
  · unfold sizeDot
    rw [List.map_map, sum_range_list]
    have : ((∑ k ∈ Finset.range A.cols, |f i k * g k j| : ℤ) : ℝ) ≤ count := by exact_mod_cast hsize
    push_cast at this
    exact this

theorem at_transpose (W : Mat Fl) {k j : ℕ} (hj : j < W.rows) : (flTranspose W).at k j = W.at j k := by
  show W.at ((k * W.rows + j) % W.rows) ((k * W.rows + j) / W.rows) = _
  rw [Nat.add_comm, Nat.add_mul_mod_self_right, Nat.mod_eq_of_lt hj, Nat.add_mul_div_right _ _ (by omega), Nat.div_eq_of_lt hj, Nat.zero_add]

/-- `Linear` (and `ops.affine`) in floating point: the output is near `X W^T + b`. -/
theorem C133_linear (ok : IsFloatLib L count) (ac : Accurate L u η v) {X W Y : Mat Fl} {b : ℕ → Fl} {f w : ℕ → ℕ → ℝ} {c : ℕ → ℝ} (hX : FlMat L X f)
    (hW : FlMat L W w) (hb : ∀ j < W.rows, b j = .fin (c j) ∧ IsFinite L (b j)) (h : L.Affine X W b Y) {i j : ℕ} (hi : i < Y.rows) (hj : j < Y.cols)
    (hbig : dotSize X.cols (f i) (w j) + |c j| + dotError u η (X.cols + 1) (dotSize X.cols (f i) (w j) + |c j|) ≤ L.big) :
    ∃ r, Y.at i j = .fin r ∧ IsFinite L (Y.at i j) ∧
      |r - (dotReal X.cols (f i) (w j) + c j)| ≤ dotError u η (X.cols + 1) (dotSize X.cols (f i) (w j) + |c j|) := by
  obtain ⟨Z, hZ, h1, h2, h3⟩ := h
  have hu := ac.uNonneg
  have hη := ac.etaNonneg
  have hWT : FlMat L (flTranspose W) (fun k j => w j k) := by
    intro k hk j hj
    rw [at_transpose W hj]
    exact hW j hj k hk
  have hjW : j < W.rows := by
    have := hZ.2.2.1
    rw [← h2] at this
    rw [this] at hj
    exact hj
  have hS : 0 ≤ dotSize X.cols (f i) (w j) := Finset.sum_nonneg fun _ _ => abs_nonneg _
  have hc := abs_nonneg (c j)
  have key := dotError_add (u := u) (η := η) hu hη (n := X.cols) (m := 0) (k := X.cols + 1) le_rfl (by omega) (by omega) hS hc
  have e0 : dotError u η 0 |c j| = 0 := by simp [dotError]
  rw [e0, add_zero] at key
  have e1 := dotError_nonneg (u := u) hu hη X.cols hS
  have k1 : dotError u η X.cols (dotSize X.cols (f i) (w j)) ≤ dotError u η (X.cols + 1) (dotSize X.cols (f i) (w j) + |c j|) := by
    nlinarith [mul_nonneg hu e1, mul_nonneg hu (add_nonneg hS hc)]
  obtain ⟨z, z1, ⟨z', hz', z2, z3⟩, z4⟩ := C133_gemm ok ac hX hWT hZ (h1 ▸ hi) (h2 ▸ hj) (by linarith)
  rw [z1] at hz'
  cases hz'
  obtain ⟨b1, b', hb', b2, b3⟩ := hb j hjW
  rw [b1] at hb'
  cases hb'
  have hexact : |dotReal X.cols (f i) (w j)| ≤ dotSize X.cols (f i) (w j) := Finset.abs_sum_le_sum_abs _ _
  have hzc : |z + c j| ≤ dotSize X.cols (f i) (w j) + |c j| + dotError u η X.cols (dotSize X.cols (f i) (w j)) := by
    have := abs_add_le z (c j)
    have h5 : |z| ≤ dotSize X.cols (f i) (w j) + dotError u η X.cols (dotSize X.cols (f i) (w j)) := by
      rw [abs_le] at *
      constructor <;> linarith [hexact.1, hexact.2, z4.1, z4.2]
    linarith
  have hY : Y.at i j = .fin (L.rnd (z + c j)) := by
    rw [h3 i hi j hj, z1, b1]
    exact round_fin ok (hzc.trans (by linarith))
  have herr : |L.rnd (z + c j) - (dotReal X.cols (f i) (w j) + c j)| ≤ dotError u η (X.cols + 1) (dotSize X.cols (f i) (w j) + |c j|) := by
    have hn := ac.addNear z (c j) z2 b2
    have hm := mul_le_mul_of_nonneg_left hzc hu
    have t : L.rnd (z + c j) - (dotReal X.cols (f i) (w j) + c j) = (L.rnd (z + c j) - (z + c j)) + (z - dotReal X.cols (f i) (w j)) := by ring
    rw [t]
    have t2 := abs_add_le (L.rnd (z + c j) - (z + c j)) (z - dotReal X.cols (f i) (w j))
    nlinarith
  refine ⟨_, hY, ⟨_, hY, ok.idem _, ?_⟩, herr⟩
  have := ok.abs_le ok.rndBig (hzc.trans (by linarith))
  exact this

theorem sums_dots (ok : IsFloatLib L count) {xs : List Fl} {s : Fl} (h : Sums L xs s) (hx : ∀ x ∈ xs, IsFinite L x) :
    L.Dots (xs.map fun x => (x, .fin 1)) s := by
  induction h with
  | zero => exact .zero
  | one x =>
    obtain ⟨y, rfl, h1, h2⟩ := hx x (by simp)
    have : L.mul (.fin y) (.fin 1) = .fin y := by
      show L.round (y * 1) = _
      rw [mul_one, round_fin ok h2, h1]
    have hp := Dots.prod (L := L) (.fin y) (.fin 1)
    rw [this] at hp
    exact hp
  | @add xs ys zs a b h1 h2 hp ih1 ih2 =>
    refine .add (ih1 fun x h => hx x (hp.mem_iff.2 (by simp [h]))) (ih2 fun x h => hx x (hp.mem_iff.2 (by simp [h]))) ?_
    rw [← List.map_append]
    exact hp.map _

/-- The gradients of `Linear` in floating point, for an output gradient that is `d`: those of the input and of the weights are near the exact
matrix products, and that of the bias is near the exact sum over the batch. -/
theorem C133_linear_backprop (ok : IsFloatLib L count) (ac : Accurate L u η v) {X W dY dX dW : Mat Fl} {db : ℕ → Fl} {f w d : ℕ → ℕ → ℝ}
    (hX : FlMat L X f) (hW : FlMat L W w) (hd : FlMat L dY d) (h : L.LinearBack X W dY dX dW db) :
    (∀ i < dX.rows, ∀ j < dX.cols,
      dotSize dY.cols (d i) (fun k => w k j) + dotError u η dY.cols (dotSize dY.cols (d i) (fun k => w k j)) ≤ L.big →
      ∃ r, dX.at i j = .fin r ∧ |r - ∑ k ∈ Finset.range dY.cols, d i k * w k j| ≤ dotError u η dY.cols (dotSize dY.cols (d i) (fun k => w k j))) ∧
    (∀ o < dW.rows, ∀ j < dW.cols,
      dotSize dY.rows (fun n => d n o) (fun n => f n j) + dotError u η dY.rows (dotSize dY.rows (fun n => d n o) (fun n => f n j)) ≤ L.big →
      ∃ r, dW.at o j = .fin r ∧
        |r - ∑ n ∈ Finset.range dY.rows, d n o * f n j| ≤ dotError u η dY.rows (dotSize dY.rows (fun n => d n o) (fun n => f n j))) ∧
    ∀ o < dY.cols,
      dotSize dY.rows (fun n => d n o) (fun _ => 1) + dotError u η dY.rows (dotSize dY.rows (fun n => d n o) (fun _ => 1)) ≤ L.big →
      ∃ r, db o = .fin r ∧ |r - ∑ n ∈ Finset.range dY.rows, d n o| ≤ dotError u η dY.rows (dotSize dY.rows (fun n => d n o) (fun _ => 1)) := by
  obtain ⟨h1, h2, h3⟩ := h
  refine ⟨fun i hi j hj hb => ?_, fun o ho j hj hb => ?_, fun o ho hb => ?_⟩
  · obtain ⟨r, r1, -, r2⟩ := C133_gemm ok ac hd hW h1 hi hj hb
    exact ⟨r, r1, r2⟩
  · have hdT : FlMat L (flTranspose dY) (fun k j => d j k) := by
      intro k hk j hj
      rw [at_transpose dY hj]
      exact hd j hj k hk
    obtain ⟨r, r1, -, r2⟩ := C133_gemm ok ac hdT hX h2 ho hj hb
    exact ⟨r, r1, r2⟩
  · have hcol : ∀ x ∈ (List.range dY.rows).map fun n => dY.at n o, IsFinite L x := by
      intro x hx
      obtain ⟨n, hn, rfl⟩ := List.mem_map.1 hx
      exact (hd n (List.mem_range.1 hn) o ho).2
    have hdots := sums_dots ok (ok.sum ((List.range dY.rows).map fun n => dY.at n o)) hcol
    have he : exactDot (((List.range dY.rows).map fun n => dY.at n o).map fun x => (x, Fl.fin 1)) = ∑ n ∈ Finset.range dY.rows, d n o := by
      unfold exactDot
      rw [List.map_map, List.map_map, sum_range_list]
      refine Finset.sum_congr rfl fun n hn => ?_
      simp only [Function.comp, (hd n (Finset.mem_range.1 hn) o ho).1, Fl.val, mul_one]
    have hs : sizeDot (((List.range dY.rows).map fun n => dY.at n o).map fun x => (x, Fl.fin 1)) = dotSize dY.rows (fun n => d n o) (fun _ => 1) := by
      unfold sizeDot dotSize
      rw [List.map_map, List.map_map, sum_range_list]
      refine Finset.sum_congr rfl fun n hn => ?_
      simp only [Function.comp, (hd n (Finset.mem_range.1 hn) o ho).1, Fl.val, mul_one]
    have hl : (((List.range dY.rows).map fun n => dY.at n o).map fun x => (x, Fl.fin 1)).length = dY.rows := by simp
    obtain ⟨r, r1, -, r2, -⟩ := dots_near ok ac hdots (by
      intro p hp
      obtain ⟨x, hx, rfl⟩ := List.mem_map.1 hp
      exact ⟨hcol x hx, 1, rfl, ok.one, by rw [abs_one]; linarith [ok.bigBound]⟩) (by rw [hl, hs]; exact hb)
    rw [hl, hs, he] at r2
    exact ⟨r, (h3 o ho).trans r1, r2⟩

/-- The condition on the size of the numbers is needed: near the largest number one order of the additions gives infinity and another the exact
result (for formats in which twice the largest number is infinite). -/
theorem C133_overflow_order (ok : IsFloatLib L count) (hinf : L.big < L.rnd (L.big + L.big)) :
    ∃ ps s t, L.Dots ps s ∧ L.Dots ps t ∧ (∀ p ∈ ps, IsFinite L p.1 ∧ IsFinite L p.2) ∧ s = .inf false ∧ t = .fin L.big := by
  have hb := ok.bigBound
  have fb : IsFinite L (.fin L.big) := ⟨_, rfl, ok.rndBig, by rw [abs_of_nonneg (by linarith)]⟩
  have fn : IsFinite L (.fin (-L.big)) := ⟨_, rfl, ok.neg ok.rndBig, by rw [abs_neg, abs_of_nonneg (by linarith)]⟩
  have f1 : IsFinite L (.fin 1) := ⟨_, rfl, ok.one, by rw [abs_one]; linarith⟩
  have m1 : L.mul (.fin L.big) (.fin 1) = .fin L.big := by
    show L.round (L.big * 1) = _
    rw [mul_one, round_fin ok (by rw [abs_of_nonneg (by linarith)]), ok.rndBig]
  have m2 : L.mul (.fin (-L.big)) (.fin 1) = .fin (-L.big) := by
    show L.round (-L.big * 1) = _
    rw [mul_one, round_fin ok (by rw [abs_neg, abs_of_nonneg (by linarith)]), ok.neg ok.rndBig]
  have d1 : L.Dots [(.fin L.big, .fin 1)] (.fin L.big) := by
    have := Dots.prod (L := L) (.fin L.big) (.fin 1)
    rwa [m1] at this
  have d2 : L.Dots [(.fin (-L.big), .fin 1)] (.fin (-L.big)) := by
    have := Dots.prod (L := L) (.fin (-L.big)) (.fin 1)
    rwa [m2] at this
  have a1 : L.add (.fin L.big) (.fin L.big) = .inf false := by
    show L.round (L.big + L.big) = _
    unfold FloatLib.round
    rw [if_neg (by rw [abs_of_nonneg (by linarith)]; linarith), decide_eq_false (by linarith)]
  have a2 : L.add (.fin L.big) (.fin (-L.big)) = .fin 0 := by
    show L.round (L.big + -L.big) = _
    rw [add_neg_cancel, round_fin ok (by rw [abs_zero]; linarith), ok.zero]
  have a3 : L.add (.fin L.big) (.fin 0) = .fin L.big := by
    show L.round (L.big + 0) = _
    rw [add_zero, round_fin ok (by rw [abs_of_nonneg (by linarith)]), ok.rndBig]
  refine ⟨[(.fin L.big, .fin 1), (.fin L.big, .fin 1), (.fin (-L.big), .fin 1)], .inf false, .fin L.big, ?_, ?_, ?_, rfl, rfl⟩
  · have e1 := Dots.add d1 d1 (List.Perm.refl _)
    rw [a1] at e1
    exact Dots.add e1 d2 (List.Perm.refl _)
  · have e2 := Dots.add d1 d2 (List.Perm.refl _)
    rw [a2] at e2
    have e3 := Dots.add d1 e2 (List.Perm.refl _)
    rw [a3] at e3
    exact e3
  · intro p hp
    simp only [List.mem_cons, List.not_mem_nil, or_false] at hp
    rcases hp with rfl | rfl | rfl
    · exact ⟨fb, f1⟩
    · exact ⟨fb, f1⟩
    · exact ⟨fn, f1⟩

/-! ### A concrete case: float32, [[1, 2]] times [[3], [4]] -/

def flA : Mat Fl := ⟨1, 2, fun k => .fin (k + 1)⟩
def flB : Mat Fl := ⟨2, 1, fun k => .fin (k + 3)⟩

/-- One of the possible results, with a fused operation. -/
noncomputable def flC (L : FloatLib) : Mat Fl := ⟨1, 1, fun _ => L.fma (.fin 1) (.fin 3) (L.mul (.fin 2) (.fin 4))⟩

theorem flC_gemm (L : FloatLib) : L.Gemm flA flB (flC L) := by
  refine ⟨rfl, rfl, rfl, fun i hi j hj => ?_⟩
  obtain rfl : i = 0 := by have : i < 1 := hi; omega
  obtain rfl : j = 0 := by have : j < 1 := hj; omega
  have hp : pairs flA flB 0 0 = [(.fin 1, .fin 3), (.fin 2, .fin 4)] := by
    simp [pairs, flA, flB, Mat.at, List.range_succ]
    norm_num
  rw [hp]
  exact Dots.fma (Dots.prod _ _) (List.Perm.refl _)

theorem fl_small (ok : IsFloatLib L count) (k : ℕ) (hk : k ≤ 10) : IsFinite L (.fin k) := by
  have := ok.thousand
  have hb := ok.bigBound
  refine ⟨k, rfl, ok.nat k (by omega), ?_⟩
  have : (k : ℝ) ≤ 10 := by exact_mod_cast hk
  rw [abs_of_nonneg (Nat.cast_nonneg k)]
  linarith

theorem flA_mat (ok : IsFloatLib L count) : FlMat L flA (fun _ k => (k : ℝ) + 1) := by
  intro i hi j hj
  obtain rfl : i = 0 := by have : i < 1 := hi; omega
  have hj : j < 2 := hj
  have h := fl_small ok (j + 1) (by omega)
  push_cast at h
  exact ⟨by simp [flA, Mat.at], by simpa [flA, Mat.at] using h⟩

theorem flB_mat (ok : IsFloatLib L count) : FlMat L flB (fun k _ => (k : ℝ) + 3) := by
  intro i hi j hj
  obtain rfl : j = 0 := by have : j < 1 := hj; omega
  have hi : i < 2 := hi
  have h := fl_small ok (i + 3) (by omega)
  push_cast at h
  exact ⟨by simp [flB, Mat.at], by simpa [flB, Mat.at] using h⟩

example : ∃ r, (flC float32Lib).at 0 0 = .fin r ∧ |r - 11| ≤ 1 / 1000 := by
  have hbig := float32Lib_ok.bigBound
  have e1 : dotSize 2 (fun k => (k : ℝ) + 1) (fun k => (k : ℝ) + 3) = 11 := by simp [dotSize, Finset.sum_range_succ]; norm_num
  have e2 : dotReal 2 (fun k => (k : ℝ) + 1) (fun k => (k : ℝ) + 3) = 11 := by simp [dotReal, Finset.sum_range_succ]; norm_num
  have e3 : dotError (1 / 2 ^ 23) (1 / 2 ^ 149) 2 11 ≤ 1 / 1000 := by unfold dotError; norm_num
  obtain ⟨r, r1, -, r2⟩ := C133_gemm float32Lib_ok float32_accurate (flA_mat float32Lib_ok) (flB_mat float32Lib_ok) (flC_gemm float32Lib)
    (i := 0) (j := 0) (by decide) (by decide) (by
      show dotSize 2 _ _ + dotError _ _ 2 (dotSize 2 _ _) ≤ _
      rw [e1]
      linarith)
  refine ⟨r, r1, ?_⟩
  have r2 : |r - dotReal 2 (fun k => (k : ℝ) + 1) (fun k => (k : ℝ) + 3)| ≤
    dotError (1 / 2 ^ 23) (1 / 2 ^ 149) 2 (dotSize 2 (fun k => (k : ℝ) + 1) (fun k => (k : ℝ) + 3)) := r2
  rw [e1, e2] at r2
  linarith

/-- It is even exact, because the numbers are whole. -/
example : (flC float32Lib).at 0 0 = .fin 11 := by
  rw [C133_whole float32Lib_ok (f := fun _ k => (k : ℤ) + 1) (g := fun k _ => (k : ℤ) + 3)
    (fun i hi k hk => by
      obtain rfl : i = 0 := by have : i < 1 := hi; omega
      simp [flA, Mat.at])
    (fun k hk j hj => by
      obtain rfl : j = 0 := by have : j < 1 := hj; omega
      simp [flB, Mat.at]) (flC_gemm float32Lib) (i := 0) (j := 0) (by decide) (by decide) (by decide)]
  simp [flA, Finset.sum_range_succ]

/-- All the orders of these additions. -/
example (C D : Mat Fl) (hC : float32Lib.Gemm flA flB C) (hD : float32Lib.Gemm flA flB D) : ∃ r s, C.at 0 0 = .fin r ∧ D.at 0 0 = .fin s ∧ |r - s| ≤ 1 / 1000 := by
  have hbig := float32Lib_ok.bigBound
  have e1 : dotSize 2 (fun k => (k : ℝ) + 1) (fun k => (k : ℝ) + 3) = 11 := by simp [dotSize, Finset.sum_range_succ]; norm_num
  have e3 : dotError (1 / 2 ^ 23) (1 / 2 ^ 149) 2 11 ≤ 1 / 2000 := by unfold dotError; norm_num
  obtain ⟨r, s, h1, h2, h3⟩ := C133_backends float32Lib_ok float32_accurate (flA_mat float32Lib_ok) (flB_mat float32Lib_ok) hC hD
    (i := 0) (j := 0) (by rw [hC.2.1]; decide) (by rw [hC.2.2.1]; decide) (by
      show dotSize 2 _ _ + dotError _ _ 2 (dotSize 2 _ _) ≤ _
      rw [e1]
      linarith)
  refine ⟨r, s, h1, h2, ?_⟩
  have h3 : |r - s| ≤ 2 * dotError (1 / 2 ^ 23) (1 / 2 ^ 149) 2 (dotSize 2 (fun k => (k : ℝ) + 1) (fun k => (k : ℝ) + 3)) := h3
  rw [e1] at h3
  linarith

/-- `Linear` on the row (1, 2) with the weights (1, 2) and the bias 3: an output exists, and every output is near 8. -/
noncomputable def flZ : Mat Fl := ⟨1, 1, fun _ => float32Lib.fma (.fin 1) (.fin 1) (float32Lib.mul (.fin 2) (.fin 2))⟩
noncomputable def flY : Mat Fl := ⟨1, 1, fun _ => float32Lib.add (flZ.at 0 0) (.fin 3)⟩

theorem flY_affine : float32Lib.Affine flA flA (fun _ => .fin 3) flY := by
  refine ⟨flZ, ⟨rfl, rfl, rfl, fun i hi j hj => ?_⟩, rfl, rfl, fun i hi j hj => ?_⟩
  · obtain rfl : i = 0 := by have : i < 1 := hi; omega
    obtain rfl : j = 0 := by have : j < 1 := hj; omega
    have hp : pairs flA (flTranspose flA) 0 0 = [(.fin 1, .fin 1), (.fin 2, .fin 2)] := by
      simp [pairs, flA, flTranspose, Mat.at, List.range_succ]
      norm_num
    rw [hp]
    exact Dots.fma (Dots.prod _ _) (List.Perm.refl _)
  · obtain rfl : i = 0 := by have : i < 1 := hi; omega
    obtain rfl : j = 0 := by have : j < 1 := hj; omega
    rfl

example : ∃ r, flY.at 0 0 = .fin r ∧ |r - 8| ≤ 1 / 1000 := by
  have hbig := float32Lib_ok.bigBound
  have e1 : dotSize 2 (fun k => (k : ℝ) + 1) (fun k => (k : ℝ) + 1) = 5 := by simp [dotSize, Finset.sum_range_succ]; norm_num
  have e2 : dotReal 2 (fun k => (k : ℝ) + 1) (fun k => (k : ℝ) + 1) = 5 := by simp [dotReal, Finset.sum_range_succ]; norm_num
  have e3 : dotError (1 / 2 ^ 23) (1 / 2 ^ 149) 3 8 ≤ 1 / 1000 := by unfold dotError; norm_num
  have e4 : (5 : ℝ) + |3| = 8 := by norm_num
  have h3 := fl_small float32Lib_ok 3 (by decide)
  obtain ⟨r, r1, -, r2⟩ := C133_linear float32Lib_ok float32_accurate (c := fun _ => 3) (flA_mat float32Lib_ok) (flA_mat float32Lib_ok)
    (fun _ _ => ⟨rfl, by simpa using h3⟩) flY_affine (i := 0) (j := 0) (by decide) (by decide) (by
      show dotSize 2 _ _ + |3| + dotError _ _ (2 + 1) (dotSize 2 _ _ + |3|) ≤ _
      rw [e1, e4]
      linarith)
  refine ⟨r, r1, ?_⟩
  have r2 : |r - (dotReal 2 (fun k => (k : ℝ) + 1) (fun k => (k : ℝ) + 1) + 3)| ≤
    dotError (1 / 2 ^ 23) (1 / 2 ^ 149) 3 (dotSize 2 (fun k => (k : ℝ) + 1) (fun k => (k : ℝ) + 1) + |3|) := r2
  rw [e1, e2, e4] at r2
  rw [show (5 : ℝ) + 3 = 8 by norm_num] at r2
  linarith

/-- float32 has numbers for which the order decides. -/
example := C133_overflow_order float32Lib_ok (by
  have h := float32_accurate.near (float32Lib.big + float32Lib.big)
  have hb := float32Lib_ok.bigBound
  rw [abs_of_nonneg (by linarith : 0 ≤ float32Lib.big + float32Lib.big), abs_le] at h
  have := h.1
  norm_num at this ⊢
  linarith)

/-- There is always a result. -/
theorem dots_exist (L : FloatLib) (ps : List (Fl × Fl)) : ∃ s, L.Dots ps s := by
  induction ps with
  | nil => exact ⟨_, .zero⟩
  | cons p ps ih =>
    obtain ⟨s, hs⟩ := ih
    exact ⟨_, .fma (a := p.1) (b := p.2) hs (List.Perm.refl _)⟩

theorem gemm_exists (L : FloatLib) (A B : Mat Fl) (h : A.cols = B.rows) : ∃ C, L.Gemm A B C := by
  refine ⟨⟨A.rows, B.cols, fun k => (dots_exist L (pairs A B (k / B.cols) (k % B.cols))).choose⟩, h, rfl, rfl, fun i hi j hj => ?_⟩
  have hj : j < B.cols := hj
  have e1 : (i * B.cols + j) / B.cols = i := by rw [Nat.add_comm, Nat.add_mul_div_right _ _ (by omega), Nat.div_eq_of_lt hj, Nat.zero_add]
  have e2 : (i * B.cols + j) % B.cols = j := by rw [Nat.add_comm, Nat.add_mul_mod_self_right, Nat.mod_eq_of_lt hj]
  show L.Dots _ (dots_exist L (pairs A B ((i * B.cols + j) / B.cols) ((i * B.cols + j) % B.cols))).choose
  have := (dots_exist L (pairs A B ((i * B.cols + j) / B.cols) ((i * B.cols + j) % B.cols))).choose_spec
  rwa [e1, e2] at this ⊢

/-- The gradients for the row (1, 2), the weights (1, 2) and the output gradient 1. -/
example : ∃ dX dW db, float32Lib.LinearBack flA flA ⟨1, 1, fun _ => .fin 1⟩ dX dW db ∧ FlMat float32Lib ⟨1, 1, fun _ => .fin 1⟩ (fun _ _ => 1) := by
  obtain ⟨dX, h1⟩ := gemm_exists float32Lib ⟨1, 1, fun _ => .fin 1⟩ flA rfl
  obtain ⟨dW, h2⟩ := gemm_exists float32Lib (flTranspose ⟨1, 1, fun _ => .fin 1⟩) flA rfl
  have h3 := fl_small float32Lib_ok 1 (by decide)
  exact ⟨dX, dW, _, ⟨h1, h2, fun _ _ => rfl⟩, fun _ _ _ _ => ⟨rfl, by simpa [Mat.at] using h3⟩⟩

end Thinc
