import Verif.Model.Softmax
import Verif.Spec.Softmax
import Verif.Lemmas.VJP
import Verif.Lemmas.Activations
import Verif.Props.Pooling
import Mathlib.Analysis.Calculus.FDeriv.Mul
/-! # Lemmas about softmax -/
namespace Thinc
open Real Spec Finset

section
variable {κ : Type} [Fintype κ]

theorem softmax_sum_pos [Nonempty κ] (x : κ → ℝ) : 0 < ∑ j, exp (x j) :=
  Finset.sum_pos (fun _ _ => exp_pos _) Finset.univ_nonempty

theorem specSoftmax_sub (x : κ → ℝ) (c : ℝ) : Spec.softmax (fun k => x k - c) = Spec.softmax x := by
  funext k
  unfold Spec.softmax
  simp only [exp_sub]
  rw [← Finset.sum_div]
  exact div_div_div_cancel_right₀ (exp_pos c).ne' _ _

theorem specSoftmax_pos (x : κ → ℝ) (k : κ) : 0 < Spec.softmax x k := by
  have : Nonempty κ := ⟨k⟩
  exact div_pos (exp_pos _) (softmax_sum_pos x)

theorem specSoftmax_sum [Nonempty κ] (x : κ → ℝ) : ∑ k, Spec.softmax x k = 1 := by
  unfold Spec.softmax
  rw [← Finset.sum_div]
  exact div_self (softmax_sum_pos x).ne'

theorem specSoftmax_lt (x : κ → ℝ) (j k : κ) : Spec.softmax x j < Spec.softmax x k ↔ x j < x k := by
  have : Nonempty κ := ⟨k⟩
  unfold Spec.softmax
  rw [div_lt_div_iff_of_pos_right (softmax_sum_pos x), exp_lt_exp]

/-- The gradient of softmax. -/
theorem IsVJP_softmax (x : κ → ℝ) :
    IsVJP Spec.softmax x (fun dy k => Spec.softmax x k * dy k - Spec.softmax x k * ∑ j, Spec.softmax x j * dy j) := by
  classical
  have hproj : ∀ j, HasFDerivAt (fun y : κ → ℝ => exp (y j)) (exp (x j) • ContinuousLinearMap.proj j) x :=
    fun j => (hasFDerivAt_apply j x).exp
  have hsum : HasFDerivAt (fun y : κ → ℝ => ∑ j, exp (y j))
      (∑ j, exp (x j) • (ContinuousLinearMap.proj j : (κ → ℝ) →L[ℝ] ℝ)) x := by
    exact HasFDerivAt.fun_sum fun j _ => hproj j
  have hk : ∀ k, HasFDerivAt (fun y : κ → ℝ => Spec.softmax y k)
      (Spec.softmax x k • ((ContinuousLinearMap.proj k : (κ → ℝ) →L[ℝ] ℝ) -
        ∑ j, Spec.softmax x j • (ContinuousLinearMap.proj j : (κ → ℝ) →L[ℝ] ℝ))) x := by
    intro k
    have hne : Nonempty κ := ⟨k⟩
    have hS := (softmax_sum_pos x).ne'
    have hinv := (hasDerivAt_inv hS).comp_hasFDerivAt x hsum
    have hm := (hproj k).mul hinv
    have e : (fun y : κ → ℝ => Spec.softmax y k) = fun y => exp (y k) * ((fun y => y⁻¹) ∘ fun y : κ → ℝ => ∑ j, exp (y j)) y := by
      funext y
      simp [Spec.softmax, div_eq_mul_inv]
    rw [e]
    refine hm.congr_fderiv ?_
    ext v
    simp only [add_apply, smul_apply, sub_apply,
      _root_.sum_apply, ContinuousLinearMap.proj_apply, smul_eq_mul, Function.comp, Spec.softmax]
    generalize hSS : ∑ j, exp (x j) = S at *
    have e2 : ∑ j, exp (x j) / S * v j = (∑ j, exp (x j) * v j) / S := by
      rw [Finset.sum_div]
      exact Finset.sum_congr rfl fun j _ => by ring
    rw [e2]
    field_simp
    ring
  refine ⟨_, hasFDerivAt_pi.2 hk, fun dy v => ?_⟩
  simp only [dot_pi, dot_real, ContinuousLinearMap.pi_apply, smul_apply,
    sub_apply, _root_.sum_apply, ContinuousLinearMap.proj_apply, smul_eq_mul]
  have h1 : ∑ k, (Spec.softmax x k * dy k - Spec.softmax x k * ∑ j, Spec.softmax x j * dy j) * v k =
      ∑ k, Spec.softmax x k * dy k * v k - (∑ k, Spec.softmax x k * v k) * ∑ j, Spec.softmax x j * dy j := by
    rw [Finset.sum_mul, ← Finset.sum_sub_distrib]
    exact Finset.sum_congr rfl fun k _ => by ring
  have h2 : ∑ k, dy k * (Spec.softmax x k * (v k - ∑ j, Spec.softmax x j * v j)) =
      ∑ k, Spec.softmax x k * dy k * v k - (∑ k, Spec.softmax x k * dy k) * ∑ j, Spec.softmax x j * v j := by
    rw [Finset.sum_mul, ← Finset.sum_sub_distrib]
    exact Finset.sum_congr rfl fun k _ => by ring
  rw [h1, h2]
  ring

end

/-! ### The code's softmax -/

theorem softmax_eq {ι : Type} [Fintype ι] {n : Nat} (T : ℝ) (x : ι → Fin (n + 1) → ℝ) :
    softmax T x = .ok (fun i => Spec.softmax (fun k => x i k / T)) := by
  unfold softmax
  by_cases h : T ≠ 1
  · simp only [if_pos h, npMax, bind, Except.bind, pure, Except.pure]
    congr 1
    funext i
    exact specSoftmax_sub (fun k => x i k / T) _
  · simp only [if_neg h, npMax, bind, Except.bind, pure, Except.pure]
    congr 1
    funext i
    have : T = 1 := not_not.1 h
    simp only [this, div_one]
    exact specSoftmax_sub (fun k => x i k) _

/-! ### Elementwise operations on matrices -/

section
variable {K : Type}

theorem ofFn_at (r c : Nat) (f : Nat → Nat → K) (i j : Nat) (hj : j < c) : (Mat.ofFn r c f).at i j = f i j := by
  simp only [Mat.ofFn, Mat.at, rowMajor_div c i j hj, rowMajor_mod c i j hj]

theorem bat_eq (A : Mat K) (i j : Nat) (hi : i < A.rows) : A.bat i j = A.at i j := by
  unfold Mat.bat
  split
  · have : i = 0 := by omega
    rw [this]
  · rfl

theorem map_at {L : Type} (f : K → L) (A : Mat K) (i j : Nat) : (A.map f).at i j = f (A.at i j) := rfl

theorem npZip_ok (f : K → K → K) (A B : Mat K) (h : A.rows = B.rows) :
    ∃ C, npZip f A B = .ok C ∧ C.rows = A.rows ∧ C.cols = A.cols ∧
      ∀ i < A.rows, ∀ j < A.cols, C.at i j = f (A.at i j) (B.at i j) := by
  unfold npZip broadcastRows
  rw [if_pos h]
  refine ⟨_, rfl, rfl, rfl, fun i hi j hj => ?_⟩
  rw [ofFn_at _ _ _ _ _ hj, bat_eq A i j hi, bat_eq B i j (by omega)]

theorem npZipInplace_ok (f : K → K → K) (A B : Mat K) (h : A.rows = B.rows) :
    ∃ C, npZipInplace f A B = .ok C ∧ C.rows = A.rows ∧ C.cols = A.cols ∧
      ∀ i < A.rows, ∀ j < A.cols, C.at i j = f (A.at i j) (B.at i j) := by
  unfold npZipInplace broadcastRows
  rw [if_pos h]
  simp only [bind, Except.bind, ne_eq, not_true, if_false, pure, Except.pure]
  refine ⟨_, rfl, rfl, rfl, fun i hi j hj => ?_⟩
  rw [ofFn_at _ _ _ _ _ hj, bat_eq B i j (by omega)]

end

/-- The sum over each sequence, given to each of its rows. -/
theorem segment_sums (X : Mat ℝ) (ls : List Nat) (hrows : 0 < X.rows) (hsum : ls.sum ≤ X.rows) :
    ∃ s S, reduceSum X (asInts ls) = .ok s ∧ backpropReduceSum s (asInts ls) = .ok S ∧ S.rows = ls.sum ∧
      S.cols = X.cols ∧ ∀ b < ls.length, ∀ t < seqLen ls b, ∀ o < X.cols,
        seqAt S ls b t o = ∑ u : Fin (seqLen ls b), seqAt X ls b u o := by
  obtain ⟨s, h1, h2, h3, h4⟩ := C37_reduce_sum_partial X ls hrows hsum
  obtain ⟨S, g1, g2, g3, g4⟩ := C37_backprop_reduce_sum s ls h2
  refine ⟨s, S, h1, g1, g2, by rw [g3, h3], fun b hb t ht o ho => ?_⟩
  rw [g4 b hb t ht o (by omega), h4 b hb o ho, Finset.sum_range]

theorem seqRow_lt (ls : List Nat) (b t : Nat) (hb : b < ls.length) (ht : t < seqLen ls b) :
    seqStart ls b + t < ls.sum := by
  have := seqEnd_le ls b hb
  omega

end Thinc
