import Verif.Lemmas.Broadcast
import Verif.Props.Linear
import Mathlib.Analysis.SpecialFunctions.Pow.Deriv
/-!
# C57: LayerNorm
-/
namespace Thinc
open Spec Spec.Tensor Real

namespace Spec
/-- The mean of a row. -/
noncomputable def mean {m : ℕ} (x : Fin m → ℝ) : ℝ := (∑ j, x j) / m

/-- The variance of a row. -/
noncomputable def variance {m : ℕ} (x : Fin m → ℝ) : ℝ := (∑ j, (x j - mean x) ^ 2) / m

/-- A row moved to mean zero and divided by its standard deviation (with an offset against division by zero). -/
noncomputable def normalized {m : ℕ} (x : Fin m → ℝ) : Fin m → ℝ := fun j => (x j - mean x) / √(variance x + 1e-08)
end Spec

section
variable {m : ℕ}

theorem variance_nonneg (x : Fin m → ℝ) : 0 ≤ variance x :=
  div_nonneg (Finset.sum_nonneg fun _ _ => sq_nonneg _) (Nat.cast_nonneg m)

theorem variance_pos (x : Fin m → ℝ) : 0 < variance x + 1e-08 := by
  have := variance_nonneg x
  have h : (0 : ℝ) < 1e-08 := by norm_num
  linarith

theorem sum_centered (hm : 0 < m) (x : Fin m → ℝ) : ∑ j, (x j - mean x) = 0 := by
  have : (m : ℝ) ≠ 0 := Nat.cast_ne_zero.2 hm.ne'
  simp only [Finset.sum_sub_distrib, Finset.sum_const, Finset.card_univ, Fintype.card_fin, nsmul_eq_mul, mean]
  field_simp
  ring

/-- The normalised row has mean zero. -/
theorem C57_mean_zero (hm : 0 < m) (x : Fin m → ℝ) : mean (normalized x) = 0 := by
  unfold mean normalized
  rw [← Finset.sum_div, sum_centered hm, zero_div, zero_div]

/-- Its variance is that of the row divided by (variance + 1e-8), so it is less than one. -/
theorem C57_variance (hm : 0 < m) (x : Fin m → ℝ) :
    variance (normalized x) = variance x / (variance x + 1e-08) ∧ variance (normalized x) < 1 := by
  have h : variance (normalized x) = variance x / (variance x + 1e-08) := by
    have h0 := C57_mean_zero hm x
    unfold variance at h0 ⊢
    rw [h0]
    have h1 := variance_pos x
    unfold variance at h1
    simp only [normalized, sub_zero, div_pow]
    rw [← Finset.sum_div]
    unfold variance
    rw [sq_sqrt h1.le, div_right_comm]
  refine ⟨h, ?_⟩
  rw [h, div_lt_one (variance_pos x)]
  norm_num

theorem rpow_half (v : ℝ) (hv : 0 < v) : v ^ (-1.0 / 2.0 : ℝ) = 1 / √v := by
  rw [show (-1.0 / 2.0 : ℝ) = -(1 / 2) by norm_num, rpow_neg hv.le, sqrt_eq_rpow]
  norm_num

theorem rpow_half' (v : ℝ) (hv : 0 < v) : v ^ (-1.0 / 2 : ℝ) = 1 / √v := by
  rw [← rpow_half v hv]
  norm_num

theorem rpow_neg_one' (v : ℝ) (hv : 0 < v) : v ^ (-1.0 : ℝ) = v⁻¹ := by
  rw [show (-1.0 : ℝ) = -1 by norm_num, rpow_neg_one]

theorem norm_sums_left (dy c v : Fin m → ℝ) (q V S D M : ℝ) (hM : M ≠ 0) :
    ∑ k, (M * dy k - S - c k * V⁻¹ * D) * q / M * v k =
      q * (∑ k, dy k * v k) - q / M * S * (∑ k, v k) - q / M * V⁻¹ * D * ∑ k, c k * v k := by
  simp only [Finset.mul_sum, ← Finset.sum_sub_distrib]
  refine Finset.sum_congr rfl fun k _ => ?_
  field_simp

theorem norm_sums_right (dy c v : Fin m → ℝ) (q a μ : ℝ) :
    ∑ j, dy j * (c j * a + q * (v j - μ)) = (∑ j, dy j * c j) * a + q * (∑ k, dy k * v k) - q * μ * ∑ j, dy j := by
  simp only [Finset.mul_sum, Finset.sum_mul, ← Finset.sum_sub_distrib, ← Finset.sum_add_distrib]
  exact Finset.sum_congr rfl fun k _ => by ring

theorem IsVJP_normalized (hm : 0 < m) (x : Fin m → ℝ) :
    IsVJP normalized x (fun dy k => (m * dy k - ∑ j, dy j - (x k - mean x) * (variance x + 1e-08)⁻¹ * ∑ j, dy j * (x j - mean x))
      * (1 / √(variance x + 1e-08)) / m) := by
  have hm' : (m : ℝ) ≠ 0 := Nat.cast_ne_zero.2 hm.ne'
  let mu' : (Fin m → ℝ) →L[ℝ] ℝ := (m : ℝ)⁻¹ • ∑ k, ContinuousLinearMap.proj (R := ℝ) (φ := fun _ : Fin m => ℝ) k
  let c' (j : Fin m) : (Fin m → ℝ) →L[ℝ] ℝ := ContinuousLinearMap.proj (R := ℝ) (φ := fun _ : Fin m => ℝ) j - mu'
  have emu : ∀ v, mu' v = mean v := fun v => by
    simp only [mu', smul_apply, _root_.sum_apply, smul_eq_mul, mean, ContinuousLinearMap.proj_apply]
    rw [div_eq_inv_mul]
  have ec : ∀ j v, c' j v = v j - mean v := fun j v => by
    simp only [c', sub_apply, emu, ContinuousLinearMap.proj_apply]
  have hc : ∀ j, HasFDerivAt (fun x : Fin m → ℝ => x j - mean x) (c' j) x := fun j => by
    have := (c' j).hasFDerivAt (x := x)
    refine this.congr_of_eventuallyEq (Filter.Eventually.of_forall fun v => (ec j v).symm)
  let V' : (Fin m → ℝ) →L[ℝ] ℝ := (m : ℝ)⁻¹ • ∑ j, (2 * (x j - mean x)) • c' j
  have hV : HasFDerivAt (fun x : Fin m → ℝ => variance x + 1e-08) V' x := by
    have h1 : HasFDerivAt (fun x : Fin m → ℝ => ∑ j, (x j - mean x) ^ 2) (∑ j, (2 * (x j - mean x)) • c' j) x := by
      refine HasFDerivAt.fun_sum fun j _ => ?_
      have := (hc j).pow 2
      simpa using this
    have h2 := (h1.const_mul (m : ℝ)⁻¹).add_const (1e-08 : ℝ)
    refine h2.congr_of_eventuallyEq (Filter.Eventually.of_forall fun v => ?_)
    simp only [variance, div_eq_inv_mul]
  have hpos := variance_pos x
  set V := variance x + 1e-08 with hVdef
  have hs : HasFDerivAt (fun x : Fin m → ℝ => (√(variance x + 1e-08))⁻¹) ((-(1 / (2 * √V)) / V) • V') x := by
    have h1 := (hV.sqrt hpos.ne')
    have h2 := (hasDerivAt_inv (sqrt_pos.2 hpos).ne').comp_hasFDerivAt x h1
    refine h2.congr_fderiv ?_
    rw [smul_smul, sq_sqrt hpos.le]
    rw [← hVdef]
    congr 1
    field_simp
  refine ⟨ContinuousLinearMap.pi fun j => (x j - mean x) • ((-(1 / (2 * √V)) / V) • V') + (√V)⁻¹ • c' j, ?_, ?_⟩
  · exact hasFDerivAt_pi.2 fun j => ((hc j).mul hs)
  · intro dy v
    have eV : V' v = (m : ℝ)⁻¹ * (2 * ∑ j, (x j - mean x) * v j) := by
      simp only [V', smul_apply, _root_.sum_apply, smul_eq_mul, ec]
      have h0 := sum_centered hm x
      have : ∑ j, 2 * (x j - mean x) * (v j - mean v) = 2 * ∑ j, (x j - mean x) * v j - 2 * mean v * ∑ j, (x j - mean x) := by
        rw [Finset.mul_sum, Finset.mul_sum, ← Finset.sum_sub_distrib]
        exact Finset.sum_congr rfl fun j _ => by ring
      rw [this, h0]
      ring
    simp only [dot_pi, dot_real, ContinuousLinearMap.coe_pi', add_apply, smul_apply, smul_eq_mul, eV, ec]
    have hq : √V ≠ 0 := (sqrt_pos.2 hpos).ne'
    rw [norm_sums_left _ _ _ _ _ _ _ _ hm', norm_sums_right]
    unfold mean
    field_simp
    ring

variable {n : ℕ}

/-- Scale, shift and input. -/
abbrev ScaleShift (n m : ℕ) := ((Fin 1 → Fin m → ℝ) × (Fin 1 → Fin m → ℝ)) × (Fin n → Fin m → ℝ)

theorem IsVJP_scaleShift (p : ScaleShift n m) :
    IsVJP (fun (p : ScaleShift n m) i j => p.2 i j * p.1.1 0 j + p.1.2 0 j) p
      (fun dy => ((fun _ j => ∑ i, dy i j * p.2 i j, fun _ j => ∑ i, dy i j), fun i j => dy i j * p.1.1 0 j)) := by
  have hG : IsVJP (fun p : ScaleShift n m => p.1.1) p _ :=
    IsVJP_comp (f := fun p : ScaleShift n m => p.1) (IsVJP_fst _) (IsVJP_fst _)
  have hb : IsVJP (fun p : ScaleShift n m => p.1.2) p _ :=
    IsVJP_comp (f := fun p : ScaleShift n m => p.1) (IsVJP_snd _) (IsVJP_fst _)
  have hG' := IsVJP_comp (f := fun p : ScaleShift n m => p.1.1) (IsVJP_repeat_row n p.1.1) hG
  have hb' := IsVJP_comp (f := fun p : ScaleShift n m => p.1.2) (IsVJP_repeat_row n p.1.2) hb
  have h1 := IsVJP_comp (f := fun p : ScaleShift n m => (p.2, fun (_ : Fin n) j => p.1.1 0 j)) (IsVJP_hadamard _)
    (IsVJP_prod (IsVJP_snd p) hG')
  refine IsVJP_congr₂ (IsVJP_add h1 hb') (fun _ => rfl) fun dy => ?_
  refine Prod.ext (Prod.ext ?_ ?_) ?_ <;> simp

/-- LayerNorm normalises every row, multiplies it by `G` and adds `b`, with exact gradients for the input,
`G` and `b`, for every number of rows and every width of at least one. -/
theorem C57_layer_norm {N : ℕ} {sh : Fin N → ℕ × ℕ} (hm : 0 < m) (Gp b : Fin N) (hG : sh Gp = (1, m)) (hb : sh b = (1, m))
    (train : Bool) (θ : Params sh) (x : Fin n → Fin m → ℝ) :
    Exact (layerNorm Gp b) train (Kind.arr n m) (Kind.arr n m)
      (fun p i j => normalized (p.2 i) j * p.1.vec Gp hG j + p.1.vec b hb j) θ x := by
  have hrows : IsVJP (fun (x : Fin n → Fin m → ℝ) i => normalized (x i)) x _ := IsVJP_pi fun i => IsVJP_normalized hm (x i)
  have hx : IsVJP (fun (p : ScaleShift n m) i => normalized (p.2 i)) ((θ.get Gp hG, θ.get b hb), x) _ :=
    IsVJP_comp (f := fun p : ScaleShift n m => p.2) (g := fun (x : Fin n → Fin m → ℝ) i => normalized (x i)) hrows (IsVJP_snd _)
  have h0 := IsVJP_comp (f := fun (p : ScaleShift n m) => (p.1, fun i => normalized (p.2 i)))
    (IsVJP_scaleShift ((θ.get Gp hG, θ.get b hb), fun i => normalized (x i)))
    (IsVJP_prod (IsVJP_fst ((θ.get Gp hG, θ.get b hb), x)) hx)
  refine Exact.intro (IsVJP_params2 Gp b hG hb h0) ?_
  rintro P v hP ⟨X, rfl, hX⟩
  have hPG := hP.get Gp hG
  have hPb := hP.get b hb
  have hmu : IsMat X.rowMeans (fun i (_ : Fin 1) => mean (x i)) := hX.rowMeans
  have hvar : IsMat (X.rowVars.mapEntries (· + 1e-08)) (fun i (_ : Fin 1) => variance (x i) + 1e-08) :=
    hX.rowVars.mapEntries (· + 1e-08)
  obtain ⟨C, eC, hC⟩ := hX.npBinary_col hmu (· - ·)
  have hinv := hvar.mapEntries (· ^ (-1.0 / 2.0 : ℝ))
  have hinv1 := hvar.mapEntries (· ^ (-1.0 : ℝ))
  obtain ⟨Xh, eXh, hXh⟩ := hC.npBinary_col hinv (· * ·)
  have hXh' : IsMat Xh (fun i => normalized (x i)) := hXh.congr fun i j => by
    simp only [normalized]
    rw [rpow_half _ (variance_pos (x i)), ← div_eq_mul_one_div]
  obtain ⟨Y, eY, hY⟩ := hXh'.npBinary_row hPG (· * ·)
  obtain ⟨Z, eZ, hZ⟩ := hY.npUpdate_row hPb (· + ·)
  apply ok_intro
  · simp only [layerNorm, lnMoments, lnScaleShift, Val.asArr, bind, Except.bind, eC, eXh, eY, eZ, pure, Except.pure]
    rfl
  · refine ⟨⟨Z, rfl, hZ⟩, ?_⟩
    rintro _ dy G g ⟨D, rfl, hD⟩ hGr
    obtain ⟨DX, eDX, hDX⟩ := hD.npBinary hXh' (· * ·)
    obtain ⟨G1, eG1, hG1⟩ := hGr.incGrad b hb hD.colSums
    obtain ⟨G2, eG2, hG2⟩ := hG1.incGrad Gp hG hDX.colSums
    obtain ⟨DY, eDY, hDY⟩ := hD.npBinary_row hPG (· * ·)
    obtain ⟨T, eT, hT⟩ := hDY.npBinary hC (· * ·)
    have hND := hDY.mapEntries ((X.cols : ℝ) * ·)
    obtain ⟨U, eU, hU⟩ := hND.npBinary_col hDY.rowSums (· - ·)
    obtain ⟨W, eW, hW⟩ := hC.npBinary_col hinv1 (· * ·)
    obtain ⟨R, eR, hR⟩ := hW.npBinary_col hT.rowSums (· * ·)
    obtain ⟨Q, eQ, hQ⟩ := hU.npBinary hR (· - ·)
    obtain ⟨S, eS, hS⟩ := hQ.npUpdate_col (hvar.mapEntries (· ^ (-1.0 / 2 : ℝ))) (· * ·)
    refine ⟨.arr (S.mapEntries (· / (X.cols : ℝ))), G2, ?_, ⟨_, rfl, (hS.mapEntries (· / (X.cols : ℝ))).congr fun i j => ?_⟩, ?_⟩
    · simp only [lnDMoments, eG1, eDX, eG2, eDY, eC, eT, eU, eW, eR, eQ, eS, bind, Except.bind, pure, Except.pure]
    · dsimp only
      rw [hX.2.1, rpow_half' _ (variance_pos (x i)), rpow_neg_one' _ (variance_pos (x i))]
      simp only [Params.vec, Pi.add_apply, Prod.snd_add, Prod.snd_zero, zero_add]
      exact (zero_add _).symm
    · rw [add_assoc, add_comm (Params.put b hb _)] at hG2
      simpa only [Prod.fst_add, Prod.fst_zero, Prod.snd_zero, add_zero, Prod.snd_add] using hG2

end

/-- The scale and the shift are the two parameters of the example network; any input will do. -/
example : Exact (layerNorm 0 1) true (Kind.arr 2 3) (Kind.arr 2 3)
    (fun p i j => normalized (p.2 i) j * p.1.vec (sh := fun _ : Fin 2 => (1, 3)) 0 rfl j + p.1.vec 1 rfl j)
    (fun _ _ _ => 1) (fun i j => if i = 0 then j else 5) :=
  C57_layer_norm (by norm_num) 0 1 rfl rfl true _ _

/-- The row (1, -1) has variance 1. -/
example : mean ![(1 : ℝ), -1] = 0 ∧ variance ![(1 : ℝ), -1] = 1 := by
  constructor <;> norm_num [mean, variance, Fin.sum_univ_two]

end Thinc
