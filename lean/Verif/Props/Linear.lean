import Verif.Props.Chain
import Mathlib.Analysis.Calculus.FDeriv.Mul
import Mathlib.Analysis.Normed.Module.FiniteDimension
/-!
# C56: Linear
-/
namespace Thinc
open Spec Spec.Tensor

namespace Spec
/-- `X Wᵀ + b` -/
def affine {n nO nI : ℕ} (x : Fin n → Fin nI → ℝ) (W : Fin nO → Fin nI → ℝ) (b : Fin nO → ℝ) : Fin n → Fin nO → ℝ :=
  fun i o => ∑ k, x i k * W o k + b o
end Spec

theorem IsVJP_affine {n nO nI : ℕ} (p : ((Fin nO → Fin nI → ℝ) × (Fin 1 → Fin nO → ℝ)) × (Fin n → Fin nI → ℝ)) :
    IsVJP (fun p : ((Fin nO → Fin nI → ℝ) × (Fin 1 → Fin nO → ℝ)) × (Fin n → Fin nI → ℝ) =>
      affine p.2 p.1.1 (p.1.2 0)) p
      (fun dy => ((fun o k => ∑ i, dy i o * p.2 i k, fun _ o => ∑ i, dy i o), fun i k => ∑ o, dy i o * p.1.1 o k)) := by
  let P := ((Fin nO → Fin nI → ℝ) × (Fin 1 → Fin nO → ℝ)) × (Fin n → Fin nI → ℝ)
  let w (o : Fin nO) (k : Fin nI) : P →L[ℝ] ℝ :=
    (ContinuousLinearMap.proj (R := ℝ) (φ := fun _ : Fin nI => ℝ) k).comp
      ((ContinuousLinearMap.proj (R := ℝ) (φ := fun _ : Fin nO => Fin nI → ℝ) o).comp
        ((ContinuousLinearMap.fst ℝ _ _).comp (ContinuousLinearMap.fst ℝ _ _)))
  let b (o : Fin nO) : P →L[ℝ] ℝ :=
    (ContinuousLinearMap.proj (R := ℝ) (φ := fun _ : Fin nO => ℝ) o).comp
      ((ContinuousLinearMap.proj (R := ℝ) (φ := fun _ : Fin 1 => Fin nO → ℝ) 0).comp
        ((ContinuousLinearMap.snd ℝ _ _).comp (ContinuousLinearMap.fst ℝ _ _)))
  let x (i : Fin n) (k : Fin nI) : P →L[ℝ] ℝ :=
    (ContinuousLinearMap.proj (R := ℝ) (φ := fun _ : Fin nI => ℝ) k).comp
      ((ContinuousLinearMap.proj (R := ℝ) (φ := fun _ : Fin n => Fin nI → ℝ) i).comp
        (ContinuousLinearMap.snd ℝ _ _))
  refine ⟨ContinuousLinearMap.pi fun i => ContinuousLinearMap.pi fun o =>
    (∑ k, (x i k p • w o k + w o k p • x i k)) + b o, ?_, ?_⟩
  · refine hasFDerivAt_pi.2 fun i => hasFDerivAt_pi.2 fun o => ?_
    exact (HasFDerivAt.fun_sum fun k _ => (x i k).hasFDerivAt.mul (w o k).hasFDerivAt).add (b o).hasFDerivAt
  · intro dy v
    have e : ∀ i o, (ContinuousLinearMap.pi (fun i => ContinuousLinearMap.pi fun o =>
        (∑ k, (x i k p • w o k + w o k p • x i k)) + b o)) v i o
        = (∑ k, (p.2 i k * v.1.1 o k + p.1.1 o k * v.2 i k)) + v.1.2 0 o := by
      intro i o
      simp only [ContinuousLinearMap.coe_pi', add_apply, _root_.sum_apply,
        smul_apply, smul_eq_mul]
      rfl
    rw [dot_pi]
    simp only [dot_pi (_ : Fin nO → ℝ), dot_real]
    simp only [e]
    simp only [dot_prod, dot_pi, dot_real, Finset.sum_mul, Finset.mul_sum, mul_add, Finset.sum_add_distrib,
      Fin.sum_univ_one, Fin.isValue]
    have e1 : ∑ o, ∑ k, ∑ i, dy i o * p.2 i k * v.1.1 o k = ∑ i, ∑ o, ∑ k, dy i o * (p.2 i k * v.1.1 o k) := by
      rw [Finset.sum_comm]
      simp only [Finset.sum_comm (s := (Finset.univ : Finset (Fin nO)))]
      rw [Finset.sum_comm]
      simp only [mul_assoc]
    have e2 : ∑ i, ∑ k, ∑ o, dy i o * p.1.1 o k * v.2 i k = ∑ i, ∑ o, ∑ k, dy i o * (p.1.1 o k * v.2 i k) := by
      refine Finset.sum_congr rfl fun i _ => ?_
      rw [Finset.sum_comm]
      simp only [mul_assoc]
    have e3 : ∑ o, ∑ i, dy i o * v.1.2 0 o = ∑ i, ∑ o, dy i o * v.1.2 0 o := Finset.sum_comm
    rw [e1, e2, e3]
    ring

section
variable {N : ℕ} {sh : Fin N → ℕ × ℕ}

/-- A function of two parameters and the input. -/
theorem IsVJP_params2 {n m n' m' : ℕ} {E F : Type} [NormedAddCommGroup E] [NormedSpace ℝ E] [Tensor E]
    [NormedAddCommGroup F] [NormedSpace ℝ F] [Tensor F] (W b : Fin N) (hW : sh W = (n, m)) (hb : sh b = (n', m'))
    {φ : ((Fin n → Fin m → ℝ) × (Fin n' → Fin m' → ℝ)) × E → F} {θ : Params sh} {x : E}
    {back : F → ((Fin n → Fin m → ℝ) × (Fin n' → Fin m' → ℝ)) × E}
    (h : IsVJP φ ((θ.get W hW, θ.get b hb), x) back) :
    IsVJP (fun p : Params sh × E => φ ((p.1.get W hW, p.1.get b hb), p.2)) (θ, x)
      (fun dy => (Params.put W hW (back dy).1.1 + Params.put b hb (back dy).1.2, (back dy).2)) := by
  have h1 := IsVJP_prod (IsVJP_comp (f := fun p : Params sh × E => p.1) (x := (θ, x))
    (IsVJP_prod (IsVJP_get W hW θ) (IsVJP_get b hb θ)) (IsVJP_fst _)) (IsVJP_snd (θ, x))
  refine IsVJP_congr₂ (IsVJP_comp (g := φ) h h1) (fun _ => rfl) fun dy => ?_
  ext1 <;> simp

/-- Linear computes `X Wᵀ + b` with exact gradients for the input, the weights and the bias, for every
number of rows and all widths. -/
theorem C56_linear {n nO nI : ℕ} (W b : Fin N) (hW : sh W = (nO, nI)) (hb : sh b = (1, nO)) (train : Bool)
    (θ : Params sh) (x : Fin n → Fin nI → ℝ) :
    Exact (linear W b) train (Kind.arr n nI) (Kind.arr n nO) (fun p => affine p.2 (p.1.get W hW) (p.1.vec b hb)) θ x := by
  refine Exact.intro (IsVJP_params2 W b hW hb (IsVJP_affine ((θ.get W hW, θ.get b hb), x))) ?_
  rintro P v hP ⟨X, rfl, hX⟩
  have hPW := hP.get W hW
  have hPb := hP.get b hb
  obtain ⟨Y, eY, hY⟩ := hX.gemm_nt hPW
  obtain ⟨Z, eZ, hZ⟩ := hY.npUpdate_row hPb (· + ·)
  apply ok_intro
  · simp only [linear, Val.asArr, bind, Except.bind, eY, addBias, eZ, pure, Except.pure]
    rfl
  · refine ⟨⟨Z, rfl, hZ⟩, ?_⟩
    rintro _ dy G g ⟨D, rfl, hD⟩ hG
    obtain ⟨G1, e1, hG1⟩ := hG.incGrad b hb hD.colSums
    obtain ⟨dW, eW, hdW⟩ := hD.gemm_tn hX
    obtain ⟨G2, e2, hG2⟩ := hG1.incGrad W hW hdW
    obtain ⟨dX, eX, hdX⟩ := hD.gemm_nn hPW
    refine ⟨.arr dX, G2, ?_, ⟨dX, rfl, hdX⟩, ?_⟩
    · simp only [e1, eW, e2, eX]
    · have : g + Params.put b hb (fun _ j => ∑ i, dy i j) + Params.put W hW (fun i j => ∑ l, dy l i * x l j)
          = g + (Params.put W hW (fun i j => ∑ l, dy l i * x l j) + Params.put b hb (fun _ j => ∑ i, dy i j)) := by
        abel
      rw [← this]
      exact hG2
end
end Thinc
