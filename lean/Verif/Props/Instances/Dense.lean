import Verif.Props.Instances.Layers
import Verif.Props.Activations
import Verif.Props.ClippedLinear
import Verif.Props.Dense
/-!
# Concrete cases that meet the hypotheses of the theorems about activations

Three rows of width 2, and a layer with the weights and bias of `Instances/Layers.lean`.
-/
namespace Thinc
open Spec

/-- The pre-activations of the layer for the three rows. -/
theorem insAffine (i : Fin 3) (j : Fin 2) :
    affine insRows (Params.get insParams 0 (n := 2) (m := 2) rfl) (Params.vec insParams 1 (m := 2) rfl) i j =
      ![![4, -3], ![3, 0], ![2, 3]] i j := by
  fin_cases i <;> fin_cases j <;> simp [affine, insRows, insParams, Params.get, Params.vec, Fin.sum_univ_two] <;> norm_num

/-- Activations at three numbers. -/
example := C43_sigmoid_partial true false ![(1 : ℝ), -3, 5] (by intro i; fin_cases i <;> norm_num)
example := C43_swish_partial ![(1 : ℝ), -3, 5] (by intro i; fin_cases i <;> norm_num)
example := C43_sigmoid_clipped_wrong true false ![(1 : ℝ), -30, 5] 1 (by norm_num)
example := C43_swish_clipped_wrong ![(1 : ℝ), -30, 5] 1 (by norm_num)
example := C43_relu ![(1 : ℝ), -3, 5] (relu_differentiable _ (by intro i; fin_cases i <;> norm_num))
example := C43_hard_swish ![(1 : ℝ), -2, 2] (C43_hard_swish_inside _ (by intro i; fin_cases i <;> norm_num)).1
example := C43_hard_swish_mobilenet ![(1 : ℝ), -2, 2] (C43_hard_swish_inside _ (by intro i; fin_cases i <;> norm_num)).2
example := C43_mish 20 ![(1 : ℝ), -3, 25] (mish_differentiable _ _ (by intro i; fin_cases i <;> norm_num))
example := (exists_erf.imp fun erf h => C43_gelu_partial erf h.2 ![(1 : ℝ), -3, 5])
example := C43_gelu_approx_partial ![(1 : ℝ), -3, 5] (by intro i; fin_cases i <;> norm_num [abs_le])
example := C44_values 2 1 0 4 (by norm_num) ![(1 : ℝ), -3, 5] 0
example := C44_gradient_partial 2 1 0 4 (by norm_num) ![(1 : ℝ), -3, 5] (clippedLinear_differentiable _ _ _ _ _ (by intro i; fin_cases i <;> norm_num))
example := C44_negative_slope_wrong (-2) 1 0 4 (by norm_num) ![(0 : ℝ), -3, 5] ![1, 1, 1] 0 (by norm_num) (by norm_num)

/-- The layers. -/
example := C72_sigmoid_partial (sh := insShapes) (nO := 2) (nI := 2) 0 1 rfl rfl true insParams insRows
  (by intro i j; rw [insAffine]; fin_cases i <;> fin_cases j <;> norm_num)
example := C72_swish_partial (sh := insShapes) (nO := 2) (nI := 2) 0 1 rfl rfl true insParams insRows
  (by intro i j; rw [insAffine]; fin_cases i <;> fin_cases j <;> norm_num)
example := C72_mish (sh := insShapes) (nO := 2) (nI := 2) 0 1 rfl rfl true insParams insRows
  (by intro i j; rw [insAffine]; fin_cases i <;> fin_cases j <;> norm_num)
example := (exists_erf.imp fun erf h => C72_gelu_partial (sh := insShapes) (nO := 2) (nI := 2) 0 1 rfl rfl true insParams insRows erf h.2)
/-- For one other row both pre-activations lie between the corners of hard swish. -/
theorem insAffine' (i : Fin 1) (j : Fin 2) :
    affine (fun (_ : Fin 1) => ![(1 : ℝ), -1]) (Params.get insParams 0 (n := 2) (m := 2) rfl) (Params.vec insParams 1 (m := 2) rfl) i j =
      ![2, 1] j := by
  fin_cases i <;> fin_cases j <;> simp [affine, insParams, Params.get, Params.vec, Fin.sum_univ_two] <;> norm_num
theorem ins_inside (j : Fin 2) : DifferentiableAt ℝ (fun y : ℝ => hardSwish (fun _ : Unit => y) ()) (![2, 1] j) ∧
    DifferentiableAt ℝ (fun y : ℝ => hardSwishMobilenet (fun _ : Unit => y) ()) (![2, 1] j) := by
  have h := C43_hard_swish_inside (fun _ : Unit => ![(2 : ℝ), 1] j) (by intro _; fin_cases j <;> norm_num)
  have h2 : DifferentiableAt ℝ (fun (y : ℝ) (_ : Unit) => y) (![2, 1] j) := by fun_prop
  exact ⟨differentiableAt_pi.1 (DifferentiableAt.comp (![2, 1] j) h.1 h2) (), differentiableAt_pi.1 (DifferentiableAt.comp (![2, 1] j) h.2 h2) ()⟩
example := C72_hard_swish (sh := insShapes) (nO := 2) (nI := 2) 0 1 rfl rfl true insParams (fun (_ : Fin 1) => ![(1 : ℝ), -1])
  (by intro i j; rw [insAffine']; exact (ins_inside j).1)
example := C72_hard_swish_mobilenet (sh := insShapes) (nO := 2) (nI := 2) 0 1 rfl rfl true insParams (fun (_ : Fin 1) => ![(1 : ℝ), -1])
  (by intro i j; rw [insAffine']; exact (ins_inside j).2)
example := C72_clipped_linear_partial (sh := insShapes) (nO := 2) (nI := 2) 0 1 rfl rfl true insParams insRows 2 1 0 4 (by norm_num)
  (by
    intro i j
    rw [insAffine]
    have h := clippedLinear_differentiable 2 1 0 4 (fun _ : Unit => ![![4, -3], ![3, 0], ![2, 3]] i j)
      (by intro _; fin_cases i <;> fin_cases j <;> norm_num)
    have h2 : DifferentiableAt ℝ (fun (y : ℝ) (_ : Unit) => y) (![![4, -3], ![3, 0], ![2, 3]] i j) := by fun_prop
    exact differentiableAt_pi.1 (DifferentiableAt.comp (![![4, -3], ![3, 0], ![2, 3]] i j) h h2) ())
example := C72_dish_partial (sh := insShapes) true (n := 3) (nI := 2) 0 1 rfl rfl insParams insRows insVals_ok insX_is
example := C72_dish_raises (sh := insShapes) (nO := 3) (nI := 2) 2 3 rfl rfl true insParams insRows (by norm_num) (by norm_num) (by norm_num)
  insVals_ok insX_is
example := C72_logistic_partial (sh := insShapes) true insParams insRows (by
  intro i j; fin_cases i <;> fin_cases j <;> norm_num [insRows])

end Thinc
