import Verif.Model.Dense
import Verif.Props.Linear
import Verif.Props.Activations
import Verif.Props.ClippedLinear
/-!
# C72: dense layers with an activation
-/
namespace Thinc
open Spec Spec.Tensor Real

theorem Spec.IsMat.lift {n m : ℕ} {A : Mat ℝ} {x : Fin n → Fin m → ℝ} (hA : IsMat A x) {act : (ℕ → ℝ) → ℕ → ℝ} {a : ℝ → ℝ}
    (h : ∀ v k, act v k = a (v k)) : IsMat (A.lift act) (fun i j => a (x i j)) :=
  ⟨hA.1, hA.2.1, fun i j => (h _ _).trans (congrArg a (hA.2.2 i j))⟩

theorem Spec.IsMat.lift₂ {n m : ℕ} {A B : Mat ℝ} {x y : Fin n → Fin m → ℝ} (hA : IsMat A x) (hB : IsMat B y)
    {f : (ℕ → ℝ) → (ℕ → ℝ) → ℕ → ℝ} {a : ℝ → ℝ → ℝ} (h : ∀ v w k, f v w k = a (v k) (w k)) :
    ∃ C, Mat.lift₂ f A B = .ok C ∧ IsMat C (fun i j => a (x i j) (y i j)) := by
  have hr : A.rows = B.rows := hA.1.trans hB.1.symm
  have hc : A.cols = B.cols := hA.2.1.trans hB.2.1.symm
  refine ⟨_, if_pos ⟨hr, hc⟩, hA.1, hA.2.1, fun i j => ?_⟩
  refine (h _ _ _).trans (congrArg₂ a (hA.2.2 i j) ?_)
  rw [← hB.2.2 i j]
  simp only [Mat.at, hc]

theorem IsVJP_entries {n m : ℕ} {a : ℝ → ℝ} {x d : Fin n → Fin m → ℝ} (h : ∀ i j, HasDerivAt a (d i j) (x i j)) :
    IsVJP (fun (x : Fin n → Fin m → ℝ) i j => a (x i j)) x (fun dy i j => dy i j * d i j) :=
  IsVJP_pi (f := fun _ (r : Fin m → ℝ) j => a (r j)) (b := fun i dy j => dy j * d i j) fun i =>
    IsVJP_pi (f := fun _ => a) (b := fun j dy => dy * d i j) fun j => IsVJP_of_hasDerivAt (h i j)

section
variable {N : ℕ} {sh : Fin N → ℕ × ℕ} {n nO nI : ℕ}

theorem dense_exact (W b : Fin N) (hW : sh W = (nO, nI)) (hb : sh b = (1, nO)) (train : Bool) (θ : Params sh)
    (x : Fin n → Fin nI → ℝ) {bFirst : Bool} {act : (ℕ → ℝ) → ℕ → ℝ} {a : ℝ → ℝ} (hact : ∀ v k, act v k = a (v k))
    {back : Mat ℝ → Mat ℝ → Mat ℝ → Mat ℝ → Except PyErr (Mat ℝ)} {d : Fin n → Fin nO → ℝ}
    (hd : ∀ i j, HasDerivAt a (d i j) (affine x (θ.get W hW) (θ.vec b hb) i j))
    (hback : ∀ X Z Y D (dy : Fin n → Fin nO → ℝ), IsMat X x → IsMat Z (affine x (θ.get W hW) (θ.vec b hb)) →
      IsMat Y (fun i j => a (affine x (θ.get W hW) (θ.vec b hb) i j)) → IsMat D dy →
      ∃ E, back X Z Y D = .ok E ∧ IsMat E (fun i j => dy i j * d i j)) :
    Exact (dense W b bFirst act back) train (Kind.arr n nI) (Kind.arr n nO)
      (fun p i j => a (affine p.2 (p.1.get W hW) (p.1.vec b hb) i j)) θ x := by
  have h0 : IsVJP (fun p : Params sh × (Fin n → Fin nI → ℝ) => affine p.2 (p.1.get W hW) (p.1.vec b hb)) (θ, x) _ :=
    IsVJP_params2 W b hW hb (IsVJP_affine ((θ.get W hW, θ.get b hb), x))
  have h1 : IsVJP (fun (y : Fin n → Fin nO → ℝ) i j => a (y i j)) (affine x (θ.get W hW) (θ.vec b hb)) _ := IsVJP_entries hd
  have hv := IsVJP_comp (f := fun p : Params sh × (Fin n → Fin nI → ℝ) => affine p.2 (p.1.get W hW) (p.1.vec b hb)) h1 h0
  refine Exact.intro hv ?_
  rintro P v hP ⟨X, rfl, hX⟩
  have hPW := hP.get W hW
  have hPb := hP.get b hb
  obtain ⟨Y, eY, hY⟩ := hX.gemm_nt hPW
  obtain ⟨Z, eZ, hZ⟩ := hY.npUpdate_row hPb (· + ·)
  have hZ' : IsMat Z (affine x (θ.get W hW) (θ.vec b hb)) := hZ
  apply ok_intro
  · simp only [dense, opsAffine, Val.asArr, bind, Except.bind, eY, addBias, eZ, pure, Except.pure]
    rfl
  · refine ⟨⟨_, rfl, hZ'.lift hact⟩, ?_⟩
    rintro _ dy G g ⟨D, rfl, hD⟩ hG
    obtain ⟨E, eE, hE⟩ := hback X Z _ D dy hX hZ' (hZ'.lift hact) hD
    obtain ⟨dW, eW, hdW⟩ := hE.gemm_tn hX
    obtain ⟨dX, eX, hdX⟩ := hE.gemm_nn hPW
    cases bFirst with
    | true =>
      obtain ⟨G1, e1, hG1⟩ := hG.incGrad b hb hE.colSums
      obtain ⟨G2, e2, hG2⟩ := hG1.incGrad W hW hdW
      refine ⟨.arr dX, G2, ?_, ⟨dX, rfl, hdX⟩, ?_⟩
      · simp only [denseBackprop, eE, if_true, bind, Except.bind, e1, eW, e2, eX, pure, Except.pure]
      · rw [add_assoc, add_comm (Params.put b hb _)] at hG2
        exact hG2
    | false =>
      obtain ⟨G1, e1, hG1⟩ := hG.incGrad W hW hdW
      obtain ⟨G2, e2, hG2⟩ := hG1.incGrad b hb hE.colSums
      refine ⟨.arr dX, G2, ?_, ⟨dX, rfl, hdX⟩, ?_⟩
      · simp only [denseBackprop, eE, if_false, Bool.false_eq_true, bind, Except.bind, e1, eW, e2, eX, pure, Except.pure]
      · rw [add_assoc] at hG2
        exact hG2

/-- The activation at one number, as computed by an elementwise operation. -/
theorem entry_hasDerivAt {act : (Unit → ℝ) → Unit → ℝ} {a : ℝ → ℝ} {back : (Unit → ℝ) → Unit → ℝ} {z : ℝ}
    (ha : ∀ v k, act v k = a (v k)) (h : IsVJP act (fun _ => z) back) : HasDerivAt a (back (fun _ => 1) ()) z := by
  have e : act = fun (X : Unit → ℝ) i => a (X i) := by
    funext v k
    exact ha v k
  rw [e] at h
  have := entry_of_IsVJP h ()
  simpa using this

variable (W b : Fin N) (hW : sh W = (nO, nI)) (hb : sh b = (1, nO)) (train : Bool) (θ : Params sh) (x : Fin n → Fin nI → ℝ)

/-- Relu computes `max(X Wᵀ + b, 0)` with exact gradients wherever no pre-activation is zero. -/
theorem C72_relu (h : ∀ i j, affine x (θ.get W hW) (θ.vec b hb) i j ≠ 0) :
    Exact (reluLayer W b) train (Kind.arr n nI) (Kind.arr n nO)
      (fun p i j => max (affine p.2 (p.1.get W hW) (p.1.vec b hb) i j) 0) θ x := by
  have hact : ∀ (v : ℕ → ℝ) k, cpuRelu v k = max (v k) 0 := fun v k => by
    simp only [cpuRelu]
    split
    · rw [max_eq_right (by assumption)]
    · rw [max_eq_left (by linarith)]
  refine dense_exact W b hW hb train θ x (a := fun y => max y 0) hact
    (d := fun i j => if affine x (θ.get W hW) (θ.vec b hb) i j ≤ 0 then 0 else 1) ?_ ?_
  · intro i j
    rcases lt_or_gt_of_ne (h i j) with h1 | h1
    · rw [if_pos h1.le]
      refine (hasDerivAt_const _ (0 : ℝ)).congr_of_eventuallyEq ?_
      filter_upwards [Iio_mem_nhds h1] with y hy
      exact max_eq_right (le_of_lt hy)
    · rw [if_neg (not_le.2 h1)]
      refine (hasDerivAt_id _).congr_of_eventuallyEq ?_
      filter_upwards [Ioi_mem_nhds h1] with y hy
      exact max_eq_left (le_of_lt hy)
  · intro X Z Y D dy _ _ hY hD
    obtain ⟨E, eE, hE⟩ := hD.lift₂ hY (f := cpuBackpropRelu) (a := fun d y => if y ≤ 0 then 0 else d) fun _ _ _ => rfl
    refine ⟨E, eE, hE.congr fun i j => ?_⟩
    simp only [max_le_iff, le_refl, and_true]
    split <;> simp

/-- Sigmoid computes `1 / (1 + exp(-(X Wᵀ + b)))` with exact gradients while the pre-activations are
between -20 and 20 (beyond, the activation is clipped and its gradient is wrong: `C43_sigmoid_clipped_wrong`). -/
theorem C72_sigmoid_partial (h : ∀ i j, -20 < affine x (θ.get W hW) (θ.vec b hb) i j ∧ affine x (θ.get W hW) (θ.vec b hb) i j < 20) :
    Exact (sigmoidLayer W b) train (Kind.arr n nI) (Kind.arr n nO)
      (fun p i j => opsSigmoid false (fun _ : Unit => affine p.2 (p.1.get W hW) (p.1.vec b hb) i j) ()) θ x ∧
    ∀ i j, opsSigmoid false (fun _ : Unit => affine x (θ.get W hW) (θ.vec b hb) i j) () =
      1 / (1 + exp (-(affine x (θ.get W hW) (θ.vec b hb) i j))) := by
  refine ⟨?_, fun i j => (C43_sigmoid_partial (ι := Unit) false false (fun _ => affine x (θ.get W hW) (θ.vec b hb) i j) fun _ => h i j).2 ()⟩
  refine dense_exact W b hW hb train θ x (a := fun y => opsSigmoid false (fun _ : Unit => y) ()) (fun v k => rfl)
    (d := fun i j => opsDsigmoid false (fun _ : Unit => opsSigmoid false (fun _ : Unit => affine x (θ.get W hW) (θ.vec b hb) i j) ()) ()) ?_ ?_
  · intro i j
    have := entry_hasDerivAt (a := fun y => opsSigmoid false (fun _ : Unit => y) ()) (fun v k => rfl)
      (C43_sigmoid_partial (ι := Unit) false false (fun _ => affine x (θ.get W hW) (θ.vec b hb) i j) fun _ => h i j).1
    simpa [opsBackpropSigmoid] using this
  · intro X Z Y D dy _ _ hY hD
    have h1 := hY.lift (act := opsDsigmoid false) (a := fun y => opsDsigmoid false (fun _ : Unit => y) ()) fun _ _ => rfl
    exact hD.npBinary h1 (· * ·)

/-- Swish, with the same restriction. -/
theorem C72_swish_partial (h : ∀ i j, -20 < affine x (θ.get W hW) (θ.vec b hb) i j ∧ affine x (θ.get W hW) (θ.vec b hb) i j < 20) :
    Exact (swishLayer W b) train (Kind.arr n nI) (Kind.arr n nO)
      (fun p i j => swish (fun _ : Unit => affine p.2 (p.1.get W hW) (p.1.vec b hb) i j) ()) θ x ∧
    ∀ i j, swish (fun _ : Unit => affine x (θ.get W hW) (θ.vec b hb) i j) () =
      affine x (θ.get W hW) (θ.vec b hb) i j / (1 + exp (-(affine x (θ.get W hW) (θ.vec b hb) i j))) := by
  refine ⟨?_, fun i j => (C43_swish_partial (ι := Unit) (fun _ => affine x (θ.get W hW) (θ.vec b hb) i j) fun _ => h i j).2 ()⟩
  refine dense_exact W b hW hb train θ x (a := fun y => swish (fun _ : Unit => y) ()) (fun v k => rfl)
    (d := fun i j => backpropSwish (fun _ : Unit => 1) (fun _ : Unit => affine x (θ.get W hW) (θ.vec b hb) i j)
      (fun _ : Unit => swish (fun _ : Unit => affine x (θ.get W hW) (θ.vec b hb) i j) ()) ()) ?_ ?_
  · intro i j
    exact entry_hasDerivAt (a := fun y => swish (fun _ : Unit => y) ()) (fun v k => rfl)
      (C43_swish_partial (ι := Unit) (fun _ => affine x (θ.get W hW) (θ.vec b hb) i j) fun _ => h i j).1
  · intro X Z Y D dy _ hZ hY hD
    obtain ⟨S, eS, hS⟩ := hZ.lift₂ hY (f := fun X Y => backpropSwish (fun _ => 1) X Y)
      (a := fun z y => backpropSwish (fun _ : Unit => 1) (fun _ => z) (fun _ => y) ()) fun _ _ _ => rfl
    simp only [bind, Except.bind, eS]
    exact hD.npBinary hS (· * ·)

/-- Gelu, for an error function with the derivative of the error function (see `C43_gelu_partial`). -/
theorem C72_gelu_partial (erf : ℝ → ℝ) (herf : ∀ x, HasDerivAt erf (2 / √π * exp (-x ^ 2)) x) :
    Exact (geluLayer erf W b) train (Kind.arr n nI) (Kind.arr n nO)
      (fun p i j => gelu erf (fun _ : Unit => affine p.2 (p.1.get W hW) (p.1.vec b hb) i j) ()) θ x := by
  refine dense_exact W b hW hb train θ x (a := fun y => gelu erf (fun _ : Unit => y) ()) (fun v k => rfl)
    (d := fun i j => backpropGelu erf (fun _ : Unit => 1) (fun _ : Unit => affine x (θ.get W hW) (θ.vec b hb) i j) ()) ?_ ?_
  · intro i j
    exact entry_hasDerivAt (a := fun y => gelu erf (fun _ : Unit => y) ()) (fun v k => rfl)
      (C43_gelu_partial (ι := Unit) erf herf (fun _ => affine x (θ.get W hW) (θ.vec b hb) i j))
  · intro X Z Y D dy _ hZ _ hD
    have h1 := hZ.lift (act := backpropGelu erf fun _ => 1) (a := fun y => backpropGelu erf (fun _ : Unit => 1) (fun _ => y) ()) fun _ _ => rfl
    exact hD.npBinary h1 (· * ·)

/-- Mish, wherever it is differentiable (it jumps at the threshold 20). -/
theorem C72_mish (h : ∀ i j, affine x (θ.get W hW) (θ.vec b hb) i j ≠ 20) :
    Exact (mishLayer W b) train (Kind.arr n nI) (Kind.arr n nO)
      (fun p i j => cpuMish 20 (fun _ : Unit => affine p.2 (p.1.get W hW) (p.1.vec b hb) i j) ()) θ x ∧
    ∀ i j, affine x (θ.get W hW) (θ.vec b hb) i j < 20 →
      cpuMish 20 (fun _ : Unit => affine x (θ.get W hW) (θ.vec b hb) i j) () =
        affine x (θ.get W hW) (θ.vec b hb) i j * tanh (log (1 + exp (affine x (θ.get W hW) (θ.vec b hb) i j))) := by
  refine ⟨?_, fun i j hlt => by simp only [cpuMish]; rw [if_pos hlt]⟩
  have hdiff : ∀ z : ℝ, z ≠ 20 → DifferentiableAt ℝ (fun y : ℝ => cpuMish 20 (fun _ : Unit => y) ()) z := by
    intro z hz
    rcases lt_or_gt_of_ne hz with h1 | h1
    · have : DifferentiableAt ℝ (fun y : ℝ => y * tanh (log (1 + exp y))) z := by
        have hp : (1 + exp z) ≠ 0 := by positivity
        exact differentiableAt_id.mul
          (((hasDerivAt_tanh _).differentiableAt).comp z
            (((differentiableAt_const _).add (differentiableAt_id.exp)).log hp))
      refine this.congr_of_eventuallyEq ?_
      filter_upwards [Iio_mem_nhds h1] with y hy
      simp only [cpuMish]
      rw [if_pos (show y < 20 from hy)]
    · refine (differentiableAt_id (𝕜 := ℝ) (x := z)).congr_of_eventuallyEq ?_
      filter_upwards [Ioi_mem_nhds h1] with y hy
      simp only [cpuMish]
      rw [if_neg (not_lt.2 (le_of_lt hy))]
      rfl
  refine dense_exact W b hW hb train θ x (a := fun y => cpuMish 20 (fun _ : Unit => y) ()) (fun v k => rfl)
    (d := fun i j => cpuBackpropMish 20 (fun _ : Unit => 1) (fun _ : Unit => affine x (θ.get W hW) (θ.vec b hb) i j) ()) ?_ ?_
  · intro i j
    have e : (opsMish 20 : (Unit → ℝ) → Unit → ℝ) = cpuMish 20 := by
      funext v k
      simp only [opsMish, cpuMish]
      split <;> split <;> first | rfl | (exfalso; linarith)
    have h0 : DifferentiableAt ℝ (opsMish 20 : (Unit → ℝ) → Unit → ℝ) (fun _ => affine x (θ.get W hW) (θ.vec b hb) i j) := by
      rw [e]
      exact differentiable_of_entries (g := fun y => cpuMish 20 (fun _ : Unit => y) ()) fun _ => hdiff _ (h i j)
    exact entry_hasDerivAt (a := fun y => cpuMish 20 (fun _ : Unit => y) ()) (fun v k => rfl)
      (C43_mish (ι := Unit) 20 (fun _ => affine x (θ.get W hW) (θ.vec b hb) i j) h0).2.2.2
  · intro X Z Y D dy _ hZ _ hD
    obtain ⟨E, eE, hE⟩ := hD.lift₂ hZ (f := cpuBackpropMish 20)
      (a := fun d z => cpuBackpropMish 20 (fun _ : Unit => d) (fun _ => z) ()) fun _ _ _ => rfl
    refine ⟨E, eE, hE.congr fun i j => ?_⟩
    simp only [cpuBackpropMish]
    split
    · ring
    · ring

/-- HardSwish, wherever it is differentiable. -/
theorem C72_hard_swish (h : ∀ i j, DifferentiableAt ℝ (fun y : ℝ => hardSwish (fun _ : Unit => y) ())
      (affine x (θ.get W hW) (θ.vec b hb) i j)) :
    Exact (hardSwishLayer W b) train (Kind.arr n nI) (Kind.arr n nO)
      (fun p i j => hardSwish (fun _ : Unit => affine p.2 (p.1.get W hW) (p.1.vec b hb) i j) ()) θ x := by
  refine dense_exact W b hW hb train θ x (a := fun y => hardSwish (fun _ : Unit => y) ()) (fun v k => rfl)
    (d := fun i j => backpropHardSwish (fun _ : Unit => 1) (fun _ : Unit => affine x (θ.get W hW) (θ.vec b hb) i j) ()) ?_ ?_
  · intro i j
    exact entry_hasDerivAt (a := fun y => hardSwish (fun _ : Unit => y) ()) (fun v k => rfl)
      (C43_hard_swish (ι := Unit) (fun _ => affine x (θ.get W hW) (θ.vec b hb) i j)
        (differentiable_of_entries (g := fun y => hardSwish (fun _ : Unit => y) ()) fun _ => h i j)).1
  · intro X Z Y D dy _ hZ _ hD
    have h1 := hZ.lift (act := backpropHardSwish fun _ => 1) (a := fun y => backpropHardSwish (fun _ : Unit => 1) (fun _ => y) ()) fun _ _ => rfl
    exact hD.npBinary h1 (· * ·)

/-- HardSwishMobilenet, wherever it is differentiable. -/
theorem C72_hard_swish_mobilenet (h : ∀ i j, DifferentiableAt ℝ (fun y : ℝ => hardSwishMobilenet (fun _ : Unit => y) ())
      (affine x (θ.get W hW) (θ.vec b hb) i j)) :
    Exact (hardSwishMobilenetLayer W b) train (Kind.arr n nI) (Kind.arr n nO)
      (fun p i j => hardSwishMobilenet (fun _ : Unit => affine p.2 (p.1.get W hW) (p.1.vec b hb) i j) ()) θ x := by
  refine dense_exact W b hW hb train θ x (a := fun y => hardSwishMobilenet (fun _ : Unit => y) ()) (fun v k => rfl)
    (d := fun i j => backpropHardSwishMobilenet (fun _ : Unit => 1) (fun _ : Unit => affine x (θ.get W hW) (θ.vec b hb) i j) ()) ?_ ?_
  · intro i j
    exact entry_hasDerivAt (a := fun y => hardSwishMobilenet (fun _ : Unit => y) ()) (fun v k => rfl)
      (C43_hard_swish_mobilenet (ι := Unit) (fun _ => affine x (θ.get W hW) (θ.vec b hb) i j)
        (differentiable_of_entries (g := fun y => hardSwishMobilenet (fun _ : Unit => y) ()) fun _ => h i j)).1
  · intro X Z Y D dy _ hZ _ hD
    have h1 := hZ.lift (act := backpropHardSwishMobilenet fun _ => 1)
      (a := fun y => backpropHardSwishMobilenet (fun _ : Unit => 1) (fun _ => y) ()) fun _ _ => rfl
    obtain ⟨E, eE, hE⟩ := h1.npBinary hD (· * ·)
    exact ⟨E, eE, hE.congr fun i j => mul_comm _ _⟩

/-- ClippedLinear (and so ReluK, HardSigmoid and HardTanh) with a positive slope, wherever it is
differentiable. -/
theorem C72_clipped_linear_partial (slope offset lo hi : ℝ) (hs : 0 < slope)
    (h : ∀ i j, DifferentiableAt ℝ (fun y : ℝ => npClip (y * slope + offset) lo hi) (affine x (θ.get W hW) (θ.vec b hb) i j)) :
    Exact (clippedLinearLayer slope offset lo hi W b) train (Kind.arr n nI) (Kind.arr n nO)
      (fun p i j => npClip (affine p.2 (p.1.get W hW) (p.1.vec b hb) i j * slope + offset) lo hi) θ x := by
  refine dense_exact W b hW hb train θ x (a := fun y => npClip (y * slope + offset) lo hi) (fun v k => rfl)
    (d := fun i j => if (lo - offset) / slope < affine x (θ.get W hW) (θ.vec b hb) i j ∧
      affine x (θ.get W hW) (θ.vec b hb) i j < (hi - offset) / slope then slope else 0) ?_ ?_
  · intro i j
    obtain ⟨back, h1, h2⟩ := C44_gradient_partial (ι := Unit) slope offset lo hi hs (fun _ => affine x (θ.get W hW) (θ.vec b hb) i j)
      (differentiable_of_entries (g := fun y => npClip (y * slope + offset) lo hi) fun _ => h i j)
    have h3 := entry_hasDerivAt (a := fun y => npClip (y * slope + offset) lo hi) (fun v k => rfl) h2
    have h4 := h1 fun _ => 1
    unfold backpropClippedLinear at h4
    rw [if_neg hs.ne'] at h4
    injection h4 with h4
    rw [← h4] at h3
    simpa using h3
  · intro X Z Y D dy _ hZ _ hD
    have e1 : backpropClippedLinear slope offset lo hi (fun _ => 1) Z.val = .ok fun k => (1 : ℝ) *
      (if (lo - offset) / slope < Z.val k ∧ Z.val k < (hi - offset) / slope then slope else 0) := by
      unfold backpropClippedLinear
      rw [if_neg hs.ne']
    simp only [bind, Except.bind, e1]
    have h1 := hZ.lift (act := fun v k => (1 : ℝ) * (if (lo - offset) / slope < v k ∧ v k < (hi - offset) / slope then slope else 0))
      (a := fun y => (1 : ℝ) * (if (lo - offset) / slope < y ∧ y < (hi - offset) / slope then slope else 0)) fun _ _ => rfl
    obtain ⟨E, eE, hE⟩ := hD.npBinary h1 (· * ·)
    exact ⟨E, eE, hE.congr fun i j => by rw [one_mul]⟩

/-- Dish computes the right value, but its callback evaluates the derivative of the activation at the
input instead of the pre-activations. -/
theorem C72_dish_partial {n nI : ℕ} (W b : Fin N) (hW : sh W = (nI, nI)) (hb : sh b = (1, nI)) (θ : Params sh) (x : Fin n → Fin nI → ℝ)
    {P : ParamVals} {X : Mat ℝ} (hP : IsParams P θ) (hX : IsMat X x) :
    ∃ Y callback, dishLayer W b train P (.arr X) = .ok (.arr Y, callback) ∧
      IsMat Y (fun i j => dish (fun _ : Unit => affine x (θ.get W hW) (θ.vec b hb) i j) ()) ∧
      ∀ D (dy : Fin n → Fin nI → ℝ) G (g : Params sh), IsMat D dy → IsGrads G g → ∃ dX G', callback (.arr D) G = .ok (.arr dX, G') ∧
        IsMat dX (fun i k => ∑ o, dy i o * backpropDish (fun _ : Unit => 1) (fun _ => x i o) () * θ.get W hW o k) := by
  have hPW := hP.get W hW
  have hPb := hP.get b hb
  obtain ⟨Y, eY, hY⟩ := hX.gemm_nt hPW
  obtain ⟨Z, eZ, hZ⟩ := hY.npUpdate_row hPb (· + ·)
  have hZ' : IsMat Z (affine x (θ.get W hW) (θ.vec b hb)) := hZ
  refine ⟨Z.lift dish, fun dY G => (do
    let dY ← dY.asArr
    let dY ← npBinary (· * ·) dY (X.lift (backpropDish fun _ => 1))
    denseBackprop W b true P X dY G), ?_, hZ'.lift (a := fun y => dish (fun _ : Unit => y) ()) fun _ _ => rfl, ?_⟩
  · simp only [dishLayer, dense, opsAffine, Val.asArr, bind, Except.bind, eY, addBias, eZ, pure, Except.pure]
  · intro D dy G g hD hG
    have h1 := hX.lift (act := backpropDish fun _ => 1) (a := fun y => backpropDish (fun _ : Unit => 1) (fun _ => y) ()) fun _ _ => rfl
    obtain ⟨E, eE, hE⟩ := hD.npBinary h1 (· * ·)
    obtain ⟨dW, eW, hdW⟩ := hE.gemm_tn hX
    obtain ⟨dX, eX, hdX⟩ := hE.gemm_nn hPW
    obtain ⟨G1, e1, hG1⟩ := hG.incGrad b hb hE.colSums
    obtain ⟨G2, e2, hG2⟩ := hG1.incGrad W hW hdW
    refine ⟨dX, G2, ?_, hdX⟩
    simp only [Val.asArr, denseBackprop, eE, if_true, bind, Except.bind, e1, eW, e2, eX, pure, Except.pure]

include hW hb in
/-- If the widths of input and output differ (and neither is 1), the callback of Dish always raises
ValueError. -/
theorem C72_dish_raises (hx : nI ≠ nO) (h1 : nI ≠ 1) (h2 : nO ≠ 1) {P : ParamVals} {X : Mat ℝ} (hP : IsParams P θ) (hX : IsMat X x) :
    ∃ Y callback, dishLayer W b train P (.arr X) = .ok (.arr Y, callback) ∧
      ∀ D (dy : Fin n → Fin nO → ℝ) G, IsMat D dy → callback (.arr D) G = .error .valueError := by
  have hPW := hP.get W hW
  have hPb := hP.get b hb
  obtain ⟨Y, eY, hY⟩ := hX.gemm_nt hPW
  obtain ⟨Z, eZ, hZ⟩ := hY.npUpdate_row hPb (· + ·)
  refine ⟨Z.lift dish, fun dY G => (do
    let dY ← dY.asArr
    let dY ← npBinary (· * ·) dY (X.lift (backpropDish fun _ => 1))
    denseBackprop W b true P X dY G), ?_, ?_⟩
  · simp only [dishLayer, dense, opsAffine, Val.asArr, bind, Except.bind, eY, addBias, eZ, pure, Except.pure]
  · intro D dy G hD
    have e : npBinary (· * ·) D (X.lift (backpropDish fun _ => 1)) = .error .valueError := by
      simp only [npBinary, broadcastDim, Mat.lift, hD.1, hX.1, hD.2.1, hX.2.1, if_true, bind, Except.bind]
      rw [if_neg (Ne.symm hx), if_neg h2, if_neg h1]
    simp only [Val.asArr, bind, Except.bind, e]

/-- The logistic layer (and sigmoid_activation), with the restriction of Sigmoid. -/
theorem C72_logistic_partial (x : Fin n → Fin nI → ℝ) (h : ∀ i j, -20 < x i j ∧ x i j < 20) :
    Exact logisticLayer train (Kind.arr n nI) (Kind.arr n nI) (fun p i j => opsSigmoid false (fun _ : Unit => p.2 i j) ()) θ x ∧
    ∀ i j, opsSigmoid false (fun _ : Unit => x i j) () = 1 / (1 + exp (-(x i j))) := by
  refine ⟨?_, fun i j => (C43_sigmoid_partial (ι := Unit) false false (fun _ => x i j) fun _ => h i j).2 ()⟩
  have h1 := IsVJP_entries (a := fun y => opsSigmoid false (fun _ : Unit => y) ()) (x := x)
    (d := fun i j => opsDsigmoid false (fun _ : Unit => opsSigmoid false (fun _ : Unit => x i j) ()) ()) fun i j => by
      have := entry_hasDerivAt (a := fun y => opsSigmoid false (fun _ : Unit => y) ()) (fun v k => rfl)
        (C43_sigmoid_partial (ι := Unit) false false (fun _ => x i j) fun _ => h i j).1
      simpa [opsBackpropSigmoid] using this
  have h0 := IsVJP_comp (f := fun p : Params sh × (Fin n → Fin nI → ℝ) => p.2) (x := (θ, x)) h1 (IsVJP_snd _)
  refine Exact.intro h0 ?_
  rintro P v hP ⟨X, rfl, hX⟩
  have hY := hX.lift (act := opsSigmoid false) (a := fun y => opsSigmoid false (fun _ : Unit => y) ()) fun _ _ => rfl
  apply ok_intro
  · simp only [logisticLayer, entrywise, Val.asArr, bind, Except.bind, pure, Except.pure]
    rfl
  · refine ⟨⟨_, rfl, hY⟩, ?_⟩
    rintro _ dy G g ⟨D, rfl, hD⟩ hG
    have h2 := hY.lift (act := opsDsigmoid false) (a := fun y => opsDsigmoid false (fun _ : Unit => y) ()) fun _ _ => rfl
    obtain ⟨E, eE, hE⟩ := hD.npBinary h2 (· * ·)
    refine ⟨.arr E, G, ?_, ⟨E, rfl, hE⟩, by simpa using hG⟩
    simp only [eE]

end

/-! ### Concrete cases -/

/-- One weight `W = 2` and a bias `b = 1`. -/
def exShape : Fin 2 → ℕ × ℕ := fun _ => (1, 1)
def exParams : Params exShape := fun p _ _ => if p = 0 then 2 else 1

theorem exAffine (i j : Fin 1) : affine (fun (_ : Fin 1) (_ : Fin 1) => (3 : ℝ)) (exParams.get 0 rfl) (exParams.vec 1 rfl) i j = 7 := by
  simp only [affine, Params.get, Params.vec, exParams, Finset.univ_unique, Finset.sum_singleton]
  norm_num

/-- Relu and the others at the input 3: the pre-activation is 7. -/
example : Exact (reluLayer 0 1) true (Kind.arr 1 1) (Kind.arr 1 1)
    (fun p i j => max (affine p.2 (p.1.get (sh := exShape) 0 rfl) (p.1.vec 1 rfl) i j) 0) exParams (fun _ _ => 3) :=
  C72_relu 0 1 rfl rfl true exParams _ fun i j => by rw [exAffine]; norm_num

example : ∀ i j : Fin 1, -20 < affine (fun (_ : Fin 1) (_ : Fin 1) => (3 : ℝ)) (exParams.get 0 rfl) (exParams.vec 1 rfl) i j ∧
    affine (fun (_ : Fin 1) (_ : Fin 1) => (3 : ℝ)) (exParams.get 0 rfl) (exParams.vec 1 rfl) i j < 20 := fun i j => by
  rw [exAffine]; norm_num

/-- With these parameters the gradient of Dish at 0 is wrong: the pre-activation is 1, the derivative of
the activation there is not that at 0. -/
example : backpropDish (fun _ : Unit => 1) (fun _ => 0) () = 1 / 2 ∧ backpropDish (fun _ : Unit => 1) (fun _ => 1) () > 1 / 2 := by
  constructor
  · simp [backpropDish]; norm_num
  · simp only [backpropDish]
    have h1 : (1 : ℝ) ^ 2 + 1 = 2 := by norm_num
    have h2 : (2 : ℝ) ^ (1.5 : ℝ) = 2 * √2 := by
      rw [show (1.5 : ℝ) = 1 + 1 / 2 by norm_num, Real.rpow_add (by norm_num), Real.rpow_one, Real.sqrt_eq_rpow]
    rw [h1, h2]
    have h3 : 0 < √2 := by positivity
    have h4 : (0.5 : ℝ) * 1 * 1 ^ 2 / (2 * √2) = 1 / 4 * (1 / √2) := by field_simp; norm_num
    rw [h4]
    have h5 : 0 < 1 / √2 := by positivity
    linarith

end Thinc
