import Verif.Lemmas.Activations
import Mathlib.Analysis.Real.Pi.Bounds
import Mathlib.Analysis.Complex.ExponentialBounds
import Mathlib.MeasureTheory.Integral.IntervalIntegral.FundThmCalculus
/-!
# C43 Gradients of the activation functions

Arrays have any finite index set `ι`, so any shape.  "Differentiable" is differentiability of the
function the code computes.
-/
namespace Thinc
open Real Spec Filter Topology
variable {ι : Type} [Fintype ι]

/-! ## Sigmoid and swish -/

/-- **C43** (`sigmoid`): where no input is beyond the clipping bounds ±20, `backprop_sigmoid` is the
gradient, with and without `inplace`.  Missing: inputs beyond ±20 (`C43_sigmoid_clipped_wrong`). -/
theorem C43_sigmoid_partial (ip iq : Bool) (X : ι → ℝ) (hX : ∀ i, -20 < X i ∧ X i < 20) :
    IsVJP (opsSigmoid ip) X (fun dY => opsBackpropSigmoid iq dY (opsSigmoid ip X)) ∧
    ∀ i, opsSigmoid ip X i = 1 / (1 + exp (-(X i))) := by
  have e : (opsSigmoid ip : (ι → ℝ) → ι → ℝ) = fun X i => clipSig (X i) := funext (opsSigmoid_eq ip)
  refine ⟨?_, fun i => ?_⟩
  · rw [e]
    refine IsVJP_congr₂ (IsVJP_elementwise (d := fun x => clipSig x * (1 - clipSig x))
      fun i => hasDerivAt_clipSig (hX i).1 (hX i).2) (fun _ => rfl) ?_
    intro dY
    funext i
    cases iq <;> simp [opsBackpropSigmoid, opsDsigmoid] <;> ring
  · rw [e]
    exact clipSig_mid (hX i).1.le (hX i).2.le

example : ∀ i : Fin 3, -20 < (fun i : Fin 3 => (i.val : ℝ)) i ∧ (fun i : Fin 3 => (i.val : ℝ)) i < 20 := by
  intro i
  have h : (i.val : ℝ) < 3 := by exact_mod_cast i.isLt
  have h2 : (0 : ℝ) ≤ i.val := by positivity
  exact ⟨by show (-20:ℝ) < i.val; linarith, by show (i.val:ℝ) < 20; linarith⟩

/-- **C43** (found by the model): an input beyond ±20 is clipped, so `sigmoid` is constant there, but
`backprop_sigmoid` still answers `Y * (1 - Y)`: it is not the gradient of what `sigmoid` computes. -/
theorem C43_sigmoid_clipped_wrong [DecidableEq ι] (ip iq : Bool) (X : ι → ℝ) (i : ι) (h : X i < -20 ∨ 20 < X i) :
    ¬ IsVJP (opsSigmoid ip) X (fun dY => opsBackpropSigmoid iq dY (opsSigmoid ip X)) ∧
    HasDerivAt (fun x => opsSigmoid ip (fun _ : Unit => x) ()) 0 (X i) := by
  have e : (opsSigmoid ip : (ι → ℝ) → ι → ℝ) = fun X i => clipSig (X i) := funext (opsSigmoid_eq ip)
  refine ⟨fun hv => ?_, ?_⟩
  · rw [e] at hv
    have h1 := entry_of_IsVJP hv i
    have h2 := h1.unique (hasDerivAt_clipSig_out h)
    have h3 : 0 < clipSig (X i) := sig_pos _
    have h4 : clipSig (X i) < 1 := sig_lt_one _
    have h5 : clipSig (X i) * (1 - clipSig (X i)) = 0 := by
      rw [← h2]
      cases iq <;> simp [opsBackpropSigmoid, opsDsigmoid]
    rcases mul_eq_zero.1 h5 with h6 | h6 <;> linarith
  · simp only [opsSigmoid_eq]
    exact hasDerivAt_clipSig_out h

theorem hasDerivAt_swish {x : ℝ} (h1 : -20 < x) (h2 : x < 20) :
    HasDerivAt (fun x => x * clipSig x) (x * clipSig x + clipSig x * (1 - x * clipSig x)) x := by
  refine HasDerivAt.congr_deriv ((hasDerivAt_id x).mul (hasDerivAt_clipSig h1 h2)) ?_
  simp only [id]
  ring

/-- **C43** (`swish`): where no input is beyond ±20, `backprop_swish(dY, X, swish(X))` is the gradient.
Missing: inputs beyond ±20 (`C43_swish_clipped_wrong`). -/
theorem C43_swish_partial (X : ι → ℝ) (hX : ∀ i, -20 < X i ∧ X i < 20) :
    IsVJP swish X (fun dY => backpropSwish dY X (swish X)) ∧
    ∀ i, swish X i = X i / (1 + exp (-(X i))) := by
  have e : (swish : (ι → ℝ) → ι → ℝ) = fun X i => X i * clipSig (X i) := by
    funext X i
    simp only [swish, opsSigmoid_eq]
  refine ⟨?_, fun i => ?_⟩
  · rw [e]
    refine IsVJP_congr₂ (IsVJP_elementwise (d := fun x => x * clipSig x + clipSig x * (1 - x * clipSig x))
      fun i => hasDerivAt_swish (hX i).1 (hX i).2) (fun _ => rfl) ?_
    intro dY
    funext i
    simp only [backpropSwish, opsSigmoid_eq]
  · rw [e]
    simp only []
    rw [clipSig_mid (hX i).1.le (hX i).2.le, sig]
    ring

/-- **C43** (found by the model): for an input beyond ±20 `swish` is linear with slope `sigmoid(±20)`,
and `backprop_swish` answers another slope. -/
theorem C43_swish_clipped_wrong [DecidableEq ι] (X : ι → ℝ) (i : ι) (h : X i < -20 ∨ 20 < X i) :
    ¬ IsVJP swish X (fun dY => backpropSwish dY X (swish X)) := by
  have e : (swish : (ι → ℝ) → ι → ℝ) = fun X i => X i * clipSig (X i) := by
    funext X i
    simp only [swish, opsSigmoid_eq]
  intro hv
  rw [e] at hv
  have h1 := entry_of_IsVJP (g := fun x => x * clipSig x) hv i
  have h0 := (hasDerivAt_id (X i)).mul (hasDerivAt_clipSig_out h)
  have h2 := h1.unique h0
  simp only [backpropSwish, opsSigmoid_eq, if_true, id, one_mul, mul_zero, add_zero] at h2
  have h3 : 0 < clipSig (X i) := sig_pos _
  have h4 : clipSig (X i) < 1 := sig_lt_one _
  have h5 : X i * (clipSig (X i) * (1 - clipSig (X i))) = 0 := by linarith
  rcases mul_eq_zero.1 h5 with h6 | h6
  · rcases h with h | h <;> linarith
  · rcases mul_eq_zero.1 h6 with h7 | h7 <;> linarith

/-! ## Tanh -/

/-- **C43** (`dtanh`): from the value `Y = tanh(X)`, `dY * dtanh(Y)` is the gradient of `tanh`, with and
without `inplace`. -/
theorem C43_tanh (ip : Bool) (X : ι → ℝ) :
    IsVJP (fun (X : ι → ℝ) i => tanh (X i)) X (fun dY i => dY i * opsDtanh ip (fun i => tanh (X i)) i) := by
  refine IsVJP_congr₂ (IsVJP_elementwise (d := fun x => 1 - tanh x ^ 2) fun i => hasDerivAt_tanh (X i)) (fun _ => rfl) ?_
  intro dY
  funext i
  cases ip
  · rfl
  · simp only [opsDtanh, if_true]
    ring

/-! ## Relu -/

/-- **C43** (`relu`): both implementations compute `max(x, 0)`, and at every array where that is
differentiable both `backprop_relu` are its gradient, whether they are given the input or the output. -/
theorem C43_relu (X : ι → ℝ) (hd : DifferentiableAt ℝ (opsRelu : (ι → ℝ) → ι → ℝ) X) :
    (∀ i, opsRelu X i = max (X i) 0 ∧ cpuRelu X i = max (X i) 0) ∧
    IsVJP opsRelu X (fun dY => opsBackpropRelu dY (opsRelu X)) ∧
    IsVJP opsRelu X (fun dY => opsBackpropRelu dY X) ∧
    IsVJP cpuRelu X (fun dY => cpuBackpropRelu dY (cpuRelu X)) ∧
    IsVJP cpuRelu X (fun dY => cpuBackpropRelu dY X) := by
  have e1 : (opsRelu : (ι → ℝ) → ι → ℝ) = fun X i => (fun x : ℝ => if x ≤ 0 then 0 else x) (X i) := by
    funext X i
    simp only [opsRelu, boolTo]
    by_cases h : X i ≤ 0
    · rw [if_pos h, if_neg (by linarith), mul_zero]
    · rw [if_neg h, if_pos (by linarith), mul_one]
  have e2 : (cpuRelu : (ι → ℝ) → ι → ℝ) = fun X i => (fun x : ℝ => if x ≤ 0 then 0 else x) (X i) := rfl
  rw [e1] at hd
  have key := IsVJP_elementwise_of_differentiable (ι := ι) (d := fun x => if x ≤ 0 then 0 else 1)
    hasDerivAt_relu X hd
  refine ⟨fun i => ⟨?_, ?_⟩, ?_, ?_, ?_, ?_⟩
  · rw [e1]
    by_cases h : X i ≤ 0
    · simp only [if_pos h, max_eq_right h]
    · simp only [if_neg h, max_eq_left (le_of_not_ge h)]
  · rw [e2]
    by_cases h : X i ≤ 0
    · simp only [if_pos h, max_eq_right h]
    · simp only [if_neg h, max_eq_left (le_of_not_ge h)]
  all_goals
    first | rw [e1] | rw [e2]
    refine IsVJP_congr₂ key (fun _ => rfl) fun dY => ?_
    funext i
    simp only [opsBackpropRelu, cpuBackpropRelu, boolTo]
    by_cases h : X i ≤ 0
    · simp [h, not_lt.2 h]
    · simp [h, not_le.1 h]

/-- An input without zeros is one of the arrays `C43_relu` speaks about. -/
theorem relu_differentiable (X : ι → ℝ) (h : ∀ i, X i ≠ 0) :
    DifferentiableAt ℝ (opsRelu : (ι → ℝ) → ι → ℝ) X := by
  have e1 : (opsRelu : (ι → ℝ) → ι → ℝ) = fun X i => (fun x : ℝ => if x ≤ 0 then 0 else x) (X i) := by
    funext X i
    simp only [opsRelu, boolTo]
    by_cases h : X i ≤ 0
    · rw [if_pos h, if_neg (by linarith), mul_zero]
    · rw [if_neg h, if_pos (by linarith), mul_one]
  rw [e1]
  refine differentiable_of_entries (g := fun x : ℝ => if x ≤ 0 then 0 else x) fun i => ?_
  have hg : DifferentiableAt ℝ (fun x : ℝ => if x ≤ 0 then 0 else x) (X i) := by
    rcases lt_or_gt_of_ne (h i) with h1 | h1
    · exact (hasDerivAt_of_lt h1 (hasDerivAt_const (X i) (0 : ℝ)) fun y hy => if_pos hy.le).differentiableAt
    · exact (hasDerivAt_of_gt h1 (hasDerivAt_id (X i)) fun y hy => if_neg (by linarith)).differentiableAt
  exact hg

example : DifferentiableAt ℝ (opsRelu : (Fin 2 → ℝ) → Fin 2 → ℝ) (fun i => i.val - 0.5) := by
  refine relu_differentiable _ fun i => ?_
  fin_cases i <;> norm_num

/-! ## Hard swish -/

theorem hardSwish_eq : (hardSwish : (ι → ℝ) → ι → ℝ) = fun X i => (fun x => x * clipLin 0.2 0.5 0 1 x) (X i) := by
  funext X i
  rfl

theorem hardSwish_deriv (x : ℝ) (hd : DifferentiableAt ℝ (fun x => x * clipLin 0.2 0.5 0 1 x) x) :
    x ≠ 2.5 ∧ x ≠ -2.5 ∧ HasDerivAt (fun x => x * clipLin 0.2 0.5 0 1 x)
      (if x < -2.5 then 0 else if x > 2.5 then 1 else 2 * 0.2 * x + 0.5) x :=
  hardSwish_core (a := 0.2) (b := 0.5) (c := 2.5) (by norm_num) x _
    (fun y hy => by simp only [clipLin]; rw [npClip_low (by norm_num at *; linarith)]; norm_num)
    (fun y hy => by simp only [clipLin]; rw [npClip_high (by norm_num at *; linarith)]; norm_num)
    (fun y hy hy2 => by
      simp only [clipLin]
      rw [npClip_mid (by norm_num at *; linarith) (by norm_num at *; linarith)]
      ring)
    (by norm_num) (by norm_num) hd

/-- **C43** (`hard_swish`): at every array where the function is differentiable (so no entry is ±2.5),
`backprop_hard_swish` is its gradient.  The function is 0 up to -2.5, the identity from 2.5 on and
`x * (0.2 * x + 0.5)` in between. -/
theorem C43_hard_swish (X : ι → ℝ) (hd : DifferentiableAt ℝ (hardSwish : (ι → ℝ) → ι → ℝ) X) :
    IsVJP hardSwish X (fun dY => backpropHardSwish dY X) ∧ ∀ i, X i ≠ 2.5 ∧ X i ≠ -2.5 := by
  rw [hardSwish_eq] at *
  refine ⟨?_, fun i => ?_⟩
  · refine IsVJP_congr₂ (IsVJP_elementwise_of_differentiable (fun x hx => (hardSwish_deriv x hx).2.2) X hd)
      (fun _ => rfl) fun dY => ?_
    funext i
    simp only [backpropHardSwish]
    have : X i * 0.4 + 0.5 = 2 * 0.2 * X i + 0.5 := by ring
    rw [this]
  · have := hardSwish_deriv (X i) (differentiable_entry hd i)
    exact ⟨this.1, this.2.1⟩

/-- **C43**: the values of `hard_swish`. -/
theorem C43_hard_swish_value (X : ι → ℝ) (i : ι) :
    hardSwish X i = if X i ≤ -2.5 then 0 else if 2.5 ≤ X i then X i else X i * (0.2 * X i + 0.5) := by
  rw [hardSwish_eq]
  simp only [clipLin]
  split
  · rename_i h
    rw [npClip_low (by norm_num at *; linarith)]; norm_num
  · split
    · rename_i h
      rw [npClip_high (by norm_num at *; linarith), mul_one]
    · rw [npClip_mid (by norm_num at *; linarith) (by norm_num at *; linarith)]
      ring

theorem hardSwishMobilenet_eq : (hardSwishMobilenet : (ι → ℝ) → ι → ℝ) =
    fun X i => (fun x => x * (clipLin 1 0 0 6 (x + 3) / 6)) (X i) := by
  funext X i
  rfl

theorem hardSwishMobilenet_deriv (x : ℝ) (hd : DifferentiableAt ℝ (fun x => x * (clipLin 1 0 0 6 (x + 3) / 6)) x) :
    x ≠ 3 ∧ x ≠ -3 ∧ HasDerivAt (fun x => x * (clipLin 1 0 0 6 (x + 3) / 6))
      (if x < -3 then 0 else if x > 3 then 1 else 2 * (1 / 6) * x + 0.5) x :=
  hardSwish_core (a := 1 / 6) (b := 0.5) (c := 3) (by norm_num) x _
    (fun y hy => by simp only [clipLin]; rw [npClip_low (by norm_num at *; linarith)]; norm_num)
    (fun y hy => by simp only [clipLin]; rw [npClip_high (by norm_num at *; linarith)]; norm_num)
    (fun y hy hy2 => by
      simp only [clipLin]
      rw [npClip_mid (by norm_num at *; linarith) (by norm_num at *; linarith)]
      ring)
    (by norm_num) (by norm_num) hd

/-- **C43** (`hard_swish_mobilenet`): at every array where the function is differentiable (so no entry
is ±3), `backprop_hard_swish_mobilenet` is its gradient. -/
theorem C43_hard_swish_mobilenet (X : ι → ℝ)
    (hd : DifferentiableAt ℝ (hardSwishMobilenet : (ι → ℝ) → ι → ℝ) X) :
    IsVJP hardSwishMobilenet X (fun dY => backpropHardSwishMobilenet dY X) ∧ ∀ i, X i ≠ 3 ∧ X i ≠ -3 := by
  rw [hardSwishMobilenet_eq] at *
  refine ⟨?_, fun i => ?_⟩
  · refine IsVJP_congr₂ (IsVJP_elementwise_of_differentiable (fun x hx => (hardSwishMobilenet_deriv x hx).2.2) X hd)
      (fun _ => rfl) fun dY => ?_
    funext i
    simp only [backpropHardSwishMobilenet]
    have : (1 / 6) * (X i * 2 + 3) = 2 * (1 / 6) * X i + 0.5 := by ring
    rw [this, mul_comm]
  · have := hardSwishMobilenet_deriv (X i) (differentiable_entry hd i)
    exact ⟨this.1, this.2.1⟩

/-- Both are differentiable somewhere: at every array with entries strictly between the kinks. -/
theorem C43_hard_swish_inside (X : ι → ℝ) (hX : ∀ i, -2.5 < X i ∧ X i < 2.5) :
    DifferentiableAt ℝ (hardSwish : (ι → ℝ) → ι → ℝ) X ∧
    DifferentiableAt ℝ (hardSwishMobilenet : (ι → ℝ) → ι → ℝ) X := by
  have quad : ∀ a b y : ℝ, DifferentiableAt ℝ (fun y : ℝ => y * (a * y + b)) y := fun a b y => by fun_prop
  refine ⟨differentiable_of_entries (g := fun x => x * clipLin 0.2 0.5 0 1 x) fun i => ?_,
    differentiable_of_entries (g := fun x => x * (clipLin 1 0 0 6 (x + 3) / 6)) fun i => ?_⟩
  · have : DifferentiableAt ℝ (fun x => x * clipLin 0.2 0.5 0 1 x) (X i) :=
      (hasDerivAt_of_between (hX i).1 (hX i).2 (quad 0.2 0.5 (X i)).hasDerivAt fun y h1 h2 => by
        simp only [clipLin]
        rw [npClip_mid (by norm_num at *; linarith) (by norm_num at *; linarith)]
        ring).differentiableAt
    exact this
  · have : DifferentiableAt ℝ (fun x => x * (clipLin 1 0 0 6 (x + 3) / 6)) (X i) :=
      (hasDerivAt_of_between (hX i).1 (hX i).2 (quad (1 / 6) 0.5 (X i)).hasDerivAt fun y h1 h2 => by
        simp only [clipLin]
        rw [npClip_mid (by norm_num at *; linarith) (by norm_num at *; linarith)]
        ring).differentiableAt
    exact this

/-! ## Dish -/

/-- **C43** (`dish`): `backprop_dish` is the gradient of `dish`, at every input. -/
theorem C43_dish (X : ι → ℝ) :
    IsVJP dish X (fun dY => backpropDish dY X) ∧
    ∀ i, dish X i = 0.5 * X i * (X i / √(1 + X i ^ 2) + 1) := by
  have e : (dish : (ι → ℝ) → ι → ℝ) = fun X i => (fun x => x * ((x / √(x ^ 2 + 1) + 1) * 0.5)) (X i) := rfl
  rw [e]
  refine ⟨IsVJP_congr₂ (IsVJP_elementwise
    (d := fun x => x / √(x ^ 2 + 1) - 0.5 * x * x ^ 2 / (x ^ 2 + 1) ^ (1.5 : ℝ) + 0.5)
    fun i => hasDerivAt_dish (X i)) (fun _ => rfl) fun dY => rfl, fun i => ?_⟩
  simp only [add_comm (X i ^ 2) 1]
  ring

/-! ## Mish -/

/-- **C43** (`mish`): both implementations compute `x * tanh(log(1 + exp(x)))` below the threshold and
the identity from there on, and at every array where this is differentiable both `backprop_mish` are
its gradient, for every threshold. -/
theorem C43_mish (thr : ℝ) (X : ι → ℝ) (hd : DifferentiableAt ℝ (opsMish thr : (ι → ℝ) → ι → ℝ) X) :
    (∀ i, opsMish thr X i = (if X i < thr then X i * tanh (log (1 + exp (X i))) else X i)) ∧
    cpuMish thr X = opsMish thr X ∧
    IsVJP (opsMish thr) X (fun dY => opsBackpropMish thr dY X) ∧
    IsVJP (cpuMish thr) X (fun dY => cpuBackpropMish thr dY X) := by
  have e1 : (opsMish thr : (ι → ℝ) → ι → ℝ) = fun X i => mish1 thr (X i) := rfl
  have v : ∀ x, mish1 thr x = if x < thr then x * tanh (log (1 + exp x)) else x := fun x => by
    unfold mish1
    by_cases h : x < thr
    · rw [if_pos h, if_neg (by linarith)]
    · rw [if_neg h, if_pos (by linarith)]
  have e2 : (cpuMish thr : (ι → ℝ) → ι → ℝ) = fun X i => mish1 thr (X i) := by
    funext X i
    rw [v]
    rfl
  rw [e1] at *
  rw [e2]
  have key := IsVJP_elementwise_of_differentiable (ι := ι) (hasDerivAt_mish1 thr) X hd
  refine ⟨fun i => v _, rfl, IsVJP_congr₂ key (fun _ => rfl) fun dY => ?_, IsVJP_congr₂ key (fun _ => rfl) fun dY => ?_⟩
  · funext i
    simp only [opsBackpropMish]
    by_cases h : X i < thr
    · simp only [if_pos h]
    · simp only [if_neg h, mul_one]
  · funext i
    simp only [cpuBackpropMish]
    by_cases h : X i < thr
    · simp only [if_pos h]
      have e2 : exp (2 * X i) = exp (X i) * exp (X i) := by rw [← exp_add]; ring_nf
      have : 2 * exp (X i) + exp (2 * X i) + 2 = (exp (X i) + 1) * (exp (X i) + 1) + 1 := by
        rw [e2]; ring
      rw [this, sq]
    · simp only [if_neg h, mul_one]

/-- Arrays that avoid the threshold are arrays `C43_mish` speaks about. -/
theorem mish_differentiable (thr : ℝ) (X : ι → ℝ) (h : ∀ i, X i ≠ thr) :
    DifferentiableAt ℝ (opsMish thr : (ι → ℝ) → ι → ℝ) X := by
  refine differentiable_of_entries (g := mish1 thr) fun i => ?_
  have hg : DifferentiableAt ℝ (mish1 thr) (X i) := by
    rcases lt_or_gt_of_ne (h i) with h1 | h1
    · exact (hasDerivAt_of_lt h1 (hasDerivAt_mish (X i)) fun y hy => if_neg (by linarith)).differentiableAt
    · exact (hasDerivAt_of_gt h1 (hasDerivAt_id (X i)) fun y hy => if_pos hy.le).differentiableAt
  exact hg

/-! ## Gelu -/

/-- **C43** (`gelu`): for the exact error function, `backprop_gelu` is the gradient of `gelu` at every
input.  Missing: the code's own error function is a rational approximation, for which the answer is
not exact (`C43_gelu_kink`). -/
theorem C43_gelu_partial (erf : ℝ → ℝ) (herf : ∀ x, HasDerivAt erf (2 / √π * exp (-x ^ 2)) x) (X : ι → ℝ) :
    IsVJP (gelu erf) X (fun dY => backpropGelu erf dY X) := by
  refine IsVJP_congr₂ (IsVJP_elementwise (g := fun x => x * gaussianCdf erf x)
    (d := fun x => gaussianCdf erf x + x * gaussianPdf x) fun i => ?_) (fun _ => rfl) fun dY => rfl
  have h0 := herf (1 / √2 * X i)
  have h1 : HasDerivAt (fun x : ℝ => 1 / √2 * x) (1 / √2) (X i) := by
    simpa using (hasDerivAt_id (X i)).const_mul (1 / √2)
  have h2 : HasDerivAt (gaussianCdf erf) (0.5 * (2 / √π * exp (-(1 / √2 * X i) ^ 2) * (1 / √2))) (X i) :=
    ((HasDerivAt.comp (X i) h0 h1).const_add 1).const_mul 0.5
  refine HasDerivAt.congr_deriv ((hasDerivAt_id (X i)).mul h2) ?_
  have e1 : √(2 * π) = √2 * √π := sqrt_mul (by norm_num) π
  have e2 : -(1 / √2 * X i) ^ 2 = -0.5 * X i * X i := by
    rw [mul_pow, div_pow, sq_sqrt (by norm_num : (0 : ℝ) ≤ 2)]
    ring
  simp only [id, gaussianPdf, one_mul]
  rw [e1, e2]
  have : √2 ≠ 0 := by positivity
  have : √π ≠ 0 := by positivity
  field_simp
  ring

/-- The exact error function meets the hypothesis of `C43_gelu_partial`. -/
theorem exists_erf : ∃ erf : ℝ → ℝ, erf 0 = 0 ∧ ∀ x, HasDerivAt erf (2 / √π * exp (-x ^ 2)) x := by
  refine ⟨fun x => ∫ t in (0 : ℝ)..x, 2 / √π * exp (-t ^ 2), by simp, fun x => ?_⟩
  have hc : Continuous (fun t : ℝ => 2 / √π * exp (-t ^ 2)) := by fun_prop
  exact (hc.integral_hasStrictDerivAt 0 x).hasDerivAt

/-- The code's `erf` for positive arguments. -/
noncomputable def erfPos (x : ℝ) : ℝ :=
  1 - (((((1.061405429 * (1 / (1 + 0.3275911 * x)) + -1.453152027) * (1 / (1 + 0.3275911 * x))) + 1.421413741) *
    (1 / (1 + 0.3275911 * x)) + -0.284496736) * (1 / (1 + 0.3275911 * x)) + 0.254829592) *
    (1 / (1 + 0.3275911 * x)) * exp (-x * x)

theorem opsErf_pos {x : ℝ} (h : 0 < x) : opsErf x = erfPos x := by
  simp only [opsErf, erfPos, if_pos h, abs_of_pos h, one_mul]

theorem opsErf_neg {x : ℝ} (h : x < 0) : opsErf x = -erfPos (-x) := by
  simp only [opsErf, erfPos, abs_of_neg h, gt_iff_lt, if_neg (not_lt.2 h.le), if_pos h]
  ring_nf

/-- **C43** (found by the model): with the code's error function, `gelu` has a kink at 0 (the
approximation jumps from `-1e-9` to `1e-9`), so it is not differentiable there. -/
theorem C43_gelu_kink : ¬ DifferentiableAt ℝ (fun x : ℝ => gelu opsErf (fun _ : Unit => x) ()) 0 := by
  intro hd
  have e : (fun x : ℝ => gelu opsErf (fun _ : Unit => x) ()) = fun x => x * (0.5 * (1 + opsErf (1 / √2 * x))) := rfl
  rw [e] at hd
  have s2 : 0 < 1 / √2 := by positivity
  have hdiff : DifferentiableAt ℝ (fun x => erfPos (1 / √2 * x)) 0 := by
    unfold erfPos
    have h : (1 + 0.3275911 * (1 / √2 * 0) : ℝ) ≠ 0 := by norm_num
    fun_prop (disch := exact h)
  have v0 : erfPos (1 / √2 * 0) = 1e-9 := by
    unfold erfPos
    norm_num
  have hr : HasDerivAt (fun x => x * (0.5 * (1 + erfPos (1 / √2 * x)))) (0.5 * (1 + 1e-9)) 0 := by
    have h1 := (hasDerivAt_id (0 : ℝ)).mul ((hdiff.hasDerivAt.const_add 1).const_mul 0.5)
    refine HasDerivAt.congr_deriv h1 ?_
    simp only [id, v0]
    ring
  have hdiff' : DifferentiableAt ℝ (fun x => erfPos (1 / √2 * -x)) 0 := by
    unfold erfPos
    have h : (1 + 0.3275911 * (1 / √2 * -0) : ℝ) ≠ 0 := by norm_num
    fun_prop (disch := exact h)
  have hl : HasDerivAt (fun x => x * (0.5 * (1 + -erfPos (1 / √2 * -x)))) (0.5 * (1 - 1e-9)) 0 := by
    have h1 := (hasDerivAt_id (0 : ℝ)).mul ((hdiff'.hasDerivAt.neg.const_add 1).const_mul 0.5)
    refine HasDerivAt.congr_deriv h1 ?_
    have : erfPos (1 / √2 * -0) = 1e-9 := by rw [neg_zero, v0]
    simp only [id, Pi.neg_apply, this]
    ring
  have d1 := hasDerivAt_of_right hr (g := fun x => x * (0.5 * (1 + opsErf (1 / √2 * x)))) (fun x hx _ => by
    rcases hx.eq_or_lt with h | h
    · subst h; simp
    · simp only [opsErf_pos (mul_pos s2 h)]) hd
  have d2 := hasDerivAt_of_left hl (g := fun x => x * (0.5 * (1 + opsErf (1 / √2 * x)))) (fun x hx _ => by
    rcases hx.eq_or_lt with h | h
    · subst h; simp
    · simp only [opsErf_neg (mul_neg_of_pos_of_neg s2 h)]
      rw [mul_neg]) hd
  have := d1.unique d2
  norm_num at this

/-! ## The tanh approximation of gelu -/

/-- The derivative of one entry of `gelu_approx`. -/
noncomputable def geluApprox' (x : ℝ) : ℝ :=
  0.5 + 0.5 * tanh (√(2 / π) * (x + 0.044715 * x ^ 3)) + 0.5 * √(2 / π) * (x + 0.134145 * x ^ 3) *
    (1 - tanh (√(2 / π) * (x + 0.044715 * x ^ 3)) ^ 2)

theorem hasDerivAt_geluApprox (x : ℝ) :
    HasDerivAt (fun x => x * ((1 + tanh (√(2 / π) * (x + 0.044715 * x ^ 3))) * 0.5)) (geluApprox' x) x := by
  have h1 : HasDerivAt (fun x : ℝ => √(2 / π) * (x + 0.044715 * x ^ 3)) (√(2 / π) * (1 + 0.044715 * (3 * x ^ 2))) x := by
    have h3 : HasDerivAt (fun x : ℝ => x ^ 3) (3 * x ^ 2) x := by simpa using hasDerivAt_pow 3 x
    exact ((hasDerivAt_id x).add (h3.const_mul 0.044715)).const_mul _
  have h2 := HasDerivAt.comp x (hasDerivAt_tanh _) h1
  refine HasDerivAt.congr_deriv ((hasDerivAt_id x).mul ((h2.const_add 1).mul_const 0.5)) ?_
  simp only [id, geluApprox']
  ring

theorem tanh_sub_le (a b : ℝ) : |tanh a - tanh b| ≤ |a - b| := by
  have := Convex.norm_image_sub_le_of_norm_hasDerivWithin_le (f := tanh) (f' := fun x => 1 - tanh x ^ 2)
    (s := Set.univ) (C := 1) (x := b) (y := a) (fun x _ => (hasDerivAt_tanh x).hasDerivWithinAt)
    (fun x _ => by
      have h1 := tanh_lt_one x
      have h2 := neg_one_lt_tanh x
      rw [Real.norm_eq_abs, abs_le]
      constructor <;> nlinarith) convex_univ (Set.mem_univ _) (Set.mem_univ _)
  simpa using this

theorem sqrt_two_div_pi : 0.7978844 ≤ √(2 / π) ∧ √(2 / π) ≤ 0.7978847 := by
  have h1 := pi_gt_d6
  have h2 := pi_lt_d6
  constructor
  · refine le_sqrt_of_sq_le ?_
    rw [le_div_iff₀ (by positivity)]
    nlinarith
  · rw [sqrt_le_left (by norm_num), div_le_iff₀ (by positivity)]
    nlinarith

theorem cosh_sq_inv (x : ℝ) : (1 / cosh x) ^ 2 = 1 - tanh x ^ 2 := by
  have h := cosh_sq x
  have hc := (cosh_pos x).ne'
  rw [tanh_eq_sinh_div_cosh]
  field_simp
  linarith

/-- **C43** (`gelu_approx`): for inputs between -7 and 7, `backprop_gelu_approx` is the gradient of
`gelu_approx` up to an error of `0.001` per unit of the incoming gradient (its constants are rounded).
Missing: exactness, and large inputs (`C43_gelu_approx_large_wrong`). -/
theorem C43_gelu_approx_partial (X : ι → ℝ) (hX : ∀ i, |X i| ≤ 7) :
    ∃ D : ι → ℝ, IsVJP geluApprox X (fun dY i => dY i * D i) ∧
      ∀ dY i, |backpropGeluApprox dY X i - dY i * D i| ≤ 0.001 * |dY i| := by
  refine ⟨fun i => geluApprox' (X i), IsVJP_congr₂ (IsVJP_elementwise fun i => hasDerivAt_geluApprox (X i))
    (fun _ => rfl) fun dY => rfl, fun dY i => ?_⟩
  have hx := hX i
  simp only [backpropGeluApprox, geluApprox']
  generalize X i = x at hx
  generalize dY i = dy
  obtain ⟨s1, s2⟩ := sqrt_two_div_pi
  generalize √(2 / π) = s at s1 s2
  have hx3 : |x ^ 3| ≤ 343 := by
    rw [abs_pow]
    calc |x| ^ 3 ≤ 7 ^ 3 := pow_le_pow_left₀ (abs_nonneg x) hx 3
      _ = 343 := by norm_num
  have lin : ∀ a b A B : ℝ, |a| ≤ A → |b| ≤ B → |a * x + b * x ^ 3| ≤ A * 7 + B * 343 := by
    intro a b A B ha hb
    refine (abs_add_le _ _).trans ?_
    rw [abs_mul, abs_mul]
    exact add_le_add (mul_le_mul ha hx (abs_nonneg _) (le_trans (abs_nonneg _) ha))
      (mul_le_mul hb hx3 (abs_nonneg _) (le_trans (abs_nonneg _) hb))
  have huv : |s * (x + 0.044715 * x ^ 3) - (0.0356774 * x ^ 3 + 0.797885 * x)| ≤ 1.2e-5 := by
    have := lin (s - 0.797885) (s * 0.044715 - 0.0356774) 6e-7 2e-8
      (by rw [abs_le]; constructor <;> linarith) (by rw [abs_le]; constructor <;> linarith)
    have e : s * (x + 0.044715 * x ^ 3) - (0.0356774 * x ^ 3 + 0.797885 * x) =
      (s - 0.797885) * x + (s * 0.044715 - 0.0356774) * x ^ 3 := by ring
    rw [e]
    linarith
  have hv : |0.0356774 * x ^ 3 + 0.797885 * x| ≤ 20 := by
    have := lin 0.797885 0.0356774 0.797885 0.0356774 (by norm_num [abs_of_pos]) (by norm_num [abs_of_pos])
    rw [add_comm]
    linarith
  have hA : |0.0535161 * x ^ 3 + 0.398942 * x| ≤ 21.5 := by
    have := lin 0.398942 0.0535161 0.398942 0.0535161 (by norm_num [abs_of_pos]) (by norm_num [abs_of_pos])
    rw [add_comm]
    linarith
  have hAB : |(0.0535161 * x ^ 3 + 0.398942 * x) - 0.5 * s * (x + 0.134145 * x ^ 3)| ≤ 2e-5 := by
    have := lin (0.398942 - 0.5 * s) (0.0535161 - 0.5 * s * 0.134145) 4e-7 3e-8
      (by rw [abs_le]; constructor <;> linarith) (by rw [abs_le]; constructor <;> linarith)
    have e : (0.0535161 * x ^ 3 + 0.398942 * x) - 0.5 * s * (x + 0.134145 * x ^ 3) =
      (0.398942 - 0.5 * s) * x + (0.0535161 - 0.5 * s * 0.134145) * x ^ 3 := by ring
    rw [e]
    linarith
  have hs : sechsq (0.0356774 * x ^ 3 + 0.797885 * x) = 1 - tanh (0.0356774 * x ^ 3 + 0.797885 * x) ^ 2 := by
    rw [sechsq, npClip_mid (abs_le.1 hv).1 (abs_le.1 hv).2, cosh_sq_inv]
  rw [hs]
  generalize 0.0356774 * x ^ 3 + 0.797885 * x = v at *
  generalize s * (x + 0.044715 * x ^ 3) = u at *
  generalize 0.0535161 * x ^ 3 + 0.398942 * x = A at *
  generalize 0.5 * s * (x + 0.134145 * x ^ 3) = B at *
  have ht := (tanh_sub_le u v).trans huv
  have a1 := tanh_lt_one u
  have a2 := neg_one_lt_tanh u
  have a3 := tanh_lt_one v
  have a4 := neg_one_lt_tanh v
  generalize tanh u = p at *
  generalize tanh v = q at *
  have h1 : |A * (p ^ 2 - q ^ 2)| ≤ 21.5 * (1.2e-5 * 2) := by
    rw [abs_mul]
    refine mul_le_mul hA ?_ (abs_nonneg _) (by norm_num)
    have : p ^ 2 - q ^ 2 = (p - q) * (p + q) := by ring
    rw [this, abs_mul]
    exact mul_le_mul ht (by rw [abs_le]; constructor <;> linarith) (abs_nonneg _) (by norm_num)
  have h2 : |(A - B) * (1 - p ^ 2)| ≤ 2e-5 * 1 := by
    rw [abs_mul]
    exact mul_le_mul hAB (by rw [abs_le]; constructor <;> nlinarith) (abs_nonneg _) (by norm_num)
  have e : dy * (0 + (0.5 * q + A * (1 - q ^ 2) + 0.5)) - dy * (0.5 + 0.5 * p + B * (1 - p ^ 2)) =
      ((q - p) * 0.5 + A * (p ^ 2 - q ^ 2) + (A - B) * (1 - p ^ 2)) * dy := by ring
  rw [e, abs_mul]
  refine mul_le_mul_of_nonneg_right ?_ (abs_nonneg _)
  rw [abs_le] at *
  constructor <;> linarith [h1.1, h1.2, h2.1, h2.2, ht.1, ht.2]

/-- **C43** (found by the model): `sechsq` clips its argument at ±20, so for large inputs
`backprop_gelu_approx` grows with the cube of the input, while the slope of `gelu_approx` stays below 2.
At `1e7` it answers more than 100. -/
theorem C43_gelu_approx_large_wrong :
    backpropGeluApprox (fun _ : Unit => 1) (fun _ => 1e7) () ≥ 100 ∧
    ∃ d, HasDerivAt (fun x => geluApprox (fun _ : Unit => x) ()) d 1e7 ∧ d ≤ 2 := by
  constructor
  · simp only [backpropGeluApprox, sechsq]
    rw [npClip_high (by norm_num)]
    have hq := neg_one_lt_tanh (0.0356774 * 1e7 ^ 3 + 0.797885 * 1e7)
    generalize tanh (0.0356774 * 1e7 ^ 3 + 0.797885 * 1e7) = q at *
    have hc : cosh 20 ≤ exp 20 := by
      rw [cosh_eq]
      have : exp (-20) ≤ exp 20 := exp_le_exp.2 (by norm_num)
      linarith
    have he : exp 20 ≤ 5e8 := by
      have : exp 20 = exp 1 ^ 20 := by rw [← exp_nat_mul]; norm_num
      rw [this]
      calc exp 1 ^ 20 ≤ 2.7182818286 ^ 20 := pow_le_pow_left₀ (exp_pos 1).le exp_one_lt_d9.le 20
        _ ≤ 5e8 := by norm_num
    have h1 : 1 / 5e8 ≤ 1 / cosh 20 := one_div_le_one_div_of_le (cosh_pos 20) (hc.trans he)
    have h2 : (1 / 5e8 : ℝ) ^ 2 ≤ (1 / cosh 20) ^ 2 := pow_le_pow_left₀ (by norm_num) h1 2
    generalize (1 / cosh 20) ^ 2 = r at *
    norm_num at *
    linarith
  · refine ⟨_, hasDerivAt_geluApprox 1e7, ?_⟩
    obtain ⟨s1, s2⟩ := sqrt_two_div_pi
    unfold geluApprox'
    generalize √(2 / π) = s at s1 s2
    have hu : 3e19 ≤ s * (1e7 + 0.044715 * 1e7 ^ 3) := by norm_num at *; linarith
    have hB : 0.5 * s * (1e7 + 0.134145 * 1e7 ^ 3) ≤ 1e20 := by norm_num at *; linarith
    generalize s * (1e7 + 0.044715 * 1e7 ^ 3) = u at *
    generalize 0.5 * s * (1e7 + 0.134145 * 1e7 ^ 3) = B at *
    have ht := tanh_lt_one u
    have hc : u ^ 2 / 2 ≤ cosh u ^ 2 := by
      have h1 : exp u / 2 ≤ cosh u := by
        rw [cosh_eq]
        have := exp_pos (-u)
        linarith
      have h2 := quadratic_le_exp_of_nonneg (x := u) (by linarith)
      have h3 : u ^ 2 / 4 ≤ cosh u := by linarith
      have h4 : 1 ≤ cosh u := one_le_cosh u
      nlinarith
    have hp : (1e20 : ℝ) ≤ cosh u ^ 2 := by nlinarith
    have hle : B * (1 - tanh u ^ 2) ≤ 1 := by
      rw [← cosh_sq_inv, div_pow, one_pow, mul_one_div, div_le_one (by positivity)]
      linarith
    linarith

end Thinc
