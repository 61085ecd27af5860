import Verif.Lemmas.Activations
/-!
# C44 The clipped-linear family
-/
namespace Thinc
open Real Spec
variable {ι : Type}

/-- **C44**: `clipped_linear` answers `slope * x + offset` wherever that is between the bounds, the lower
bound below and the upper bound above, and never leaves the bounds. -/
theorem C44_values (slope offset lo hi : ℝ) (h : lo ≤ hi) (X : ι → ℝ) (i : ι) :
    (lo ≤ clippedLinear slope offset lo hi X i ∧ clippedLinear slope offset lo hi X i ≤ hi) ∧
    (slope * X i + offset ≤ lo → clippedLinear slope offset lo hi X i = lo) ∧
    (hi ≤ slope * X i + offset → clippedLinear slope offset lo hi X i = hi) ∧
    (lo ≤ slope * X i + offset → slope * X i + offset ≤ hi →
      clippedLinear slope offset lo hi X i = slope * X i + offset) := by
  unfold clippedLinear
  rw [mul_comm slope]
  exact ⟨npClip_mem h, fun h1 => by rw [npClip_low h1, min_eq_left h], npClip_high, npClip_mid⟩

variable [Fintype ι]

/-- **C44**: with a positive slope, `backprop_clipped_linear` succeeds and is the gradient of
`clipped_linear` at every array where that is differentiable, whatever the offset and the bounds.
Missing: negative slopes (`C44_negative_slope_wrong`) and slope zero (`C44_zero_slope_raises`). -/
theorem C44_gradient_partial (slope offset lo hi : ℝ) (hs : 0 < slope) (X : ι → ℝ)
    (hd : DifferentiableAt ℝ (clippedLinear slope offset lo hi : (ι → ℝ) → ι → ℝ) X) :
    ∃ back : (ι → ℝ) → ι → ℝ, (∀ dY, backpropClippedLinear slope offset lo hi dY X = .ok (back dY)) ∧
      IsVJP (clippedLinear slope offset lo hi) X back := by
  refine ⟨fun dY i => dY i * (if (lo - offset) / slope < X i ∧ X i < (hi - offset) / slope then slope else 0),
    fun dY => ?_, ?_⟩
  · unfold backpropClippedLinear
    rw [if_neg hs.ne']
  · exact IsVJP_elementwise_of_differentiable (g := clipLin slope offset lo hi) (fun x => hasDerivAt_clipLin hs x)
      X hd

/-- Arrays that avoid the two kinks are arrays `C44_gradient_partial` speaks about. -/
theorem clippedLinear_differentiable (slope offset lo hi : ℝ) (X : ι → ℝ)
    (h : ∀ i, X i * slope + offset ≠ lo ∧ X i * slope + offset ≠ hi) :
    DifferentiableAt ℝ (clippedLinear slope offset lo hi : (ι → ℝ) → ι → ℝ) X := by
  refine differentiable_of_entries (g := clipLin slope offset lo hi) fun i => ?_
  have hc : ContinuousAt (fun x : ℝ => x * slope + offset) (X i) := (hasDerivAt_lin slope offset (X i)).continuousAt
  rcases lt_or_gt_of_ne (h i).1 with h1 | h1
  · refine ((hasDerivAt_const (X i) (min lo hi)).congr_of_eventuallyEq ?_).differentiableAt
    filter_upwards [hc.eventually (Iio_mem_nhds h1)] with y hy
    exact npClip_low hy.le
  · rcases lt_or_gt_of_ne (h i).2 with h2 | h2
    · refine ((hasDerivAt_lin slope offset (X i)).congr_of_eventuallyEq ?_).differentiableAt
      filter_upwards [hc.eventually (Ioo_mem_nhds h1 h2)] with y hy
      exact npClip_mid hy.1.le hy.2.le
    · refine ((hasDerivAt_const (X i) hi).congr_of_eventuallyEq ?_).differentiableAt
      filter_upwards [hc.eventually (Ioi_mem_nhds h2)] with y hy
      exact npClip_high hy.le

example : DifferentiableAt ℝ (clippedLinear 2 1 0 4 : (Fin 3 → ℝ) → Fin 3 → ℝ) (fun i => i.val) := by
  refine clippedLinear_differentiable _ _ _ _ _ fun i => ?_
  fin_cases i <;> norm_num

/-- **C44** (found by the model): with a negative slope the mask `low < X < high` is empty whenever the
bounds are ordered, so `backprop_clipped_linear` answers zero everywhere, although `clipped_linear` has
slope `slope` between its bounds. -/
theorem C44_negative_slope_wrong (slope offset lo hi : ℝ) (hs : slope < 0) (X dY : ι → ℝ) (i : ι)
    (h1 : lo < X i * slope + offset) (h2 : X i * slope + offset < hi) :
    (∃ dX, backpropClippedLinear slope offset lo hi dY X = .ok dX ∧ dX i = 0) ∧
    HasDerivAt (fun x => clippedLinear slope offset lo hi (fun _ : Unit => x) ()) slope (X i) := by
  refine ⟨⟨fun i => dY i * (if (lo - offset) / slope < X i ∧ X i < (hi - offset) / slope then slope else 0), ?_, ?_⟩,
    hasDerivAt_clipLin_neg hs (X i) h1 h2⟩
  · unfold backpropClippedLinear
    rw [if_neg hs.ne]
  · simp only []
    rw [if_neg, mul_zero]
    rintro ⟨a, b⟩
    rw [div_lt_iff_of_neg hs] at a
    linarith

example : (-1 : ℝ) < (fun _ : Unit => (0.5 : ℝ)) () * (-1) + 0 ∧ (fun _ : Unit => (0.5 : ℝ)) () * (-1) + 0 < 1 := by
  norm_num

/-- **C44** (found by the model): slope 0 is accepted by `clipped_linear` (a constant function), but
`backprop_clipped_linear` raises ZeroDivisionError. -/
theorem C44_zero_slope_raises (offset lo hi : ℝ) (X dY : ι → ℝ) :
    backpropClippedLinear 0 offset lo hi dY X = .error .zeroDivisionError ∧
    IsVJP (clippedLinear 0 offset lo hi) X (fun _ => 0) := by
  refine ⟨by simp [backpropClippedLinear], ?_⟩
  refine IsVJP_congr₂ (IsVJP_elementwise (g := fun _ => npClip offset lo hi) (d := fun _ => 0)
    fun i => hasDerivAt_const _ _) (fun Y => ?_) (fun dY => ?_)
  · funext i
    simp [clippedLinear]
  · funext i
    simp

/-- **C44**: `hard_sigmoid` is `x * 0.2 + 0.5` clipped to [0, 1], `hard_tanh` is `x` clipped to [-1, 1]
and `relu_k` with bound `n ≥ 0` is `x` clipped to [0, n]. -/
theorem C44_instances (X : ι → ℝ) (i : ι) (n : ℝ) :
    hardSigmoid X i = min (max (0.2 * X i + 0.5) 0) 1 ∧
    hardTanh X i = min (max (X i) (-1)) 1 ∧ reluK n X i = min (max (X i) 0) n := by
  refine ⟨?_, ?_, ?_⟩ <;> simp [hardSigmoid, hardTanh, reluK, clippedLinear, npClip, mul_comm]

/-- **C44**: the gradients of `hard_sigmoid`, `hard_tanh` and `relu_k`, at every array where the function is
differentiable. -/
theorem C44_instance_gradients (X : ι → ℝ) (n : ℝ) :
    (DifferentiableAt ℝ (hardSigmoid : (ι → ℝ) → ι → ℝ) X →
      ∃ back, (∀ dY, backpropHardSigmoid dY X = .ok (back dY)) ∧ IsVJP hardSigmoid X back) ∧
    (DifferentiableAt ℝ (hardTanh : (ι → ℝ) → ι → ℝ) X →
      ∃ back, (∀ dY, backpropHardTanh dY X = .ok (back dY)) ∧ IsVJP hardTanh X back) ∧
    (DifferentiableAt ℝ (reluK n : (ι → ℝ) → ι → ℝ) X →
      ∃ back, (∀ dY, backpropReluK n dY X = .ok (back dY)) ∧ IsVJP (reluK n) X back) :=
  ⟨fun hd => C44_gradient_partial 0.2 0.5 0 1 (by norm_num) X hd,
    fun hd => C44_gradient_partial 1 0 (-1) 1 (by norm_num) X hd,
    fun hd => C44_gradient_partial 1 0 0 n (by norm_num) X hd⟩

end Thinc
