import Verif.Model.Py
import Mathlib.Analysis.SpecialFunctions.Sqrt
import Mathlib.Analysis.SpecialFunctions.ExpDeriv
import Mathlib.Analysis.SpecialFunctions.Log.Deriv
import Mathlib.Analysis.SpecialFunctions.Trigonometric.DerivHyp
import Mathlib.Analysis.SpecialFunctions.Pow.Real
/-!
# Activation functions

An array of any shape is a function from its index set to the real numbers, so NumPy's elementwise
arithmetic is pointwise arithmetic.  Floats are real numbers: rounding, overflow and NaN are not
modelled.  The `inplace` variants are modelled by the value they return (the array they overwrite
is the argument named in the comment).
-/
namespace Thinc
open Real
variable {ι : Type}

/-- `xp.clip(x, lo, hi)`: `minimum(maximum(x, lo), hi)`. -/
noncomputable def npClip (x lo hi : ℝ) : ℝ := min (max x lo) hi

/-- thinc/backends/ops.py:773-784 `Ops.sigmoid`; with `inplace` the argument is overwritten. -/
noncomputable def opsSigmoid (inplace : Bool) (X : ι → ℝ) : ι → ℝ :=
  if inplace then
    let X1 := fun i => npClip (X i) (-20) 20
    let X2 := fun i => exp (-(X1 i))
    let X3 := fun i => X2 i + 1
    fun i => X3 i ^ (-1 : ℤ)
  else
    let X := fun i => npClip (X i) (-20) 20
    fun i => 1 / (1 + exp (-(X i)))

/-- thinc/backends/ops.py:795-800 `Ops.dsigmoid`. -/
noncomputable def opsDsigmoid (inplace : Bool) (Y : ι → ℝ) : ι → ℝ :=
  if inplace then fun i => Y i * (1 - Y i) else fun i => Y i * (1 - Y i)

/-- thinc/backends/ops.py:785-793 `Ops.backprop_sigmoid`; with `inplace` `Y` is overwritten. -/
noncomputable def opsBackpropSigmoid (inplace : Bool) (dY Y : ι → ℝ) : ι → ℝ :=
  if inplace then
    let Y := opsDsigmoid true Y
    fun i => Y i * dY i
  else fun i => dY i * opsDsigmoid false Y i

/-- thinc/backends/ops.py:802-809 `Ops.dtanh`. -/
noncomputable def opsDtanh (inplace : Bool) (Y : ι → ℝ) : ι → ℝ :=
  if inplace then
    let Y1 := fun i => Y i ^ 2
    let Y2 := fun i => Y1 i * (-1)
    fun i => Y2 i + 1
  else fun i => 1 - Y i ^ 2

/-- A boolean array used in arithmetic. -/
noncomputable def boolTo (b : Prop) [Decidable b] : ℝ := if b then 1 else 0

/-- thinc/backends/ops.py:899-904 `Ops.relu`. -/
noncomputable def opsRelu (X : ι → ℝ) : ι → ℝ := fun i => X i * boolTo (X i > 0)

/-- thinc/backends/ops.py:906-912 `Ops.backprop_relu`. -/
noncomputable def opsBackpropRelu (dY Y : ι → ℝ) : ι → ℝ := fun i => dY i * boolTo (Y i > 0)

/-- thinc/backends/cpu_kernels.hh:340-352 `cpu_relu`, numpy_ops.pyx:128-140 `NumpyOps.relu`. -/
noncomputable def cpuRelu (X : ι → ℝ) : ι → ℝ := fun i => if X i ≤ 0 then 0 else X i

/-- thinc/backends/numpy_ops.pyx:142-157 `NumpyOps.backprop_relu`. -/
noncomputable def cpuBackpropRelu (dY Y : ι → ℝ) : ι → ℝ := fun i => if Y i ≤ 0 then 0 else dY i

/-- thinc/backends/ops.py:914-928 `Ops.clipped_linear`. -/
noncomputable def clippedLinear (slope offset minVal maxVal : ℝ) (X : ι → ℝ) : ι → ℝ :=
  fun i => npClip (X i * slope + offset) minVal maxVal

/-- thinc/backends/ops.py:930-948 `Ops.backprop_clipped_linear`.  `slope` is a Python float: dividing by
zero raises ZeroDivisionError. -/
noncomputable def backpropClippedLinear (slope offset minVal maxVal : ℝ) (dY X : ι → ℝ) :
    Except PyErr (ι → ℝ) :=
  if slope = 0 then .error .zeroDivisionError
  else
    let low := (minVal - offset) / slope
    let high := (maxVal - offset) / slope
    let dX := fun i => if low < X i ∧ X i < high then slope else 0
    .ok (fun i => dY i * dX i)

/-- thinc/backends/ops.py:950-951 `Ops.relu_k`. -/
noncomputable def reluK (n : ℝ) (X : ι → ℝ) : ι → ℝ := clippedLinear 1 0 0 n X

/-- thinc/backends/ops.py:953-956 `Ops.backprop_relu_k`. -/
noncomputable def backpropReluK (n : ℝ) (dY X : ι → ℝ) : Except PyErr (ι → ℝ) :=
  backpropClippedLinear 1 0 0 n dY X

/-- thinc/backends/ops.py:958-959 `Ops.hard_sigmoid`. -/
noncomputable def hardSigmoid (X : ι → ℝ) : ι → ℝ := clippedLinear 0.2 0.5 0 1 X

/-- thinc/backends/ops.py:961-964 `Ops.backprop_hard_sigmoid`. -/
noncomputable def backpropHardSigmoid (dY X : ι → ℝ) : Except PyErr (ι → ℝ) :=
  backpropClippedLinear 0.2 0.5 0 1 dY X

/-- thinc/backends/ops.py:966-967 `Ops.hard_tanh`. -/
noncomputable def hardTanh (X : ι → ℝ) : ι → ℝ := clippedLinear 1 0 (-1) 1 X

/-- thinc/backends/ops.py:969-972 `Ops.backprop_hard_tanh`. -/
noncomputable def backpropHardTanh (dY X : ι → ℝ) : Except PyErr (ι → ℝ) :=
  backpropClippedLinear 1 0 (-1) 1 dY X

/-- thinc/backends/ops.py:974-979 `Ops.swish`. -/
noncomputable def swish (X : ι → ℝ) : ι → ℝ := fun i => X i * opsSigmoid false X i

/-- thinc/backends/ops.py:981-989 `Ops.backprop_swish`. -/
noncomputable def backpropSwish (dY X Y : ι → ℝ) : ι → ℝ :=
  let Y' := fun i => Y i + opsSigmoid false X i * (1 - Y i)
  fun i => dY i * Y' i

/-- thinc/backends/ops.py:992-997 `Ops.hard_swish`. -/
noncomputable def hardSwish (X : ι → ℝ) : ι → ℝ := fun i => X i * hardSigmoid X i

/-- thinc/backends/ops.py:999-1008 `Ops.backprop_hard_swish`. -/
noncomputable def backpropHardSwish (dY X : ι → ℝ) : ι → ℝ :=
  let dX := fun i => X i * 0.4 + 0.5
  let dX := fun i => if X i > 2.5 then 1 else dX i
  let dX := fun i => if X i < -2.5 then 0 else dX i
  fun i => dY i * dX i

/-- thinc/backends/ops.py:1011-1015 `Ops.hard_swish_mobilenet`. -/
noncomputable def hardSwishMobilenet (X : ι → ℝ) : ι → ℝ :=
  fun i => X i * (reluK 6 (fun i => X i + 3) i / 6)

/-- thinc/backends/ops.py:1017-1026 `Ops.backprop_hard_swish_mobilenet`. -/
noncomputable def backpropHardSwishMobilenet (dY X : ι → ℝ) : ι → ℝ :=
  let dX := fun i => (1 / 6) * (X i * 2 + 3)
  let dX := fun i => if X i > 3 then 1 else dX i
  let dX := fun i => if X i < -3 then 0 else dX i
  fun i => dX i * dY i

/-- thinc/backends/ops.py:1028-1039 `Ops.dish`. -/
noncomputable def dish (X : ι → ℝ) : ι → ℝ :=
  let tmp := fun i => X i ^ 2
  let tmp := fun i => tmp i + 1
  let tmp := fun i => √(tmp i)
  let tmp := fun i => X i / tmp i
  let tmp := fun i => tmp i + 1
  let tmp := fun i => tmp i * 0.5
  fun i => X i * tmp i

/-- thinc/backends/ops.py:1041-1055 `Ops.backprop_dish`. -/
noncomputable def backpropDish (dY X : ι → ℝ) : ι → ℝ :=
  let xSq := fun i => X i ^ 2
  let xSqPlusOne := fun i => xSq i + 1
  let deriv := fun i => X i / √(xSqPlusOne i)
  let second := fun i => 0.5 * X i * xSq i
  let second := fun i => second i / xSqPlusOne i ^ (1.5 : ℝ)
  let deriv := fun i => deriv i - second i
  let deriv := fun i => deriv i + 0.5
  fun i => dY i * deriv i

/-- thinc/backends/ops.py:1059-1078 `Ops.erf`, for one entry. -/
noncomputable def opsErf (x : ℝ) : ℝ :=
  let sign : ℝ := if x > 0 then 1 else if x < 0 then -1 else 0
  let x := |x|
  let a1 := 0.254829592
  let a2 := -0.284496736
  let a3 := 1.421413741
  let a4 := -1.453152027
  let a5 := 1.061405429
  let p := 0.3275911
  let t := 1 / (1 + p * x)
  let y := 1 - (((((a5 * t + a4) * t) + a3) * t + a2) * t + a1) * t * exp (-x * x)
  sign * y

/-- thinc/backends/ops.py:1695-1697 `gaussian_cdf`, with the error function as a parameter. -/
noncomputable def gaussianCdf (erf : ℝ → ℝ) (x : ℝ) : ℝ := 0.5 * (1 + erf (1 / √2 * x))

/-- thinc/backends/ops.py:1700-1702 `gaussian_pdf`. -/
noncomputable def gaussianPdf (x : ℝ) : ℝ := 1 / √(2 * π) * exp (-0.5 * x * x)

/-- thinc/backends/ops.py:1113-1119 `Ops.gelu`. -/
noncomputable def gelu (erf : ℝ → ℝ) (X : ι → ℝ) : ι → ℝ := fun i => X i * gaussianCdf erf (X i)

/-- thinc/backends/ops.py:1121-1129 `Ops.backprop_gelu`. -/
noncomputable def backpropGelu (erf : ℝ → ℝ) (dY X : ι → ℝ) : ι → ℝ :=
  let dX := fun i => gaussianCdf erf (X i) + X i * gaussianPdf (X i)
  fun i => dY i * dX i

/-- thinc/backends/ops.py:1080-1083 `Ops.sechsq`, for one entry. -/
noncomputable def sechsq (x : ℝ) : ℝ := (1 / cosh (npClip x (-20) 20)) ^ 2

/-- thinc/backends/ops.py:1084-1094 `Ops.gelu_approx`. -/
noncomputable def geluApprox (X : ι → ℝ) : ι → ℝ :=
  let tmp := fun i => 1 + tanh (√(2 / π) * (X i + 0.044715 * X i ^ 3))
  let tmp := fun i => tmp i * 0.5
  fun i => X i * tmp i

/-- thinc/backends/ops.py:1096-1111 `Ops.backprop_gelu_approx`. -/
noncomputable def backpropGeluApprox (dY X : ι → ℝ) : ι → ℝ :=
  let Xp3 := fun i => X i ^ 3
  let tmp := fun i => 0.5 * tanh (0.0356774 * Xp3 i + 0.797885 * X i)
  let tmp := fun i => tmp i + (0.0535161 * Xp3 i + 0.398942 * X i) *
    sechsq (0.0356774 * Xp3 i + 0.797885 * X i)
  let tmp := fun i => tmp i + 0.5
  fun i => dY i * (0 + tmp i)

/-- thinc/backends/ops.py:1131-1140 `Ops.mish`. -/
noncomputable def opsMish (threshold : ℝ) (X : ι → ℝ) : ι → ℝ :=
  let tmp := fun i => X i * tanh (log (1 + exp (X i)))
  fun i => if X i ≥ threshold then X i else tmp i

/-- thinc/backends/ops.py:1141-1170 `Ops.backprop_mish` (for arrays of the same shape). -/
noncomputable def opsBackpropMish (threshold : ℝ) (dY X : ι → ℝ) : ι → ℝ :=
  let omega := fun i => 4 * (X i + 1)
  let omega := fun i => omega i + 4 * exp (2 * X i)
  let omega := fun i => omega i + exp (3 * X i)
  let omega := fun i => omega i + exp (X i) * (4 * X i + 6)
  let delta := fun i => exp (X i) + 1
  let delta := fun i => delta i * delta i
  let delta := fun i => delta i + 1
  let dXsub := fun i => dY i * ((exp (X i) * omega i) / (delta i ^ 2))
  fun i => if X i < threshold then dXsub i else dY i

/-- thinc/backends/cpu_kernels.hh:256-268 `cpu_mish`. -/
noncomputable def cpuMish (threshold : ℝ) (Y : ι → ℝ) : ι → ℝ :=
  fun i => if Y i < threshold then Y i * tanh (log (1 + exp (Y i))) else Y i

/-- thinc/backends/cpu_kernels.hh:270-290 `cpu_backprop_mish`. -/
noncomputable def cpuBackpropMish (threshold : ℝ) (dX X : ι → ℝ) : ι → ℝ :=
  fun i =>
    let x := X i
    if x < threshold then
      let expX := exp x
      let exp2X := exp (2 * x)
      let exp3X := exp (3 * x)
      let omega := (4 * (x + 1)) + (4 * exp2X) + exp3X + expX * (4 * x + 6)
      let delta := 2 * expX + exp2X + 2
      dX i * ((expX * omega) / (delta * delta))
    else dX i

end Thinc
