import Verif.Model.Layer
import Verif.Model.Activations
/-!
# Dense layers with an activation function

`Relu`, `Sigmoid`, `Swish`, `Gelu`, `Mish`, `HardSwish`, `HardSwishMobilenet`, `Dish` and `ClippedLinear`
have the same forward function up to the activation.  The activations are those of
`Verif.Model.Activations`, applied to the entries of a matrix (`ι = ℕ` are the positions in its memory).
Also the activation layers without parameters.
-/
namespace Thinc

/-- An elementwise operation of the backend on a matrix. -/
def Mat.lift (f : (Nat → ℝ) → Nat → ℝ) (A : Mat ℝ) : Mat ℝ := ⟨A.rows, A.cols, f A.val⟩

/-- An elementwise operation of the backend on two matrices, after
thinc/backends/numpy_ops.pyx:1114-1117 `_check_compatible_shape`. -/
def Mat.lift₂ (f : (Nat → ℝ) → (Nat → ℝ) → Nat → ℝ) (A B : Mat ℝ) : Except PyErr (Mat ℝ) :=
  if A.rows = B.rows ∧ A.cols = B.cols then .ok ⟨A.rows, A.cols, f A.val B.val⟩ else .error .valueError

/-- thinc/backends/ops.py:259-265 `Ops.affine` -/
noncomputable def opsAffine (X W b : Mat ℝ) : Except PyErr (Mat ℝ) := do
  addBias (← gemm X W false true) b

/-- The common end of the callbacks: the gradients of `b` and `W` (stored in this order if `bFirst`) and
of the input. -/
noncomputable def denseBackprop (W b : Nat) (bFirst : Bool) (P : ParamVals) (X dY : Mat ℝ) (G : GradStore) :
    Except PyErr (Val × GradStore) := do
  let G ← if bFirst then incGrad G b dY.colSums else incGrad G W (← gemm dY X true false)
  let G ← if bFirst then incGrad G W (← gemm dY X true false) else incGrad G b dY.colSums
  return (.arr (← gemm dY (P W) false false), G)

/-- The common forward function: `act` is the activation, and `back X preact Y dY` the gradient of the
pre-activations. -/
noncomputable def dense (W b : Nat) (bFirst : Bool) (act : (Nat → ℝ) → Nat → ℝ)
    (back : Mat ℝ → Mat ℝ → Mat ℝ → Mat ℝ → Except PyErr (Mat ℝ)) : Layer := fun _ P X => do
  let X ← X.asArr
  let preact ← opsAffine X (P W) (P b)
  let Y := preact.lift act
  let backprop : Callback := fun dY G => do
    let dY ← dY.asArr
    let dY ← back X preact Y dY
    denseBackprop W b bFirst P X dY G
  return (.arr Y, backprop)

/-- thinc/layers/relu.py:44-56 `forward` -/
noncomputable def reluLayer (W b : Nat) : Layer :=
  dense W b true cpuRelu (fun _ _ Y dY => Mat.lift₂ cpuBackpropRelu dY Y)

/-- thinc/layers/sigmoid.py:38-50 `forward` -/
noncomputable def sigmoidLayer (W b : Nat) : Layer :=
  dense W b true (opsSigmoid false) (fun _ _ Y dY => npBinary (· * ·) dY (Y.lift (opsDsigmoid false)))

/-- thinc/layers/swish.py:41-55 `forward` -/
noncomputable def swishLayer (W b : Nat) : Layer :=
  dense W b true swish (fun _ preact Y dY => do
    npBinary (· * ·) dY (← Mat.lift₂ (fun X Y => backpropSwish (fun _ => 1) X Y) preact Y))

/-- thinc/layers/gelu.py:41-55 `forward` -/
noncomputable def geluLayer (erf : ℝ → ℝ) (W b : Nat) : Layer :=
  dense W b true (gelu erf) (fun _ preact _ dY => npBinary (· * ·) dY (preact.lift (backpropGelu erf fun _ => 1)))

/-- thinc/layers/mish.py:47-61 `forward` -/
noncomputable def mishLayer (W b : Nat) : Layer :=
  dense W b false (cpuMish 20) (fun _ preact _ dY => Mat.lift₂ (cpuBackpropMish 20) dY preact)

/-- thinc/layers/hard_swish.py:41-55 `forward` -/
noncomputable def hardSwishLayer (W b : Nat) : Layer :=
  dense W b true hardSwish (fun _ preact _ dY => npBinary (· * ·) dY (preact.lift (backpropHardSwish fun _ => 1)))

/-- thinc/layers/hard_swish_mobilenet.py:41-55 `forward` -/
noncomputable def hardSwishMobilenetLayer (W b : Nat) : Layer :=
  dense W b true hardSwishMobilenet
    (fun _ preact _ dY => npBinary (· * ·) (preact.lift (backpropHardSwishMobilenet fun _ => 1)) dY)

/-- thinc/layers/dish.py:41-55 `forward`: the callback passes the input of the layer, not the
pre-activations, to `backprop_dish`. -/
noncomputable def dishLayer (W b : Nat) : Layer :=
  dense W b true dish (fun X _ _ dY => npBinary (· * ·) dY (X.lift (backpropDish fun _ => 1)))

/-- thinc/layers/clipped_linear.py:52-74 `forward` -/
noncomputable def clippedLinearLayer (slope offset minVal maxVal : ℝ) (W b : Nat) : Layer :=
  dense W b true (clippedLinear slope offset minVal maxVal) (fun _ preact _ dY => do
    let d ← backpropClippedLinear slope offset minVal maxVal (fun _ => 1) preact.val
    npBinary (· * ·) dY (preact.lift fun _ => d))

/-- The common shape of the activation layers without parameters. -/
def entrywise (act : (Nat → ℝ) → Nat → ℝ) (back : Mat ℝ → Mat ℝ → Mat ℝ → Except PyErr (Mat ℝ)) : Layer :=
  fun _ _ X => do
    let X ← X.asArr
    let Y := X.lift act
    let backprop : Callback := fun dY G => do
      let dY ← dY.asArr
      return (.arr (← back X Y dY), G)
    return (.arr Y, backprop)

/-- thinc/layers/logistic.py:19-25 and thinc/layers/sigmoid_activation.py:13-24 `forward` -/
noncomputable def logisticLayer : Layer :=
  entrywise (opsSigmoid false) (fun _ Y dY => npBinary (· * ·) dY (Y.lift (opsDsigmoid false)))

end Thinc
