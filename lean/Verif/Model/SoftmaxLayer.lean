import Verif.Model.Dense
import Verif.Model.Softmax
/-!
# The layers Softmax and MultiSoftmax
-/
namespace Thinc

/-- A matrix from its entries. -/
noncomputable def Mat.ofFin {r c : ℕ} (x : Fin r → Fin c → ℝ) : Mat ℝ :=
  Mat.ofFn r c fun i j => if h : i < r ∧ j < c then x ⟨i, h.1⟩ ⟨j, h.2⟩ else 0

/-- `ops.softmax(Y, temperature=temperature)` for a matrix, see `Thinc.softmax`. -/
noncomputable def Mat.softmax (temperature : ℝ) (Y : Mat ℝ) : Except PyErr (Mat ℝ) := do
  return Mat.ofFin (← Thinc.softmax temperature fun (i : Fin Y.rows) (j : Fin Y.cols) => Y.at i j)

/-- thinc/util.py:636-643 `ArrayInfo.check_consistency`.  All arrays here have the same dtype. -/
def checkConsistency (Y dY : Mat ℝ) : Except PyErr Unit :=
  if dY.rows = Y.rows ∧ dY.cols = Y.cols then .ok () else .error .valueError

/-- thinc/layers/softmax.py:78-85 `backprop` -/
noncomputable def softmaxBackprop (W b : Nat) (temperature : ℝ) (P : ParamVals) (X Y : Mat ℝ) : Callback := fun dY G => do
  let dY ← dY.asArr
  checkConsistency Y dY
  let dY := if temperature ≠ 1 then dY.map (· / temperature) else dY
  denseBackprop W b true P X dY G

/-- thinc/layers/softmax.py:63-94 `forward`, 112-115 `validate_temperature` -/
noncomputable def softmaxLayer (W b : Nat) (normalizeOutputs : Bool) (temperature : ℝ) : Layer := fun isTrain P X => do
  let X ← X.asArr
  if temperature ≤ 0 then .error .valueError else
  let Y ← opsAffine X (P W) (P b)
  if normalizeOutputs || isTrain then
    let Y ← Y.softmax temperature
    return (.arr Y, softmaxBackprop W b temperature P X Y)
  else
    return (.arr Y, fun _ _ => .error .valueError)

/-- thinc/layers/multisoftmax.py:41-44: the loop over the blocks.  `ops.softmax` ignores `inplace`, so it returns a new
array, which the loop drops; all that remains is that it can fail. -/
noncomputable def multiSoftmaxLoop (Y : Mat ℝ) : List Nat → Nat → Except PyErr Unit
  | [], _ => .ok ()
  | outSize :: nOs, i => do
    let _ ← (Y.colBlock i (i + outSize)).softmax 1
    multiSoftmaxLoop Y nOs (i + outSize)

/-- thinc/layers/multisoftmax.py:29-45 `forward` -/
noncomputable def multiSoftmax (W b : Nat) (nOs : List Nat) : Layer := fun _ P X => do
  let X ← X.asArr
  let Y ← addBias (← gemm X (P W) false true) (P b)
  multiSoftmaxLoop Y nOs 0
  return (.arr Y, fun dY G => do denseBackprop W b false P X (← dY.asArr) G)

end Thinc
