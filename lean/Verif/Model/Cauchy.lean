import Verif.Model.SoftmaxLayer
import Verif.Model.LayerNorm
/-!
# The CauchySimilarity layer
-/
namespace Thinc

/-- `X1, X2 = X1_X2` with two matrices. -/
def Val.twoArrs : Val → Except PyErr (Mat ℝ × Mat ℝ)
  | .tup [a, b] => do return (← a.asArr, ← b.asArr)
  | .tup _ => .error .valueError
  | _ => .error .typeError

/-- thinc/layers/cauchysimilarity.py:58-64 `inverse`: a one-dimensional array is a matrix with one row. -/
noncomputable def cauchyInverse (total : Mat ℝ) : Mat ℝ × (Mat ℝ → Except PyErr (Mat ℝ)) :=
  (total.mapEntries (fun t => 1.0 / (1 + t)),
    fun dInverse => npBinary (· * ·) dInverse (total.mapEntries (fun t => -1 / (t + 1) ^ 2)))

/-- thinc/layers/cauchysimilarity.py:26-44 `forward`.  A one-dimensional array is a matrix with one row: the sum over the
columns is `rowSums` turned into a row, and `reshape2f(…, -1, 1)` turns a row into a column.  Division by zero is not
modelled: numpy gives infinity. -/
noncomputable def cauchySimilarity (W : Nat) : Layer := fun _ P X1X2 => do
  let (X1, X2) ← X1X2.twoArrs
  let diff ← npBinary (· - ·) X1 X2
  let squareDiff := diff.mapEntries (· ^ 2)
  let total := (← npBinary (· * ·) (P W) squareDiff).rowSums.transpose
  let (sim, bpSim) := cauchyInverse total
  let backprop : Callback := fun dSim G => do
    let dTotal := (← bpSim (← dSim.asArr)).transpose
    let G ← incGrad G W (← npBinary (· * ·) dTotal squareDiff).colSums
    let dSquareDiff ← npBinary (· * ·) (P W) dTotal
    let dDiff ← npBinary (· * ·) (dSquareDiff.mapEntries (2 * ·)) diff
    return (.tup [.arr dDiff, .arr (dDiff.mapEntries (- ·))], G)
  return (.arr sim, backprop)

end Thinc
