import Verif.Model.Activations
import Verif.Model.Pooling
/-!
# Softmax

`softmax` works along one axis.  The other axes together are the index set `ι`, the axis has `n`
entries.  Real arithmetic; a temperature of 0 divides by zero in NumPy (infinities and NaN), which is
not modelled: the theorems assume a positive temperature.
-/
namespace Thinc
open Real
variable {ι : Type}

/-- `xp.max` along an axis with at least one entry. -/
noncomputable def rowMax {n : Nat} (x : Fin (n + 1) → ℝ) : ℝ := Finset.univ.sup' Finset.univ_nonempty x

/-- `xp.max(x, axis, keepdims=True)`: without entries along the axis there is no maximum (ValueError),
unless there are no rows either. -/
noncomputable def npMax [Fintype ι] : {n : Nat} → (ι → Fin n → ℝ) → Except PyErr (ι → ℝ)
  | 0, _ => if Fintype.card ι = 0 then .ok (fun _ => 0) else .error .valueError
  | _ + 1, x => .ok (fun i => rowMax (x i))

/-- thinc/backends/ops.py:811-825 `Ops.softmax` (`inplace` is ignored by the code). -/
noncomputable def softmax [Fintype ι] {n : Nat} (temperature : ℝ) (x : ι → Fin n → ℝ) :
    Except PyErr (ι → Fin n → ℝ) := do
  let x := if temperature ≠ 1 then fun i k => x i k / temperature else x
  let maxes ← npMax x
  let shifted := fun i k => x i k - maxes i
  let newX := fun i k => exp (shifted i k)
  return fun i k => newX i k / ∑ j, newX i j

/-- thinc/backends/ops.py:840-848 `Ops.backprop_softmax`. -/
noncomputable def backpropSoftmax {n : Nat} (temperature : ℝ) (Y dY : ι → Fin n → ℝ) : ι → Fin n → ℝ :=
  let dY := if temperature ≠ 1 then fun i k => dY i k / temperature else dY
  let dX := fun i k => Y i k * dY i k
  fun i k => dX i k - Y i k * ∑ j, dX i j

/-! ### Softmax over sequences -/

/-- The number of rows NumPy gives to an elementwise operation on arrays of equal width. -/
def broadcastRows (a b : Nat) : Except PyErr Nat :=
  if a = b then .ok a else if a = 1 then .ok b else if b = 1 then .ok a else .error .valueError

/-- Row `i` of an array that is broadcast along its rows. -/
def Mat.bat {K : Type} (A : Mat K) (i j : Nat) : K := if A.rows = 1 then A.at 0 j else A.at i j

/-- `f(A, B)` elementwise with broadcasting of the rows. -/
def npZip {K : Type} (f : K → K → K) (A B : Mat K) : Except PyErr (Mat K) := do
  let r ← broadcastRows A.rows B.rows
  return Mat.ofFn r A.cols (fun i j => f (A.bat i j) (B.bat i j))

/-- `A f= B`: the result must fit into `A`. -/
def npZipInplace {K : Type} (f : K → K → K) (A B : Mat K) : Except PyErr (Mat K) := do
  let r ← broadcastRows A.rows B.rows
  if r ≠ A.rows then .error .valueError
  else return Mat.ofFn A.rows A.cols (fun i j => f (A.at i j) (B.bat i j))

/-- An elementwise function of a matrix. -/
def Mat.map {K L : Type} (f : K → L) (A : Mat K) : Mat L := ⟨A.rows, A.cols, fun k => f (A.val k)⟩

/-- thinc/backends/ops.py:827-838 `Ops.softmax_sequences`, with `NumpyOps.reduce_sum` and
`NumpyOps.backprop_reduce_sum`.  The argument is two-dimensional, so the check of `ndim` passes. -/
noncomputable def softmaxSequences (Xs : Mat ℝ) (lengths : List Int) : Except PyErr (Mat ℝ) := do
  let Xs := Xs.map (fun x => npClip x (-20) 20)
  let newX := Xs.map exp
  let s ← reduceSum newX lengths
  let summed ← backpropReduceSum s lengths
  npZipInplace (· / ·) newX summed

/-- thinc/backends/ops.py:850-856 `Ops.backprop_softmax_sequences`. -/
noncomputable def backpropSoftmaxSequences (dY Y : Mat ℝ) (lengths : List Int) : Except PyErr (Mat ℝ) := do
  let dX ← npZip (· * ·) Y dY
  let s ← reduceSum dX lengths
  let sumdX ← backpropReduceSum s lengths
  let t ← npZip (· * ·) Y sumdX
  npZipInplace (· - ·) dX t

end Thinc
