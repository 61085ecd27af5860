import Verif.Model.Layer
import Verif.Model.Maxout
/-!
# The Maxout layer
-/
namespace Thinc

/-- thinc/backends/ops.py:629-633 and 661-665 `reshape2f`, and `reshape1f` for `r = 1`: the memory of a C-contiguous array stays as it is;
ValueError if the sizes differ. -/
def Mat.reshape {α : Type} (A : Mat α) (r c : Nat) : Except PyErr (Mat α) :=
  if A.rows * A.cols = r * c then .ok ⟨r, c, A.val⟩ else .error .valueError

/-- thinc/backends/ops.py:635-636 `reshape3f` -/
def Mat.reshape3 {α : Type} (A : Mat α) (d0 d1 d2 : Nat) : Except PyErr (Cube α) :=
  if A.rows * A.cols = d0 * d1 * d2 then .ok ⟨d0, d1, d2, A.val⟩ else .error .valueError

/-- `reshape2f` of a three-dimensional array. -/
def Cube.reshape2 {α : Type} (A : Cube α) (r c : Nat) : Except PyErr (Mat α) :=
  if A.d0 * A.d1 * A.d2 = r * c then .ok ⟨r, c, A.val⟩ else .error .valueError

/-- `x.sum(axis=0)` of a three-dimensional array. -/
noncomputable def Cube.sum0 (A : Cube ℝ) : Mat ℝ := Mat.ofFn A.d1 A.d2 fun o p => ∑ b ∈ Finset.range A.d0, A.at b o p

/-- thinc/layers/maxout.py:45-66 `forward`.  The parameter `W` of shape `(nO, nP, nI)` is stored here as an array of
`nO * nP` rows, which is the same memory, so that the reshape of its gradient to three dimensions disappears.  `junk` and
`junkW` are the contents of the uninitialised arrays of `NumpyOps.maxout`. -/
noncomputable def maxoutLayer (junk : Nat → ℝ) (junkW : Nat → Int) (W b nO nP nI : Nat) : Layer := fun _ P X => do
  let X ← X.asArr
  let W2 ← (P W).reshape (nO * nP) nI
  let Y ← gemm X W2 false true
  let b1 ← (P b).reshape 1 (nO * nP)
  let Y ← npUpdate (· + ·) Y b1
  let Z ← Y.reshape3 Y.rows nO nP
  let (best, which) ← maxout junk junkW Z
  let backprop : Callback := fun dbest G => do
    let dbest ← dbest.asArr
    let dZ ← backpropMaxout dbest which nP
    let G ← incGrad G b dZ.sum0
    let dY ← dZ.reshape2 dZ.d0 (nO * nP)
    let G ← incGrad G W (← gemm dY X true false)
    return (.arr (← gemm dY W2 false false), G)
  return (.arr best, backprop)

end Thinc
