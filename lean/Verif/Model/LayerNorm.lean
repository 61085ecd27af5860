import Verif.Model.Layer
/-!
# LayerNorm
-/
namespace Thinc

/-- `A.sum(axis=1, keepdims=True)` -/
noncomputable def Mat.rowSums (A : Mat ℝ) : Mat ℝ := Mat.ofFn A.rows 1 (fun i _ => ∑ j ∈ Finset.range A.cols, A.at i j)

/-- `A.mean(axis=1, keepdims=True)`; for arrays without columns numpy gives NaN, here 0. -/
noncomputable def Mat.rowMeans (A : Mat ℝ) : Mat ℝ :=
  Mat.ofFn A.rows 1 (fun i _ => (∑ j ∈ Finset.range A.cols, A.at i j) / A.cols)

/-- `A.var(axis=1, keepdims=True)`: the mean of the squared distances from the mean. -/
noncomputable def Mat.rowVars (A : Mat ℝ) : Mat ℝ :=
  Mat.ofFn A.rows 1 (fun i _ => (∑ j ∈ Finset.range A.cols, (A.at i j - A.rowMeans.at i 0) ^ 2) / A.cols)

/-- An elementwise function of an array. -/
def Mat.mapEntries (f : ℝ → ℝ) (A : Mat ℝ) : Mat ℝ := Mat.ofFn A.rows A.cols (fun i j => f (A.at i j))

/-- thinc/layers/layernorm.py:72-76 `_get_moments`; `N` is a number here, in the code an array of size one. -/
noncomputable def lnMoments (X : Mat ℝ) : ℝ × Mat ℝ × Mat ℝ :=
  (X.cols, X.rowMeans, X.rowVars.mapEntries (· + 1e-08))

/-- thinc/layers/layernorm.py:79-87 `_get_d_moments` -/
noncomputable def lnDMoments (dy X mu : Mat ℝ) : Except PyErr (Mat ℝ × Mat ℝ × Mat ℝ) := do
  let dist ← npBinary (· - ·) X mu
  return (dist, dy.rowSums, (← npBinary (· * ·) dy dist).rowSums)

/-- thinc/layers/layernorm.py:58-69 `_begin_update_scale_shift` -/
noncomputable def lnScaleShift (Gp b : Nat) (P : ParamVals) (X : Mat ℝ) :
    Except PyErr (Mat ℝ × (Mat ℝ → GradStore → Except PyErr (Mat ℝ × GradStore))) := do
  let Y ← npUpdate (· + ·) (← npBinary (· * ·) X (P Gp)) (P b)
  return (Y, fun dY G => do
    let G ← incGrad G b dY.colSums
    let G ← incGrad G Gp (← npBinary (· * ·) dY X).colSums
    return (← npBinary (· * ·) dY (P Gp), G))

/-- thinc/layers/layernorm.py:23-36 `forward` -/
noncomputable def layerNorm (Gp b : Nat) : Layer := fun _ P X => do
  let X ← X.asArr
  let (N, mu, var) := lnMoments X
  let Xhat ← npBinary (· * ·) (← npBinary (· - ·) X mu) (var.mapEntries (· ^ (-1.0 / 2.0 : ℝ)))
  let (Y, backpropRescale) ← lnScaleShift Gp b P Xhat
  let backprop : Callback := fun dY G => do
    let (dY, G) ← backpropRescale (← dY.asArr) G
    let (dist, sumDy, sumDyDist) ← lnDMoments dY X mu
    let dXhat ← npBinary (· - ·) (← npBinary (· - ·) (dY.mapEntries (N * ·)) sumDy)
      (← npBinary (· * ·) (← npBinary (· * ·) dist (var.mapEntries (· ^ (-1.0 : ℝ)))) sumDyDist)
    let dXhat ← npUpdate (· * ·) dXhat (var.mapEntries (· ^ (-1.0 / 2 : ℝ)))
    return (.arr (dXhat.mapEntries (· / N)), G)
  return (.arr Y, backprop)

end Thinc
