import Verif.Model.Layer
import Verif.Model.Seq2col
/-!
# expand_window
-/
namespace Thinc

/-- thinc/layers/expand_window.py:29-33: `Y` in `_expand_window_floats`.  `ops.tile(X, 2 * nW + 1)` of an array without rows is an
array without rows. -/
noncomputable def windowFloats (nW : Nat) (X : Mat ℝ) : Except PyErr (Mat ℝ) :=
  if X.rows > 0 then seq2col X nW none else .ok (Mat.zeros 0 (X.cols * (nW * 2 + 1)))

/-- thinc/layers/expand_window.py:25-38 `_expand_window_floats` -/
noncomputable def expandWindowFloats (nW : Nat) (X : Mat ℝ) : Except PyErr (Val × Callback) := do
  let Y ← windowFloats nW X
  let backprop : Callback := fun dY G => do
    return (.arr (← backpropSeq2col (← dY.asArr) nW none), G)
  return (.arr Y, backprop)

/-- thinc/layers/expand_window.py:41-57 `_expand_window_ragged` -/
noncomputable def expandWindowRagged (nW : Nat) (X : Mat ℝ) (lengths : List Nat) : Except PyErr (Val × Callback) := do
  let Y ← seq2col X nW (some (lengths.map Int.ofNat))
  let backprop : Callback := fun dYr G => do
    return (.ragged (← backpropSeq2col (← dYr.raggedData) nW (some (lengths.map Int.ofNat))) lengths, G)
  return (.ragged Y lengths, backprop)

/-- thinc/layers/expand_window.py:18-22 `forward` -/
noncomputable def expandWindow (nW : Nat) : Layer := fun _ _ X =>
  match X with
  | .ragged X lengths => expandWindowRagged nW X lengths
  | X => do expandWindowFloats nW (← X.asArr)

end Thinc
