import Verif.Model.SoftmaxLayer
import Verif.Model.Pooling
import Verif.Model.LayerNorm
/-!
# The pooling layers
-/
namespace Thinc

/-- thinc/layers/reduce_sum.py:17-26 `forward` -/
noncomputable def reduceSumLayer : Layer := fun _ _ Xr => do
  let lengths ← Xr.lengths
  let Y ← reduceSum (← Xr.raggedData) (lengths.map Int.ofNat)
  let backprop : Callback := fun dY G => do
    let dY ← dY.asArr
    checkConsistency Y dY
    return (.ragged (← backpropReduceSum dY (lengths.map Int.ofNat)) lengths, G)
  return (.arr Y, backprop)

/-- thinc/layers/reduce_mean.py:17-27 `forward` -/
noncomputable def reduceMeanLayer : Layer := fun _ _ Xr => do
  let lengths ← Xr.lengths
  let Y ← reduceMean (← Xr.raggedData) (lengths.map Int.ofNat)
  let backprop : Callback := fun dY G => do
    let dY ← dY.asArr
    checkConsistency Y dY
    return (.ragged (← backpropReduceMean dY (lengths.map Int.ofNat)) lengths, G)
  return (.arr Y, backprop)

/-- thinc/layers/reduce_max.py:17-26 `forward`; `junk` is the content of an uninitialised array. -/
noncomputable def reduceMaxLayer (junk : Nat → ℝ) : Layer := fun _ _ Xr => do
  let lengths ← Xr.lengths
  let (Y, which) ← reduceMax junk (← Xr.raggedData) (lengths.map Int.ofNat)
  let backprop : Callback := fun dY G => do
    let dY ← dY.asArr
    checkConsistency Y dY
    return (.ragged (← backpropReduceMax dY which (lengths.map Int.ofNat)) lengths, G)
  return (.arr Y, backprop)

/-- thinc/layers/reduce_first.py:18-30 `forward` -/
noncomputable def reduceFirstLayer : Layer := fun _ _ Xr => do
  let lengths ← Xr.lengths
  let (Y, startsEnds) ← reduceFirst (← Xr.raggedData) (lengths.map Int.ofNat)
  let backprop : Callback := fun dY G => do
    let dY ← dY.asArr
    checkConsistency Y dY
    let dX ← backpropReduceFirst dY startsEnds
    return (.ragged dX lengths, G)
  return (.arr Y, backprop)

/-- thinc/layers/reduce_last.py:18-29 `forward` -/
noncomputable def reduceLastLayer : Layer := fun _ _ Xr => do
  let lengths ← Xr.lengths
  let (Y, lasts) ← reduceLast (← Xr.raggedData) (lengths.map Int.ofNat)
  let backprop : Callback := fun dY G => do
    let dY ← dY.asArr
    checkConsistency Y dY
    let dX ← backpropReduceLast dY lasts
    return (.ragged dX lengths, G)
  return (.arr Y, backprop)

end Thinc
