import Verif.Model.SeqLayers
import Verif.Model.Uniqued
/-!
# Layers on sequences of integer arrays

The first layers of a model for text: features are integers, one row per token.
-/
namespace Thinc

/-- A two-dimensional array of integers. -/
def Val.asIntMat : Val → Except PyErr (Mat ℤ)
  | .intMat A => .ok A
  | _ => .error .attributeError

/-- thinc/layers/hashembed.py:36-55 `HashEmbed` with a column: `chain(ints_getitem((slice(0, None), column)), model)`. -/
noncomputable def hashEmbedColumn (column : ℤ) (E : ℕ) (seed : BitVec 32) (dropout : Option ℝ) (coinflips : ℕ → ℕ → ℝ)
    (fast : Bool) : Layer :=
  chain [intsGetitemColumn column, hashEmbed E seed dropout coinflips fast]

/-- A list of two-dimensional integer arrays. -/
def Val.intArrays (v : Val) : Except PyErr (List (Arr ℤ)) := do
  let vs ← v.items
  let As ← vs.mapM Val.asIntMat
  return As.map Mat.toArr

/-- The gradient of a flattened array of integers, integers or floats, cut into the gradients of its parts
(thinc/backends/ops.py:364-379 `Ops.unflatten`). -/
def Val.unflatten (v : Val) (lengths : List ℕ) (pad : ℕ) : Except PyErr Val :=
  match v with
  | .arr A => (opsUnflatten A.toArr lengths pad).map Val.ofArrays
  | .intMat A => (opsUnflatten A.toArr lengths pad).map fun xs => .list (xs.map fun x => .intMat x.toMat)
  | _ => .error .typeError

/-- thinc/layers/with_array.py:70-84 `_list_forward` for a list of integer arrays: the output of the layer are floats. -/
def withArrayIdsL (layer : Layer) (pad : ℕ) : Layer := fun train P Xs => do
  let Xs ← Xs.intArrays
  let lengths := Xs.map Arr.len
  let Xf ← opsFlatten Xs pad
  let (Yf, getDXf) ← layer train P (.intMat Xf.toMat)
  let Ys ← opsUnflatten (← Yf.asArr).toArr lengths pad
  let backprop : Callback := fun dYs G => do
    let dYf ← opsFlatten (← dYs.arrays) pad
    let (dXf, G) ← getDXf (.arr dYf.toMat) G
    return (← dXf.unflatten lengths pad, G)
  return (Val.ofArrays Ys, backprop)

end Thinc
