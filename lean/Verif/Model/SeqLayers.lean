import Verif.Model.Layer
import Verif.Model.WithLayers
/-!
# The sequence wrappers and conversion layers, with parameters

`Verif.Model.WithLayers` models these layers as functions of sequences.  Here they are layers as in `Verif.Model.Layer`, with
the training flag, parameters and parameter gradients, on two-dimensional float arrays.
-/
namespace Thinc

/-! ### Arrays as lists of rows -/

/-- The rows of an array. -/
def Mat.toArr {α : Type} (A : Mat α) : Arr α :=
  ⟨[A.cols], (List.range A.rows).map fun i => (List.range A.cols).map fun j => A.at i j⟩

/-- The array with these rows. -/
def Arr.toMat {α : Type} [Zero α] (x : Arr α) : Mat α := Mat.ofFn x.len x.tail.prod fun i j => (x.rows.getD i []).getD j 0

/-- `A.reshape((d0, d1, -1))` -/
def Mat.toArr3 (A : Mat ℝ) (d0 d1 : Nat) : Arr3 ℝ :=
  ⟨d0, d1, [A.cols], (List.range d0).map fun t => (List.range d1).map fun b =>
    (List.range A.cols).map fun j => A.at (t * d1 + b) j⟩

/-- `x.reshape((d0 * d1, -1))` -/
def Arr3.toMat (x : Arr3 ℝ) : Mat ℝ :=
  Mat.ofFn (x.d0 * x.d1) x.tail.prod fun k j => (x.cell (k / x.d1) (k % x.d1)).getD j 0

/-- A list of arrays. -/
def Val.arrays (v : Val) : Except PyErr (List (Arr ℝ)) := do
  let vs ← v.items
  let As ← vs.mapM Val.asArr
  return As.map Mat.toArr

/-- The same as a value. -/
def Val.ofArrays (Xs : List (Arr ℝ)) : Val := .list (Xs.map fun x => .arr x.toMat)

/-- A `Ragged`.  (The trailing shape of the original array, `data_shape`, is the width.) -/
def Val.asRagged : Val → Except PyErr (Ragged ℝ)
  | .ragged A lengths => .ok ⟨A.toArr, lengths, [A.cols]⟩
  | _ => .error .attributeError

/-- The same as a value. -/
def Val.ofRagged (r : Ragged ℝ) : Val := .ragged r.data.toMat r.lengths

/-- A `Padded`.  (Its second axis is the number of sequences.) -/
def Val.asPadded : Val → Except PyErr (Padded ℝ)
  | .padded A steps sizeAtT lengths indices => .ok ⟨A.toArr3 steps lengths.length, sizeAtT, lengths, indices⟩
  | _ => .error .attributeError

/-- The same as a value. -/
def Val.ofPadded (p : Padded ℝ) : Val := .padded p.data.toMat p.data.d0 p.sizeAtT p.lengths p.indices

/-! ### Conversion layers -/

/-- thinc/layers/list2ragged.py:20-25 `forward` -/
def list2raggedL : Layer := fun _ _ Xs => do
  let Xs ← Xs.arrays
  let lengths := Xs.map Arr.len
  let Xf ← opsFlatten Xs 0
  let backprop : Callback := fun dYr G => do
    let dYr ← dYr.asRagged
    return (Val.ofArrays (← opsUnflatten dYr.data dYr.lengths 0), G)
  return (Val.ofRagged (Ragged.make Xf lengths), backprop)

/-- thinc/layers/ragged2list.py:17-25 `forward` -/
def ragged2listL : Layer := fun _ _ Xr => do
  let Xr ← Xr.asRagged
  let Ys ← opsUnflatten Xr.dataXd Xr.lengths 0
  let backprop : Callback := fun dXs G => do
    let dXf ← opsFlatten (← dXs.arrays) 0
    return (Val.ofRagged (Ragged.make dXf Xr.lengths), G)
  return (Val.ofArrays Ys, backprop)

/-- thinc/layers/list2array.py:24-30 `forward` -/
def list2arrayL : Layer := fun _ _ Xs => do
  let Xs ← Xs.arrays
  let lengths := Xs.map Arr.len
  let Y ← opsFlatten Xs 0
  let backprop : Callback := fun dY G => do
    let dY ← dY.asArr
    return (Val.ofArrays (← opsUnflatten dY.toArr lengths 0), G)
  return (.arr Y.toMat, backprop)

/-- thinc/layers/list2padded.py:17-23 `forward` -/
def list2paddedL : Layer := fun _ _ Xs => do
  let Yp ← list2padded (← Xs.arrays)
  let backprop : Callback := fun dYp G => do
    return (Val.ofArrays (← unpadList (← dYp.asPadded)), G)
  return (Val.ofPadded Yp, backprop)

/-- thinc/layers/padded2list.py:17-27 `forward` -/
def padded2listL : Layer := fun _ _ Xp => do
  let Ys ← unpadList (← Xp.asPadded)
  let backprop : Callback := fun dYs G => do
    return (Val.ofPadded (← list2padded (← dYs.arrays)), G)
  return (Val.ofArrays Ys, backprop)

/-! ### with_array and with_array2d -/

/-- thinc/layers/with_array.py:70-84 and thinc/layers/with_array2d.py:72-86 `_list_forward` -/
def withArrayListL (layer : Layer) (pad : Nat) : Layer := fun train P Xs => do
  let Xs ← Xs.arrays
  let lengths := Xs.map Arr.len
  let Xf ← opsFlatten Xs pad
  let (Yf, getDXf) ← layer train P (.arr Xf.toMat)
  let Ys ← opsUnflatten (← Yf.asArr).toArr lengths pad
  let backprop : Callback := fun dYs G => do
    let dYf ← opsFlatten (← dYs.arrays) pad
    let (dXf, G) ← getDXf (.arr dYf.toMat) G
    return (Val.ofArrays (← opsUnflatten (← dXf.asArr).toArr lengths pad), G)
  return (Val.ofArrays Ys, backprop)

/-- thinc/layers/with_array.py:87-96 and thinc/layers/with_array2d.py:89-99 `_ragged_forward`.  (The `reshape` in the second
one does nothing to two-dimensional data.) -/
def withArrayRaggedL (layer : Layer) : Layer := fun train P Xr => do
  let Xr ← Xr.asRagged
  let (Y, getDX) ← layer train P (.arr Xr.dataXd.toMat)
  let Y ← Y.asArr
  let backprop : Callback := fun dYr G => do
    let dYr ← dYr.asRagged
    let (dX, G) ← getDX (.arr dYr.dataXd.toMat) G
    return (Val.ofRagged (Ragged.make (← dX.asArr).toArr dYr.lengths), G)
  return (Val.ofRagged (Ragged.make Y.toArr Xr.lengths), backprop)

/-- The two-dimensional form of the data of a `Padded`, and its metadata. -/
def Val.paddedParts : Val → Except PyErr (Mat ℝ × Nat × List Nat × List Nat × List Nat)
  | .padded A steps sizeAtT lengths indices => .ok (A, steps, sizeAtT, lengths, indices)
  | _ => .error .assertionError

/-- `reshape3f(A, d0, d1, A.shape[1])` for the data of a `Padded` with `rows` = `d0 * d1` cells: an error unless there are as
many rows. -/
def reshapeCells (A : Mat ℝ) (rows : Nat) : Except PyErr (Mat ℝ) :=
  if A.rows = rows then .ok A else .error .valueError

/-- thinc/layers/with_array2d.py:102-125 `_padded_forward` -/
def withArray2dPaddedL (layer : Layer) : Layer := fun train P Xp => do
  let (X, steps, sizeAtT, lengths, indices) ← Xp.paddedParts
  let (Y, getDX) ← layer train P (.arr X)
  let Y ← reshapeCells (← Y.asArr) X.rows
  let backprop : Callback := fun dYp G => do
    let (dY, dSteps, dSizeAtT, dLengths, dIndices) ← dYp.paddedParts
    let (dX, G) ← getDX (.arr dY) G
    let dX ← reshapeCells (← dX.asArr) dY.rows
    return (.padded dX dSteps dSizeAtT dLengths dIndices, G)
  return (.padded Y steps sizeAtT lengths indices, backprop)

/-- thinc/layers/with_array2d.py:31-43 `forward`, and thinc/layers/with_array.py:32-42 `forward` for everything but a
`Padded` (there `with_array` gives the layer a three-dimensional array, see `Verif.Model.WithLayers`). -/
def withArray2dL (layer : Layer) (pad : Nat) : Layer := fun train P Xseq =>
  match Xseq with
  | .ragged _ _ => withArrayRaggedL layer train P Xseq
  | .padded _ _ _ _ _ => withArray2dPaddedL layer train P Xseq
  | .list _ => withArrayListL layer pad train P Xseq
  | .tup _ => withArrayListL layer pad train P Xseq
  | .arr _ => layer train P Xseq
  | .ints _ => layer train P Xseq
  | .intMat _ => layer train P Xseq

/-! ### with_list -/

/-- thinc/layers/with_list.py:51-69 `_ragged_forward` -/
def withListRaggedL (layer : Layer) : Layer := fun train P Xr => do
  let Xr ← Xr.asRagged
  let (Ys, getDXs) ← layer train P (Val.ofArrays (← opsUnflatten Xr.data Xr.lengths 0))
  let Yf ← opsFlatten (← Ys.arrays) 0
  let backprop : Callback := fun dYr G => do
    let dYr ← dYr.asRagged
    let (dXs, G) ← getDXs (Val.ofArrays (← opsUnflatten dYr.data dYr.lengths 0)) G
    return (Val.ofRagged (Ragged.make (← opsFlatten (← dXs.arrays) 0) dYr.lengths), G)
  return (Val.ofRagged (Ragged.make Yf Xr.lengths), backprop)

/-- thinc/layers/with_list.py:72-87 `_padded_forward` -/
def withListPaddedL (layer : Layer) : Layer := fun train P Xp => do
  let (Ys, getDXs) ← layer train P (Val.ofArrays (← unpadList (← Xp.asPadded)))
  let Yp ← list2padded (← Ys.arrays)
  let backprop : Callback := fun dYp G => do
    let (dXs, G) ← getDXs (Val.ofArrays (← unpadList (← dYp.asPadded))) G
    return (Val.ofPadded (← list2padded (← dXs.arrays)), G)
  return (Val.ofPadded Yp, backprop)

/-- thinc/layers/with_list.py:21-30 `forward` -/
def withListL (layer : Layer) : Layer := fun train P Xseq =>
  match Xseq with
  | .padded _ _ _ _ _ => withListPaddedL layer train P Xseq
  | .ragged _ _ => withListRaggedL layer train P Xseq
  | .list _ => layer train P Xseq
  | .tup _ => layer train P Xseq
  | .arr _ => layer train P Xseq
  | .ints _ => layer train P Xseq
  | .intMat _ => layer train P Xseq

/-! ### with_ragged -/

/-- thinc/layers/with_ragged.py:114-128 `_list_forward` -/
def withRaggedListL (layer : Layer) : Layer := fun train P Xs => do
  let Xs ← Xs.arrays
  let lengths := Xs.map Arr.len
  let (Yr, getDXr) ← layer train P (Val.ofRagged (Ragged.make (← opsFlatten Xs 0) lengths))
  let Yr ← Yr.asRagged
  let Ys ← opsUnflatten Yr.data Yr.lengths 0
  let backprop : Callback := fun dYs G => do
    let flattened ← opsFlatten (← dYs.arrays) 0
    let (dXr, G) ← getDXr (Val.ofRagged (Ragged.make flattened lengths)) G
    return (Val.ofArrays (← opsUnflatten (← dXr.asRagged).data lengths 0), G)
  return (Val.ofArrays Ys, backprop)

/-- thinc/layers/with_ragged.py:82-111 `_padded_forward` -/
def withRaggedPaddedL (layer : Layer) : Layer := fun train P Xp => do
  let Xs ← unpadList (← Xp.asPadded)
  let lengths := Xs.map Arr.len
  let (Yr, getDXr) ← layer train P (Val.ofRagged (Ragged.make (← opsFlatten Xs 0) lengths))
  let Yr ← Yr.asRagged
  let Yp ← list2padded (← opsUnflatten Yr.data Yr.lengths 0)
  let backprop : Callback := fun dYp G => do
    let flattened ← opsFlatten (← unpadList (← dYp.asPadded)) 0
    let (dXr, G) ← getDXr (Val.ofRagged (Ragged.make flattened lengths)) G
    return (Val.ofPadded (← list2padded (← opsUnflatten (← dXr.asRagged).data lengths 0)), G)
  return (Val.ofPadded Yp, backprop)

/-- thinc/layers/with_ragged.py:20-36 `forward`.  A tuple of two (70-79) is taken to be data and lengths; its lengths would be
an integer array, and two float arrays raise, which is simplified to TypeError here. -/
def withRaggedL (layer : Layer) : Layer := fun train P Xseq =>
  match Xseq with
  | .ragged _ _ => layer train P Xseq
  | .padded _ _ _ _ _ => withRaggedPaddedL layer train P Xseq
  | .tup [_, _] => .error .typeError
  | _ => withRaggedListL layer train P Xseq

/-! ### with_padded -/

/-- thinc/layers/with_padded.py:107-128 `_ragged_forward` -/
def withPaddedRaggedL (layer : Layer) : Layer := fun train P Xr => do
  let Xr ← Xr.asRagged
  let (Yp, getDXp) ← layer train P (Val.ofPadded (← list2padded (← opsUnflatten Xr.data Xr.lengths 0)))
  let flattened ← opsFlatten (← unpadList (← Yp.asPadded)) 0
  let backprop : Callback := fun dYr G => do
    let dYr ← dYr.asRagged
    let (dXp, G) ← getDXp (Val.ofPadded (← list2padded (← opsUnflatten dYr.data dYr.lengths 0))) G
    let flattened ← opsFlatten (← unpadList (← dXp.asPadded)) 0
    return (Val.ofRagged (Ragged.make flattened dYr.lengths), G)
  return (Val.ofRagged (Ragged.make flattened Xr.lengths), backprop)

/-- thinc/layers/with_padded.py:131-143 `_list_forward` -/
def withPaddedListL (layer : Layer) : Layer := fun train P Xs => do
  let (Yp, getDXp) ← layer train P (Val.ofPadded (← list2padded (← Xs.arrays)))
  let Ys ← unpadList (← Yp.asPadded)
  let backprop : Callback := fun dYs G => do
    let (dXp, G) ← getDXp (Val.ofPadded (← list2padded (← dYs.arrays))) G
    return (Val.ofArrays (← unpadList (← dXp.asPadded)), G)
  return (Val.ofArrays Ys, backprop)

/-- thinc/layers/with_padded.py:23-43 `forward`, without the variants for a tuple of four arrays and for a three-dimensional
array. -/
def withPaddedL (layer : Layer) : Layer := fun train P Xseq =>
  match Xseq with
  | .padded _ _ _ _ _ => layer train P Xseq
  | .ragged _ _ => withPaddedRaggedL layer train P Xseq
  | _ => withPaddedListL layer train P Xseq

end Thinc
