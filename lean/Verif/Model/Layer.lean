import Verif.Model.Loss
import Verif.Model.PySlice
/-!
# Layers and combinators

A layer is its forward function: given the training flag, the parameters and an input it gives an
output and a callback, or raises.  The callback maps the gradient of the output to the gradient of the
input and updates the parameter gradients.

Values are dynamically typed, as in Python.  They are immutable here: an in-place operation on an array
that the caller also holds is not visible in this model.  `Verif.Model.LayerHeap` models `chain`, `add` and
`residual` with shared arrays.

Arrays of floats are two-dimensional, parameters as well: a one-dimensional parameter is a matrix with
one row.  Real arithmetic.
-/
namespace Thinc
open Real Classical

/-- What a layer takes and gives. -/
inductive Val where
  /-- a two-dimensional float array -/
  | arr (A : Mat ℝ)
  /-- a `Ragged` -/
  | ragged (A : Mat ℝ) (lengths : List Nat)
  /-- a `Padded`, its data reshaped to two dimensions (time and batch together); `steps` is the size of
  the first axis -/
  | padded (A : Mat ℝ) (steps : Nat) (sizeAtT lengths indices : List Nat)
  /-- an integer array -/
  | ints (ks : List Int)
  /-- a two-dimensional integer array -/
  | intMat (A : Mat Int)
  /-- a Python list -/
  | list (vs : List Val)
  /-- a Python tuple -/
  | tup (vs : List Val)

/-- The parameters of all nodes (their values do not change during a forward and backward pass). -/
abbrev ParamVals := Nat → Mat ℝ

/-- The parameter gradients of all nodes, thinc/backends/_param_server.py `ParamServer._grads`. -/
abbrev GradStore := Nat → Option (Mat ℝ)

/-- A `backprop` callback. -/
abbrev Callback := Val → GradStore → Except PyErr (Val × GradStore)

/-- thinc/model.py:307-310 `Model.__call__`: the forward function of a model. -/
abbrev Layer := Bool → ParamVals → Val → Except PyErr (Val × Callback)

/-- thinc/model.py:268-270 `Model.inc_grad`, thinc/backends/_param_server.py:65-79 `ParamServer.inc_grad`
(without proxy). -/
noncomputable def incGrad (G : GradStore) (p : Nat) (value : Mat ℝ) : Except PyErr GradStore :=
  match G p with
  | none => .ok (fun q => if q = p then some value else G q)
  | some g => do
    let g ← npUpdate (· + ·) g value
    return fun q => if q = p then some g else G q

/-! ### Arrays -/

/-- The size of an axis of an elementwise operation. -/
def broadcastDim (a b : Nat) : Except PyErr Nat :=
  if a = b then .ok a else if a = 1 then .ok b else if b = 1 then .ok a else .error .valueError

/-- `f(A, B)` elementwise with broadcasting of both axes. -/
def npBinary (f : ℝ → ℝ → ℝ) (A B : Mat ℝ) : Except PyErr (Mat ℝ) := do
  let r ← broadcastDim A.rows B.rows
  let c ← broadcastDim A.cols B.cols
  return Mat.ofFn r c (fun i j => f (A.at (if A.rows = 1 then 0 else i) (if A.cols = 1 then 0 else j))
    (B.at (if B.rows = 1 then 0 else i) (if B.cols = 1 then 0 else j)))

/-- `A.T` -/
def Mat.transpose (A : Mat ℝ) : Mat ℝ := Mat.ofFn A.cols A.rows (fun i j => A.at j i)

/-- `xp.dot(A, B)` of matrices. -/
noncomputable def npDot (A B : Mat ℝ) : Except PyErr (Mat ℝ) :=
  if A.cols = B.rows then .ok (Mat.ofFn A.rows B.cols (fun i j => ∑ k ∈ Finset.range A.cols, A.at i k * B.at k j))
  else .error .valueError

/-- thinc/backends/ops.py:235-254 `Ops.gemm` and thinc/backends/numpy_ops.pyx:81-126 `NumpyOps.gemm`
(the two-dimensional case, without `out`). -/
noncomputable def gemm (x y : Mat ℝ) (trans1 trans2 : Bool) : Except PyErr (Mat ℝ) :=
  npDot (if trans1 then x.transpose else x) (if trans2 then y.transpose else y)

/-- `A.sum(axis=0)`, as a matrix with one row. -/
noncomputable def Mat.colSums (A : Mat ℝ) : Mat ℝ := Mat.ofFn 1 A.cols (fun _ j => ∑ i ∈ Finset.range A.rows, A.at i j)

/-- `A[:, start:stop]`; Python slices stop at the end of the axis. -/
def Mat.colBlock (A : Mat ℝ) (start stop : Nat) : Mat ℝ :=
  Mat.ofFn A.rows (min stop A.cols - min start A.cols) (fun i j => A.at i (min start A.cols + j))

/-- `A[start:stop]` -/
def Mat.rowBlock (A : Mat ℝ) (start stop : Nat) : Mat ℝ :=
  Mat.ofFn (min stop A.rows - min start A.rows) A.cols (fun i j => A.at (min start A.rows + i) j)

/-- `xp.hstack([A, B])` -/
def hstack2 (A B : Mat ℝ) : Except PyErr (Mat ℝ) :=
  if A.rows = B.rows then
    .ok (Mat.ofFn A.rows (A.cols + B.cols) (fun i j => if j < A.cols then A.at i j else B.at i (j - A.cols)))
  else .error .valueError

/-- `xp.hstack(As)`: an error without arrays or if the numbers of rows differ. -/
def hstack : List (Mat ℝ) → Except PyErr (Mat ℝ)
  | [] => .error .valueError
  | A :: As => forM' As A hstack2

/-- `xp.concatenate([A, B], axis=0)` -/
def vstack2 (A B : Mat ℝ) : Except PyErr (Mat ℝ) :=
  if A.cols = B.cols then
    .ok (Mat.ofFn (A.rows + B.rows) A.cols (fun i j => if i < A.rows then A.at i j else B.at (i - A.rows) j))
  else .error .valueError

/-- `xp.concatenate(As, axis=0)` -/
def vstack : List (Mat ℝ) → Except PyErr (Mat ℝ)
  | [] => .error .valueError
  | A :: As => forM' As A vstack2

/-- thinc/backends/ops.py:364-379 `Ops.unflatten` with `pad=0`: the parts of the given lengths. -/
def matUnflatten (A : Mat ℝ) : List Nat → Nat → List (Mat ℝ)
  | [], _ => []
  | n :: ns, start => A.rowBlock start (start + n) :: matUnflatten A ns (start + n)

/-! ### Values -/

/-- The array that a value is. -/
def Val.asArr : Val → Except PyErr (Mat ℝ)
  | .arr A => .ok A
  | _ => .error .attributeError

/-- The `data` of a `Ragged`. -/
def Val.raggedData : Val → Except PyErr (Mat ℝ)
  | .ragged A _ => .ok A
  | _ => .error .attributeError

/-- The members of a list or tuple. -/
def Val.items : Val → Except PyErr (List Val)
  | .list vs => .ok vs
  | .tup vs => .ok vs
  | _ => .error .typeError

/-- Python's `v += w`.  Arrays add, lists are extended and tuples concatenated; `Ragged` and `Padded`
have no addition.  (Extending a list by something else than a list or tuple is an error here.) -/
noncomputable def Val.iadd : Val → Val → Except PyErr Val
  | .arr A, .arr B => do return .arr (← npUpdate (· + ·) A B)
  | .ints a, .ints b => if a.length = b.length then .ok (.ints (List.zipWith (· + ·) a b)) else .error .valueError
  | .intMat A, .intMat B =>
    if A.rows = B.rows ∧ A.cols = B.cols then .ok (.intMat (Mat.ofFn A.rows A.cols fun i j => A.at i j + B.at i j))
    else .error .valueError
  | .list vs, .list ws => .ok (.list (vs ++ ws))
  | .list vs, .tup ws => .ok (.list (vs ++ ws))
  | .tup vs, .tup ws => .ok (.tup (vs ++ ws))
  | _, _ => .error .typeError

/-- Python's `v + w`. -/
noncomputable def Val.add : Val → Val → Except PyErr Val
  | .arr A, .arr B => do return .arr (← npBinary (· + ·) A B)
  | .list vs, .list ws => .ok (.list (vs ++ ws))
  | .tup vs, .tup ws => .ok (.tup (vs ++ ws))
  | _, _ => .error .typeError

/-- `v.data += w.data` for containers with a `data` attribute. -/
noncomputable def Val.iaddData : Val → Val → Except PyErr Val
  | .ragged A l, .ragged B _ => do return .ragged (← npUpdate (· + ·) A B) l
  | .padded A n s l i, .padded B _ _ _ _ => do return .padded (← npUpdate (· + ·) A B) n s l i
  | _, _ => .error .typeError

/-! ### chain and noop -/

/-- thinc/layers/noop.py:15-21 `forward` -/
def noop : Layer := fun _ _ X => .ok (X, fun dY G => .ok (dY, G))

/-- The forward loop of `chain`: the last output and the list of callbacks. -/
def chainLoop (train : Bool) (P : ParamVals) : List Layer → Val → List Callback → Except PyErr (Val × List Callback)
  | [], X, callbacks => .ok (X, callbacks)
  | layer :: layers, X, callbacks => do
    let (Y, incLayerGrad) ← layer train P X
    chainLoop train P layers Y (callbacks ++ [incLayerGrad])

/-- thinc/layers/chain.py:48-66 `forward`.  (Without layers `Y` is unbound; `chain` always has two.) -/
def chain (layers : List Layer) : Layer := fun train P X => do
  if layers.isEmpty then .error .unboundLocalError else
  let (Y, callbacks) ← chainLoop train P layers X []
  let backprop : Callback := fun dY G =>
    forM' callbacks.reverse (dY, G) (fun (dY, G) callback => callback dY G)
  return (Y, backprop)

/-! ### add -/

/-- The loop body of the forward pass of `add`, thinc/layers/add.py:37-40. -/
noncomputable def addForwardStep (train : Bool) (P : ParamVals) (X : Val) (s : Val × List Callback) (layer : Layer) :
    Except PyErr (Val × List Callback) := do
  let (layerY, layerCallback) ← layer train P X
  let Y ← s.1.iadd layerY
  return (Y, s.2 ++ [layerCallback])

/-- The loop body of the backward pass of `add`, thinc/layers/add.py:44-45. -/
noncomputable def addBackwardStep (dY : Val) (s : Val × GradStore) (callback : Callback) :
    Except PyErr (Val × GradStore) := do
  let (d, G) ← callback dY s.2
  let dX ← s.1.iadd d
  return (dX, G)

/-- thinc/layers/add.py:32-49 `forward` -/
noncomputable def addLayers (layers : List Layer) : Layer := fun train P X => do
  match layers with
  | [] => return (X, fun dY G => .ok (dY, G))
  | first :: rest =>
    let (Y, firstCallback) ← first train P X
    let (Y, callbacks) ← forM' rest (Y, []) (addForwardStep train P X)
    let backprop : Callback := fun dY G => do
      let (dX, G) ← firstCallback dY G
      forM' callbacks (dX, G) (addBackwardStep dY)
    return (Y, backprop)

/-! ### concatenate -/

/-- The sum of two input gradients in `_array_forward`: `dX += gradient` if `dX` has `__add__` or
`__iadd__`, else the `data` are added if it has `data` (thinc/layers/concatenate.py:78-91). -/
noncomputable def addGradient : Val → Val → Except PyErr Val
  | .ragged A l, g => Val.iaddData (.ragged A l) g
  | .padded A n s l i, g => Val.iaddData (.padded A n s l i) g
  | dX, g => dX.iadd g

/-- The loop body of the three backward passes of `concatenate`: `block start stop` is the gradient of
one layer's output, `join` sums the gradients. -/
noncomputable def concatStep (block : Nat → Nat → Val) (join : Val → Val → Except PyErr Val) (s : Val × Nat × GradStore)
    (b : Callback × Nat) : Except PyErr (Val × Nat × GradStore) := do
  let (gradient, G) ← b.1 (block s.2.1 (s.2.1 + b.2)) s.2.2
  let dX ← join s.1 gradient
  return (dX, s.2.1 + b.2, G)

/-- The three backward passes of `concatenate`. -/
noncomputable def concatBackprop (block : Nat → Nat → Val) (join : Val → Val → Except PyErr Val)
    (callbacks : List Callback) (widths : List Nat) (G : GradStore) : Except PyErr (Val × GradStore) :=
  match callbacks, widths with
  | callback :: callbacks, width :: widths => do
    let (dX, G) ← callback (block 0 width) G
    let (dX, _, G) ← forM' (callbacks.zip widths) (dX, width, G) (concatStep block join)
    return (dX, G)
  | _, _ => .error .indexError

/-- thinc/layers/concatenate.py:69-94 `_array_forward` -/
noncomputable def concatArrays (Ys : List Val) (callbacks : List Callback) : Except PyErr (Val × Callback) := do
  let Ys ← Ys.mapM Val.asArr
  let widths := Ys.map Mat.cols
  let output ← hstack Ys
  let backprop : Callback := fun dOutput G => do
    let d ← dOutput.asArr
    concatBackprop (fun start stop => .arr (d.colBlock start stop)) addGradient callbacks widths G
  return (.arr output, backprop)

/-- `v.lengths` -/
def Val.lengths : Val → Except PyErr (List Nat)
  | .ragged _ l => .ok l
  | .padded _ _ _ l _ => .ok l
  | _ => .error .attributeError

/-- `xs[0]` -/
def firstItem {α : Type} : List α → Except PyErr α
  | [] => .error .indexError
  | x :: _ => .ok x

/-- thinc/layers/concatenate.py:97-116 `_ragged_forward` -/
noncomputable def concatRagged (Ys : List Val) (callbacks : List Callback) : Except PyErr (Val × Callback) := do
  let datas ← Ys.mapM Val.raggedData
  let widths := datas.map Mat.cols
  let output ← hstack datas
  let lengths ← (← firstItem Ys).lengths
  let backprop : Callback := fun dOutput G => do
    let d ← dOutput.raggedData
    let dLengths ← dOutput.lengths
    concatBackprop (fun start stop => .ragged (d.colBlock start stop) dLengths) Val.iadd callbacks widths G
  return (.ragged output lengths, backprop)

/-- `len(x)` -/
def Val.len : Val → Except PyErr Nat
  | .arr A => .ok A.rows
  | .ints ks => .ok ks.length
  | .intMat A => .ok A.rows
  | .list vs => .ok vs.length
  | .tup vs => .ok vs.length
  | .ragged _ lengths => .ok lengths.length
  | .padded _ _ _ lengths _ => .ok lengths.length

/-- `xp.concatenate(v, axis=0)` for a list of arrays. -/
def Val.stacked (v : Val) : Except PyErr (Mat ℝ) := do
  vstack (← (← v.items).mapM Val.asArr)

/-- thinc/layers/concatenate.py:119-141 `_list_forward` -/
noncomputable def concatLists (X : Val) (Ys : List Val) (callbacks : List Callback) : Except PyErr (Val × Callback) := do
  let items ← X.items
  let lengths ← items.mapM Val.len
  let Ys ← Ys.mapM Val.stacked
  let widths := Ys.map Mat.cols
  let output ← hstack Ys
  let backprop : Callback := fun dOutput G => do
    let d ← dOutput.stacked
    concatBackprop (fun start stop => .list ((matUnflatten (d.colBlock start stop) lengths 0).map .arr))
      Val.iadd callbacks widths G
  return (.list ((matUnflatten output lengths 0).map .arr), backprop)

/-- The dispatch on the type of the first output in thinc/layers/concatenate.py:56-66 `forward`. -/
noncomputable def concatOutputs (X : Val) (Ys : List Val) (callbacks : List Callback) : Except PyErr (Val × Callback) :=
  match Ys.head? with
  | none => .error .valueError
  | some (.list _) => concatLists X Ys callbacks
  | some (.ragged _ _) => concatRagged Ys callbacks
  | some _ => concatArrays Ys callbacks

/-- thinc/layers/concatenate.py:56-66 `forward`.  (`zip(*[])` cannot be unpacked.) -/
noncomputable def concatenateForward (layers : List Layer) : Layer := fun train P X => do
  let outs ← layers.mapM (fun layer => layer train P X)
  concatOutputs X (outs.map Prod.fst) (outs.map Prod.snd)

/-- thinc/layers/concatenate.py:28-53 `concatenate`: no layers give `noop`, one layer is returned as it
is.  (If the first layer is itself a concatenation, its list of layers is extended; this is not part of
the model.) -/
noncomputable def concatenate (layers : List Layer) : Layer :=
  match layers with
  | [] => noop
  | [layer] => layer
  | layers => concatenateForward layers

/-! ### residual, tuplify, siamese, map_list, clone, with_getitem -/

/-- `[a[i] + b[i] for i in range(len(a))]` -/
noncomputable def addItems (a b : List Val) : Except PyErr (List Val) :=
  match a, b with
  | [], _ => .ok []
  | _ :: _, [] => .error .indexError
  | x :: a, y :: b => do
    let s ← x.add y
    return s :: (← addItems a b)

/-- `a.data + b.data` -/
noncomputable def addData : Val → Val → Except PyErr (Mat ℝ)
  | .ragged A _, .ragged B _ => npBinary (· + ·) A B
  | .ragged A _, .padded B _ _ _ _ => npBinary (· + ·) A B
  | _, _ => .error .typeError

/-- thinc/layers/residual.py:28-50 `forward` -/
noncomputable def residual (layer : Layer) : Layer := fun train P X => do
  let (Y, backpropLayer) ← layer train P X
  let backprop : Callback := fun dOutput G => do
    let (dX, G) ← backpropLayer dOutput G
    match dOutput with
    | .list ds => return (.list (← addItems ds (← dX.items)), G)
    | .ragged d l => return (.ragged (← addData (.ragged d l) dX) (← dX.lengths), G)
    | _ => match X with
      | .padded _ _ _ _ _ => return (← Val.iaddData dX dOutput, G)
      | _ => return (← dOutput.add dX, G)
  match X with
  | .list xs => return (.list (← addItems xs (← Y.items)), backprop)
  | .ragged A l => return (.ragged (← addData (.ragged A l) Y) l, backprop)
  | .padded A n s l i => return (← Val.iaddData Y (.padded A n s l i), backprop)
  | X => return (← X.add Y, backprop)

/-- thinc/layers/map_list.py:25-26 and thinc/layers/tuplify.py:41: the callbacks applied to the
gradients one after the other. -/
def runCallbacks : List Callback → List Val → GradStore → Except PyErr (List Val × GradStore)
  | callback :: callbacks, d :: ds, G => do
    let (dX, G) ← callback d G
    let (dXs, G) ← runCallbacks callbacks ds G
    return (dX :: dXs, G)
  | _, _, G => .ok ([], G)

/-- thinc/layers/tuplify.py:32-47 `tuplify_forward`.  (Without layers the callback raises IndexError;
`tuplify` always has two.) -/
noncomputable def tuplify (layers : List Layer) : Layer := fun train P X => do
  let outs ← layers.mapM (fun layer => layer train P X)
  let backprop : Callback := fun dYs G => do
    let (dXs, G) ← runCallbacks (outs.map Prod.snd) (← dYs.items) G
    match dXs with
    | [] => .error .indexError
    | dX :: dXs => return (← forM' dXs dX Val.iadd, G)
  return (.tup (outs.map Prod.fst), backprop)

/-- Unpacking `a, b = v`. -/
def Val.unpack2 (v : Val) : Except PyErr (Val × Val) := do
  match ← v.items with
  | [a, b] => return (a, b)
  | _ => .error .valueError

/-- thinc/layers/siamese.py:27-42 `forward` -/
def siamese (layer similarity : Layer) : Layer := fun train P X1X2 => do
  let (X1, X2) ← X1X2.unpack2
  let (vec1, bpVec1) ← layer train P X1
  let (vec2, bpVec2) ← layer train P X2
  let (output, bpOutput) ← similarity train P (.tup [vec1, vec2])
  let finishUpdate : Callback := fun dOutput G => do
    let (dVecs, G) ← bpOutput dOutput G
    let (dVec1, dVec2) ← dVecs.unpack2
    let (dInput1, G) ← bpVec1 dVec1 G
    let (dInput2, G) ← bpVec2 dVec2 G
    return (.tup [dInput1, dInput2], G)
  return (output, finishUpdate)

/-- thinc/layers/map_list.py:14-29 `forward` -/
def mapList (layer : Layer) : Layer := fun train P Xs => do
  let outs ← (← Xs.items).mapM (fun X => layer train P X)
  let backprop : Callback := fun dYs G => do
    let (dXs, G) ← runCallbacks (outs.map Prod.snd) (← dYs.items) G
    return (.list dXs, G)
  return (.list (outs.map Prod.fst), backprop)

/-- thinc/layers/clone.py:12-25 `clone`; `copies k` is the `k`-th result of `orig.copy()`, a layer with
parameters of its own. -/
def clone (orig : Layer) (copies : Nat → Layer) (n : Nat) : Layer :=
  if n = 0 then noop else if n = 1 then orig else chain (orig :: (List.range (n - 1)).map copies)

/-- Python's `xs[:stop]` for an integer `stop`. -/
def pyTake {α : Type} (xs : List α) (stop : Int) : List α :=
  xs.take (if stop < 0 then stop + xs.length else stop).toNat

/-- Python's `xs[start:]` for an integer `start`. -/
def pyDrop {α : Type} (xs : List α) (start : Int) : List α :=
  xs.drop (if start < 0 then start + xs.length else start).toNat

/-- thinc/layers/with_getitem.py:24-34 `forward` -/
def withGetitem (idx : Int) (layer : Layer) : Layer := fun train P items => do
  let .tup xs := items | .error .typeError
  let (Y, backpropItem) ← layer train P (← pyIndex xs idx)
  let backprop : Callback := fun dOutput G => do
    let .tup ds := dOutput | .error .typeError
    let (dY, G) ← backpropItem (← pyIndex ds idx) G
    return (.tup (pyTake ds idx ++ [dY] ++ pyDrop ds (idx + 1)), G)
  return (.tup (pyTake xs idx ++ [Y] ++ pyDrop xs (idx + 1)), backprop)

/-! ### Linear -/

/-- The parameter `b`, a matrix with one row, added to every row: `Y += b`. -/
noncomputable def addBias (Y b : Mat ℝ) : Except PyErr (Mat ℝ) := npUpdate (· + ·) Y b

/-- thinc/layers/linear.py:35-46 `forward`; `W` and `b` are the ids of the parameters. -/
noncomputable def linear (W b : Nat) : Layer := fun _ P X => do
  let X ← X.asArr
  let Y ← gemm X (P W) false true
  let Y ← addBias Y (P b)
  let backprop : Callback := fun dY G => do
    let dY ← dY.asArr
    let G ← incGrad G b dY.colSums
    let G ← incGrad G W (← gemm dY X true false)
    return (.arr (← gemm dY (P W) false false), G)
  return (.arr Y, backprop)

end Thinc
