import Verif.Model.ArrMem
import Verif.Model.Dense
import Verif.Model.SoftmaxLayer
import Verif.Model.MaxoutLayer
import Verif.Model.LayerNorm
import Verif.Model.Attention
import Verif.Model.Embed
import Verif.Model.PoolLayers
import Verif.Model.WindowLayer
import Verif.Model.Dropout
/-!
# More layers on arrays in memory

What each callback keeps: see `Body`.
-/
namespace Thinc.Shared

/-! ### Layers that put their results into new arrays -/

/-- The dense layers whose callback does not use the output: thinc/layers/gelu.py:41-55, mish.py:47-61, hard_swish.py:41-55,
hard_swish_mobilenet.py:41-55, dish.py:41-55, clipped_linear.py:52-74 `forward`.  The pre-activations are an array of their own. -/
noncomputable def denseBody (W b : Nat) (bFirst : Bool) (act : (Nat → ℝ) → Nat → ℝ) (back : Mat ℝ → Mat ℝ → Mat ℝ → Except PyErr (Mat ℝ)) :
    Body (Mat ℝ) where
  fwd := fun _ P X => do
    let X ← X.asArr
    let preact ← opsAffine X (P W) (P b)
    return (.arr (preact.lift act), preact)
  bwd := fun preact P X _ dY G => do
    let X ← X.asArr
    let dY ← dY.asArr
    let dY ← back X preact dY
    denseBackprop W b bFirst P X dY G

/-- The dense layers whose callback uses the output array: thinc/layers/relu.py:44-56, sigmoid.py:38-50, swish.py:41-55 `forward`. -/
noncomputable def denseOutBody (W b : Nat) (bFirst : Bool) (act : (Nat → ℝ) → Nat → ℝ) (back : Mat ℝ → Mat ℝ → Mat ℝ → Mat ℝ → Except PyErr (Mat ℝ)) :
    Body (Mat ℝ) where
  fwd := fun _ P X => do
    let X ← X.asArr
    let preact ← opsAffine X (P W) (P b)
    return (.arr (preact.lift act), preact)
  bwd := fun preact P X Y dY G => do
    let X ← X.asArr
    let Y ← Y.asArr
    let dY ← dY.asArr
    let dY ← back X preact Y dY
    denseBackprop W b bFirst P X dY G

/-- thinc/layers/relu.py:44-56 `forward` -/
noncomputable def mRelu (W b : Nat) : MLayer := (denseOutBody W b true cpuRelu (fun _ _ Y dY => Mat.lift₂ cpuBackpropRelu dY Y)).layer

/-- thinc/layers/sigmoid.py:38-50 `forward` -/
noncomputable def mSigmoid (W b : Nat) : MLayer :=
  (denseOutBody W b true (opsSigmoid false) (fun _ _ Y dY => npBinary (· * ·) dY (Y.lift (opsDsigmoid false)))).layer

/-- thinc/layers/swish.py:41-55 `forward` -/
noncomputable def mSwish (W b : Nat) : MLayer :=
  (denseOutBody W b true swish (fun _ preact Y dY => do
    npBinary (· * ·) dY (← Mat.lift₂ (fun X Y => backpropSwish (fun _ => 1) X Y) preact Y))).layer

/-- thinc/layers/gelu.py:41-55 `forward` -/
noncomputable def mGelu (erf : ℝ → ℝ) (W b : Nat) : MLayer :=
  (denseBody W b true (gelu erf) (fun _ preact dY => npBinary (· * ·) dY (preact.lift (backpropGelu erf fun _ => 1)))).layer

/-- thinc/layers/mish.py:47-61 `forward` -/
noncomputable def mMish (W b : Nat) : MLayer := (denseBody W b false (cpuMish 20) (fun _ preact dY => Mat.lift₂ (cpuBackpropMish 20) dY preact)).layer

/-- thinc/layers/hard_swish.py:41-55 `forward` -/
noncomputable def mHardSwish (W b : Nat) : MLayer :=
  (denseBody W b true hardSwish (fun _ preact dY => npBinary (· * ·) dY (preact.lift (backpropHardSwish fun _ => 1)))).layer

/-- thinc/layers/hard_swish_mobilenet.py:41-55 `forward` -/
noncomputable def mHardSwishMobilenet (W b : Nat) : MLayer :=
  (denseBody W b true hardSwishMobilenet
    (fun _ preact dY => npBinary (· * ·) (preact.lift (backpropHardSwishMobilenet fun _ => 1)) dY)).layer

/-- thinc/layers/dish.py:41-55 `forward` -/
noncomputable def mDish (W b : Nat) : MLayer :=
  (denseBody W b true dish (fun X _ dY => npBinary (· * ·) dY (X.lift (backpropDish fun _ => 1)))).layer

/-- thinc/layers/clipped_linear.py:52-74 `forward` -/
noncomputable def mClippedLinear (slope offset minVal maxVal : ℝ) (W b : Nat) : MLayer :=
  (denseBody W b true (clippedLinear slope offset minVal maxVal) (fun _ preact dY => do
    let d ← backpropClippedLinear slope offset minVal maxVal (fun _ => 1) preact.val
    npBinary (· * ·) dY (preact.lift fun _ => d))).layer

/-- thinc/layers/logistic.py:19-25 and thinc/layers/sigmoid_activation.py:13-24 `forward`: the callback uses the output array. -/
noncomputable def logisticBody : Body Unit where
  fwd := fun _ _ X => do
    let X ← X.asArr
    return (.arr (X.lift (opsSigmoid false)), ())
  bwd := fun _ _ _ Y dY G => do
    let Y ← Y.asArr
    let dY ← dY.asArr
    return (.arr (← npBinary (· * ·) dY (Y.lift (opsDsigmoid false))), G)

/-- thinc/layers/logistic.py:19-25 and thinc/layers/sigmoid_activation.py:13-24 `forward` -/
noncomputable def mLogistic : MLayer := logisticBody.layer

/-- The callback of `Softmax`, if it has one; `Y` is the output for its shape (`Y_info`). -/
noncomputable def softmaxBwd (W b : Nat) (temperature : ℝ) (saved : Option (Mat ℝ)) (P : ParamVals) (X : Val) : Callback := fun dY G =>
  match saved with
  | some Y => do softmaxBackprop W b temperature P (← X.asArr) Y dY G
  | none => .error .valueError

/-- thinc/layers/softmax.py:63-94 `forward`: the callback uses the shape of the output only (`ArrayInfo`). -/
noncomputable def softmaxBody (W b : Nat) (normalizeOutputs : Bool) (temperature : ℝ) : Body (Option (Mat ℝ)) where
  fwd := fun isTrain P X => do
    let X ← X.asArr
    if temperature ≤ 0 then .error .valueError else
    let Y ← opsAffine X (P W) (P b)
    if normalizeOutputs || isTrain then
      let Y ← Y.softmax temperature
      return (.arr Y, some Y)
    else
      return (.arr Y, none)
  bwd := fun saved P X _ => softmaxBwd W b temperature saved P X

/-- thinc/layers/maxout.py:45-66 `forward`: the callback keeps `X`, `W` and `which`. -/
noncomputable def maxoutBody (junk : Nat → ℝ) (junkW : Nat → Int) (W b nO nP nI : Nat) : Body (Mat Int) where
  fwd := fun _ P X => do
    let X ← X.asArr
    let W2 ← (P W).reshape (nO * nP) nI
    let Y ← gemm X W2 false true
    let b1 ← (P b).reshape 1 (nO * nP)
    let Y ← npUpdate (· + ·) Y b1
    let Z ← Y.reshape3 Y.rows nO nP
    let (best, which) ← maxout junk junkW Z
    return (.arr best, which)
  bwd := fun which P X _ dbest G => do
    let X ← X.asArr
    let W2 ← (P W).reshape (nO * nP) nI
    let dbest ← dbest.asArr
    let dZ ← backpropMaxout dbest which nP
    let G ← incGrad G b dZ.sum0
    let dY ← dZ.reshape2 dZ.d0 (nO * nP)
    let G ← incGrad G W (← gemm dY X true false)
    return (.arr (← gemm dY W2 false false), G)

/-- thinc/layers/layernorm.py:23-36 `forward`: the callback keeps `X`, `G` and, as arrays of its own, `mu`, `var` and `Xhat`. -/
noncomputable def layerNormBody (Gp b : Nat) : Body (Mat ℝ × Mat ℝ × Mat ℝ) where
  fwd := fun _ P X => do
    let X ← X.asArr
    let (_, mu, var) := lnMoments X
    let Xhat ← npBinary (· * ·) (← npBinary (· - ·) X mu) (var.mapEntries (· ^ (-1.0 / 2.0 : ℝ)))
    let (Y, _) ← lnScaleShift Gp b P Xhat
    return (.arr Y, mu, var, Xhat)
  bwd := fun (mu, var, Xhat) P X _ dY G => do
    let X ← X.asArr
    let N : ℝ := X.cols
    let dY ← dY.asArr
    let G ← incGrad G b dY.colSums
    let G ← incGrad G Gp (← npBinary (· * ·) dY Xhat).colSums
    let dY ← npBinary (· * ·) dY (P Gp)
    let (dist, sumDy, sumDyDist) ← lnDMoments dY X mu
    let dXhat ← npBinary (· - ·) (← npBinary (· - ·) (dY.mapEntries (N * ·)) sumDy)
      (← npBinary (· * ·) (← npBinary (· * ·) dist (var.mapEntries (· ^ (-1.0 : ℝ)))) sumDyDist)
    let dXhat ← npUpdate (· * ·) dXhat (var.mapEntries (· ^ (-1.0 / 2 : ℝ)))
    return (.arr (dXhat.mapEntries (· / N)), G)

/-- thinc/layers/parametricattention.py:18-30 `forward`: the callback keeps `X`, `Q` and the attention weights. -/
noncomputable def attentionBody (Qp : Nat) : Body (Mat ℝ) where
  fwd := fun _ P Xr => do
    let X ← Xr.raggedData
    let lengths ← Xr.lengths
    let attention ← attentionWeights (P Qp) X lengths
    return (.ragged (← npBinary (· * ·) X attention) lengths, attention)
  bwd := fun attention P Xr _ dYr G => do
    let X ← Xr.raggedData
    let lengths ← Xr.lengths
    let (dX, dAttention) ← applyBackward attention X (← dYr.raggedData)
    let (dQ, dX2) ← attentionBackward (P Qp) X attention lengths dAttention
    let G ← incGrad G Qp dQ.transpose
    let dX ← npUpdate (· + ·) dX dX2
    return (.ragged dX (← dYr.lengths), G)

/-- thinc/layers/multisoftmax.py:29-45 `forward`: the callback keeps `X` and `W`. -/
noncomputable def multiSoftmaxBody (W b : Nat) (nOs : List Nat) : Body Unit where
  fwd := fun _ P X => do
    let X ← X.asArr
    let Y ← addBias (← gemm X (P W) false true) (P b)
    multiSoftmaxLoop Y nOs 0
    return (.arr Y, ())
  bwd := fun _ P X _ dY G => do
    let X ← X.asArr
    denseBackprop W b false P X (← dY.asArr) G

/-- Layers whose callback keeps none of the arrays of the input, the output and the parameters, only arrays of its own, shapes and
lengths. -/
def privateBody (L : Layer) : Body Callback where
  fwd := L
  bwd := fun callback _ _ _ => callback

/-- thinc/layers/reduce_sum.py:17-26 `forward`: the callback keeps the lengths and the shape of the output. -/
noncomputable def mReduceSum : MLayer := (privateBody reduceSumLayer).layer

/-- thinc/layers/reduce_mean.py:17-27 `forward`: the callback keeps the lengths and the shape of the output. -/
noncomputable def mReduceMean : MLayer := (privateBody reduceMeanLayer).layer

/-- thinc/layers/reduce_max.py:17-26 `forward`: the callback keeps the lengths, the shape of the output and `which`. -/
noncomputable def mReduceMax (junk : Nat → ℝ) : MLayer := (privateBody (reduceMaxLayer junk)).layer

/-- thinc/layers/reduce_first.py:18-30 `forward`: the callback keeps the lengths, the shape of the output and `starts_ends`. -/
noncomputable def mReduceFirst : MLayer := (privateBody reduceFirstLayer).layer

/-- thinc/layers/reduce_last.py:18-29 `forward`: the callback keeps the lengths, the shape of the output and `lasts`. -/
noncomputable def mReduceLast : MLayer := (privateBody reduceLastLayer).layer

/-- thinc/layers/expand_window.py:18-57 `forward`: the callback keeps the lengths. -/
noncomputable def mExpandWindow (nW : Nat) : MLayer := (privateBody (expandWindow nW)).layer

open Classical in
/-- thinc/layers/dropout.py:19-87 `forward`: an inactive layer returns its input, an active one keeps the mask. -/
noncomputable def mDropout (rate : ℝ) (isEnabled : Bool) (draws : Nat → Nat → Nat → ℝ) : MLayer := fun isTrain X m =>
  if rate = 0 ∨ (isEnabled && isTrain) = false then mNoop isTrain X m
  else (privateBody (dropout rate isEnabled draws)).layer isTrain X m

/-! ### concatenate -/

/-- The array that a value is. -/
def RVal.asRef : RVal → Except PyErr ArrRef
  | .arr r => .ok r
  | _ => .error .attributeError

/-- The `data` of a `Ragged`. -/
def RVal.raggedRef : RVal → Except PyErr ArrRef
  | .ragged r _ => .ok r
  | _ => .error .attributeError

/-- `v.data += w.data`: the array of `v` is changed. -/
noncomputable def RVal.iaddData (v w : RVal) (m : ArrMem) : Except PyErr (RVal × ArrMem) :=
  match v, w with
  | .ragged r l, .ragged q _ => do return (.ragged r l, r.put m (← npUpdate (· + ·) (r.get m) (q.get m)))
  | .padded r n s l i, .padded q _ _ _ _ => do return (.padded r n s l i, r.put m (← npUpdate (· + ·) (r.get m) (q.get m)))
  | _, _ => .error .typeError

/-- The sum of two input gradients in `_array_forward`, in the first (thinc/layers/concatenate.py:78-91). -/
noncomputable def RVal.addGradient (v w : RVal) (m : ArrMem) : Except PyErr (RVal × ArrMem) :=
  match v with
  | .ragged r l => RVal.iaddData (.ragged r l) w m
  | .padded r n s l i => RVal.iaddData (.padded r n s l i) w m
  | v => v.iadd w m

/-- The forward passes of several layers with the same input. -/
def mForwardAll (train : Bool) (X : RVal) : List MLayer → ArrMem → Except PyErr (List RVal × List MCallback × ArrMem)
  | [], m => .ok ([], [], m)
  | layer :: layers, m => do
    let (Y, callback, m) ← layer train X m
    let (Ys, callbacks, m) ← mForwardAll train X layers m
    return (Y :: Ys, callback :: callbacks, m)

/-- The loop of the three backward passes of `concatenate`: `block start stop` makes the gradient of one layer's output, `join` adds up the
gradients, in the arrays of the first. -/
noncomputable def mConcatRest (block : Nat → Nat → ArrMem → RVal × ArrMem) (join : RVal → RVal → ArrMem → Except PyErr (RVal × ArrMem)) :
    List (MCallback × Nat) → RVal → Nat → ArrMem → GradStore → Except PyErr (RVal × ArrMem × GradStore)
  | [], dX, _, m, G => .ok (dX, m, G)
  | (callback, width) :: rest, dX, start, m, G => do
    let (gradient, m, G) ← callback (block start (start + width) m).1 (block start (start + width) m).2 G
    let (dX, m) ← join dX gradient m
    mConcatRest block join rest dX (start + width) m G

/-- The three backward passes of `concatenate`. -/
noncomputable def mConcatBack (block : Nat → Nat → ArrMem → RVal × ArrMem) (join : RVal → RVal → ArrMem → Except PyErr (RVal × ArrMem))
    (callbacks : List MCallback) (widths : List Nat) (m : ArrMem) (G : GradStore) : Except PyErr (RVal × ArrMem × GradStore) :=
  match callbacks, widths with
  | callback :: callbacks, width :: widths => do
    let (dX, m, G) ← callback (block 0 width m).1 (block 0 width m).2 G
    mConcatRest block join (callbacks.zip widths) dX width m G
  | _, _ => .error .indexError

/-- thinc/layers/concatenate.py:69-94 `_array_forward`.  `as_contig` of a slice of the gradient may be a view of it. -/
noncomputable def mConcatArrays (Ys : List RVal) (callbacks : List MCallback) (m : ArrMem) : Except PyErr (RVal × MCallback × ArrMem) := do
  let Ys ← Ys.mapM RVal.asRef
  let widths := Ys.map fun r => (r.get m).cols
  let output ← hstack (Ys.map (ArrRef.get m))
  let backprop : MCallback := fun dOutput m G => do
    let d ← dOutput.asRef
    mConcatBack (fun start stop m => (.arr (asContig (d.slice (.cols start stop)) m).1, (asContig (d.slice (.cols start stop)) m).2))
      RVal.addGradient callbacks widths m G
  return (.arr ⟨(m.alloc output).1, []⟩, backprop, (m.alloc output).2)

/-- thinc/layers/concatenate.py:97-116 `_ragged_forward` -/
noncomputable def mConcatRagged (Ys : List RVal) (callbacks : List MCallback) (m : ArrMem) : Except PyErr (RVal × MCallback × ArrMem) := do
  let datas ← Ys.mapM RVal.raggedRef
  let widths := datas.map fun r => (r.get m).cols
  let output ← hstack (datas.map (ArrRef.get m))
  let lengths ← ((← firstItem Ys).read m).lengths
  let backprop : MCallback := fun dOutput m G => do
    let d ← dOutput.raggedRef
    let dLengths ← (dOutput.read m).lengths
    mConcatBack (fun start stop m => (.ragged (asContig (d.slice (.cols start stop)) m).1 dLengths, (asContig (d.slice (.cols start stop)) m).2))
      RVal.iadd callbacks widths m G
  return (.ragged ⟨(m.alloc output).1, []⟩ lengths, backprop, (m.alloc output).2)

/-- thinc/backends/ops.py:364-379 `Ops.unflatten` without `pad`: `xp.split` gives views. -/
def mUnflatten (r : ArrRef) : List Nat → Nat → List RVal
  | [], _ => []
  | n :: ns, start => .arr (r.slice (.rows start (start + n))) :: mUnflatten r ns (start + n)

/-- thinc/layers/concatenate.py:119-143 `_list_forward`: the gradients are first put into one new array, of which the layers get views. -/
noncomputable def mConcatLists (X : RVal) (Ys : List RVal) (callbacks : List MCallback) (m : ArrMem) : Except PyErr (RVal × MCallback × ArrMem) := do
  let items ← (X.read m).items
  let lengths ← items.mapM Val.len
  let Ys ← (RVal.readAll m Ys).mapM Val.stacked
  let widths := Ys.map Mat.cols
  let output ← hstack Ys
  let backprop : MCallback := fun dOutput m G => do
    let d ← (dOutput.read m).stacked
    let dArray : ArrRef := ⟨(m.alloc d).1, []⟩
    mConcatBack (fun start stop m => (.list (mUnflatten (asContig (dArray.slice (.cols start stop)) m).1 lengths 0),
      (asContig (dArray.slice (.cols start stop)) m).2)) RVal.iadd callbacks widths (m.alloc d).2 G
  return (.list (mUnflatten ⟨(m.alloc output).1, []⟩ lengths 0), backprop, (m.alloc output).2)

/-- The dispatch on the type of the first output in thinc/layers/concatenate.py:56-66 `forward`. -/
noncomputable def mConcatOutputs (X : RVal) (Ys : List RVal) (callbacks : List MCallback) (m : ArrMem) : Except PyErr (RVal × MCallback × ArrMem) :=
  match Ys.head? with
  | none => .error .valueError
  | some (.list _) => mConcatLists X Ys callbacks m
  | some (.ragged _ _) => mConcatRagged Ys callbacks m
  | some _ => mConcatArrays Ys callbacks m

/-- thinc/layers/concatenate.py:56-66 `forward` -/
noncomputable def mConcatenate (layers : List MLayer) : MLayer := fun train X m => do
  let (Ys, callbacks, m) ← mForwardAll train X layers m
  mConcatOutputs X Ys callbacks m

/-! ### residual -/

/-- The members of a list or tuple. -/
def RVal.items : RVal → Except PyErr (List RVal)
  | .list vs => .ok vs
  | .tup vs => .ok vs
  | _ => .error .typeError

/-- Python's `v + w`: the sum of arrays is a new array; a sum of lists has the arrays of both. -/
noncomputable def RVal.add (v w : RVal) (m : ArrMem) : Except PyErr (RVal × ArrMem) :=
  match v, w with
  | .arr r, .arr q => do
    let A ← npBinary (· + ·) (r.get m) (q.get m)
    return (.arr ⟨(m.alloc A).1, []⟩, (m.alloc A).2)
  | .list vs, .list ws => .ok (.list (vs ++ ws), m)
  | .tup vs, .tup ws => .ok (.tup (vs ++ ws), m)
  | _, _ => .error .typeError

/-- `[a[i] + b[i] for i in range(len(a))]` -/
noncomputable def mAddItems (a b : List RVal) (m : ArrMem) : Except PyErr (List RVal × ArrMem) :=
  match a, b with
  | [], _ => .ok ([], m)
  | _ :: _, [] => .error .indexError
  | x :: a, y :: b => do
    let (s, m) ← x.add y m
    let (ss, m) ← mAddItems a b m
    return (s :: ss, m)

/-- thinc/layers/residual.py:29-39 `backprop`: for a `Padded` the data are added in place. -/
noncomputable def mResidualBack (X dOutput dX : RVal) (m : ArrMem) : Except PyErr (RVal × ArrMem) :=
  match dOutput with
  | .list ds => do
    let (vs, m) ← mAddItems ds (← dX.items) m
    return (.list vs, m)
  | .ragged d l => do
    let A ← addData (.ragged (d.get m) l) (dX.read m)
    return (.ragged ⟨(m.alloc A).1, []⟩ (← (dX.read m).lengths), (m.alloc A).2)
  | dOutput => match X with
    | .padded _ _ _ _ _ => dX.iaddData dOutput m
    | _ => dOutput.add dX m

/-- thinc/layers/residual.py:42-50: the output. -/
noncomputable def mResidualOut (X Y : RVal) (m : ArrMem) : Except PyErr (RVal × ArrMem) :=
  match X with
  | .list xs => do
    let (vs, m) ← mAddItems xs (← Y.items) m
    return (.list vs, m)
  | .ragged r l => do
    let A ← addData (.ragged (r.get m) l) (Y.read m)
    return (.ragged ⟨(m.alloc A).1, []⟩ l, (m.alloc A).2)
  | .padded r n s l i => Y.iaddData (.padded r n s l i) m
  | X => X.add Y m

/-- thinc/layers/residual.py:28-50 `forward` -/
noncomputable def mResidual (layer : MLayer) : MLayer := fun train X m => do
  let (Y, backpropLayer, m) ← layer train X m
  let backprop : MCallback := fun dOutput m G => do
    let (dX, m, G) ← backpropLayer dOutput m G
    let (dX, m) ← mResidualBack X dOutput dX m
    return (dX, m, G)
  let (Y, m) ← mResidualOut X Y m
  return (Y, backprop, m)

/-! ### tuplify -/

/-- thinc/layers/tuplify.py:41 `[bp(dY) for bp, dY in zip(backprops, dYs)]` -/
def mRunCallbacks : List MCallback → List RVal → ArrMem → GradStore → Except PyErr (List RVal × ArrMem × GradStore)
  | callback :: callbacks, d :: ds, m, G => do
    let (dX, m, G) ← callback d m G
    let (dXs, m, G) ← mRunCallbacks callbacks ds m G
    return (dX :: dXs, m, G)
  | _, _, m, G => .ok ([], m, G)

/-- thinc/layers/tuplify.py:43-44 -/
noncomputable def mSum : List RVal → RVal → ArrMem → Except PyErr (RVal × ArrMem)
  | [], dX, m => .ok (dX, m)
  | d :: ds, dX, m => do
    let (dX, m) ← dX.iadd d m
    mSum ds dX m

/-- thinc/layers/tuplify.py:42-45: the gradients added up in the array of the first. -/
noncomputable def mSumAll (dXs : List RVal) (m : ArrMem) : Except PyErr (RVal × ArrMem) :=
  match dXs with
  | [] => .error .indexError
  | dX :: dXs => mSum dXs dX m

/-- thinc/layers/tuplify.py:32-47 `tuplify_forward` -/
noncomputable def mTuplify (layers : List MLayer) : MLayer := fun train X m => do
  let (Ys, callbacks, m) ← mForwardAll train X layers m
  let backprop : MCallback := fun dYs m G => do
    let (dXs, m, G) ← mRunCallbacks callbacks (← dYs.items) m G
    let (dX, m) ← mSumAll dXs m
    return (dX, m, G)
  return (.tup Ys, backprop, m)

/-! ### Embed -/

/-- `d_output *= drop_mask`, in place (thinc/layers/embed.py:63-64). -/
noncomputable def mApplyMask (r : ArrRef) (mask : Option (Mat ℝ)) (m : ArrMem) : Except PyErr ArrMem :=
  match mask with
  | none => .ok m
  | some mask => do return r.put m (← npUpdate (· * ·) (r.get m) mask)

/-- thinc/layers/embed.py:48-71 `forward`: the callback multiplies the gradient it is given by the mask, in place. -/
noncomputable def mEmbed (E : Nat) (dropout : Option ℝ) (coinflips : Nat → Nat → ℝ) (fast : Bool) : MLayer := fun isTrain X m => do
  let ids ← (X.read m).asInts
  let nO := (m.params E).cols
  let output ← (m.params E).takeRows ids
  let dropMask : Option (Mat ℝ) := if isTrain then some (getDropoutMask 1 nO dropout coinflips) else none
  let output ← applyMask output dropMask
  let backprop : MCallback := fun dOutput m G => do
    let d ← dOutput.asRef
    let m ← mApplyMask d dropMask m
    let dVectors ← scatterAdd fast (Mat.zeros (m.params E).rows (m.params E).cols) ids (d.get m)
    let G ← incGrad G E dVectors
    return (.ints (ids.map fun _ => 0), m, G)
  return (.arr ⟨(m.alloc output).1, []⟩, backprop, (m.alloc output).2)

end Thinc.Shared
