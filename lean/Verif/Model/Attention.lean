import Verif.Model.LayerNorm
import Verif.Model.Softmax
/-!
# Parametric attention
-/
namespace Thinc

/-- `xp.outer(a, b)` of an array with one column and an array with one row. -/
noncomputable def npOuter (a b : Mat ℝ) : Mat ℝ := Mat.ofFn a.rows b.cols fun i j => a.at i 0 * b.at 0 j

/-- thinc/layers/parametricattention.py:45-47 and thinc/layers/parametricattention_v2.py:79-80: the attention weights
of the keys.  The parameter `Q` is a row here, so `reshape2f(Q, -1, 1)` is its transpose. -/
noncomputable def attentionWeights (Q K : Mat ℝ) (lengths : List Nat) : Except PyErr (Mat ℝ) := do
  softmaxSequences (← gemm K Q.transpose false false) (lengths.map Int.ofNat)

/-- thinc/layers/parametricattention.py:49-53 `get_attention_bwd` up to the return value, and the same lines of
thinc/layers/parametricattention_v2.py:82-85: the gradients of `Q` (as a column) and of the keys. -/
noncomputable def attentionBackward (Q K attention : Mat ℝ) (lengths : List Nat) (dAttention : Mat ℝ) :
    Except PyErr (Mat ℝ × Mat ℝ) := do
  let dAttention ← backpropSoftmaxSequences dAttention attention (lengths.map Int.ofNat)
  let dQ ← gemm K dAttention true false
  return (dQ, npOuter dAttention Q)

/-- thinc/layers/parametricattention.py:57-65 `_apply_attention` and parametricattention_v2.py:92-100: the backward pass, which returns the
gradients of the input and of the weights. -/
noncomputable def applyBackward (attention X dOutput : Mat ℝ) : Except PyErr (Mat ℝ × Mat ℝ) := do
  let dAttention := (← npBinary (· * ·) X dOutput).rowSums
  let dX ← npBinary (· * ·) dOutput attention
  return (dX, dAttention)

/-- thinc/layers/parametricattention.py:18-30 `forward` (version 1) -/
noncomputable def parametricAttention (Qp : Nat) : Layer := fun _ P Xr => do
  let Q := P Qp
  let X ← Xr.raggedData
  let lengths ← Xr.lengths
  let attention ← attentionWeights Q X lengths
  let output ← npBinary (· * ·) X attention
  let backprop : Callback := fun dYr G => do
    let (dX, dAttention) ← applyBackward attention X (← dYr.raggedData)
    let (dQ, dX2) ← attentionBackward Q X attention lengths dAttention
    let G ← incGrad G Qp dQ.transpose
    let dX ← npUpdate (· + ·) dX dX2
    return (.ragged dX (← dYr.lengths), G)
  return (.ragged output lengths, backprop)

/-- thinc/layers/parametricattention_v2.py:36-52 `forward` (version 2, with a layer for the keys) -/
noncomputable def parametricAttentionV2 (Qp : Nat) (keyTransform : Layer) : Layer := fun isTrain P Xr => do
  let Q := P Qp
  let X ← Xr.raggedData
  let lengths ← Xr.lengths
  let (K, bpK) ← keyTransform isTrain P (.arr X)
  let K ← K.asArr
  let attention ← attentionWeights Q K lengths
  let output ← npBinary (· * ·) X attention
  let backprop : Callback := fun dYr G => do
    let (dX, dAttention) ← applyBackward attention X (← dYr.raggedData)
    let (dQ, dK) ← attentionBackward Q K attention lengths dAttention
    let (dX2, G) ← bpK (.arr dK) G
    let G ← incGrad G Qp dQ.transpose
    let dX ← npUpdate (· + ·) dX (← dX2.asArr)
    return (.ragged dX (← dYr.lengths), G)
  return (.ragged output lengths, backprop)

end Thinc
