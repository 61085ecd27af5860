import Verif.Model.Dense
import Verif.Model.SoftmaxLayer
import Verif.Model.LayerNorm
import Verif.Model.Attention
import Verif.Model.Cauchy
import Verif.Model.Dropout
import Verif.Model.Embed
import Verif.Model.Uniqued
import Verif.Model.Bidirectional
import Verif.Model.SeqLayers
import Verif.Model.TextLayers
import Verif.Model.PoolLayers
import Verif.Model.WindowLayer
import Verif.Model.TextInit
/-!
# Memory safety

What it means that compiled code stays inside the arrays it was given, whatever it was called with.
-/
namespace Thinc.Spec.Memory

/-- The call returned or raised an exception; it did not read or write outside an array. -/
def Inside {α : Type} (r : Except PyErr α) : Prop := r ≠ .error .outOfBounds

/-- Whatever the flag, the parameters, the input and the gradients: neither the forward pass of the layer nor a callback that
it returned reads or writes outside an array. -/
structure Safe (L : Layer) : Prop where
  forward : ∀ (train : Bool) (P : ParamVals) (X : Val), Inside (L train P X)
  backprop : ∀ (train : Bool) (P : ParamVals) (X Y : Val) (cb : Callback), L train P X = .ok (Y, cb) →
    ∀ (dY : Val) (G : GradStore), Inside (cb dY G)

/-- The networks that can be put together from these layers, with any parameters and attributes.  Missing are Maxout,
SparseLinear and LSTM, whose callbacks or kernels trust the arrays they get. -/
inductive Built : Layer → Prop
  | noop : Built noop
  | linear (W b : Nat) : Built (linear W b)
  | relu (W b : Nat) : Built (reluLayer W b)
  | sigmoid (W b : Nat) : Built (sigmoidLayer W b)
  | swish (W b : Nat) : Built (swishLayer W b)
  | gelu (erf : ℝ → ℝ) (W b : Nat) : Built (geluLayer erf W b)
  | mish (W b : Nat) : Built (mishLayer W b)
  | hardSwish (W b : Nat) : Built (hardSwishLayer W b)
  | hardSwishMobilenet (W b : Nat) : Built (hardSwishMobilenetLayer W b)
  | dish (W b : Nat) : Built (dishLayer W b)
  | clippedLinear (slope offset lo hi : ℝ) (W b : Nat) : Built (clippedLinearLayer slope offset lo hi W b)
  | logistic : Built logisticLayer
  | softmax (W b : Nat) (normalize : Bool) (temperature : ℝ) : Built (softmaxLayer W b normalize temperature)
  | multiSoftmax (W b : Nat) (nOs : List Nat) : Built (multiSoftmax W b nOs)
  | layerNorm (G b : Nat) : Built (layerNorm G b)
  | cauchySimilarity (W : Nat) : Built (cauchySimilarity W)
  | dropout (rate : ℝ) (on : Bool) (draws : Nat → Nat → Nat → ℝ) : Built (dropout rate on draws)
  | reduceSum : Built reduceSumLayer
  | reduceMean : Built reduceMeanLayer
  | reduceMax (junk : Nat → ℝ) : Built (reduceMaxLayer junk)
  | reduceFirst : Built reduceFirstLayer
  | reduceLast : Built reduceLastLayer
  | expandWindow (nW : Nat) : Built (expandWindow nW)
  | parametricAttention (Q : Nat) : Built (parametricAttention Q)
  | parametricAttentionV2 (Q : Nat) (L : Layer) : Built L → Built (parametricAttentionV2 Q L)
  | embed (E : Nat) (drop : Option ℝ) (flips : Nat → Nat → ℝ) (fast : Bool) : Built (embed E drop flips fast)
  | hashEmbed (E : Nat) (seed : BitVec 32) (drop : Option ℝ) (flips : Nat → Nat → ℝ) (fast : Bool) :
      Built (hashEmbed E seed drop flips fast)
  | uniqued (L : Layer) (column : Int) (fast : Bool) : Built L → Built (uniqued L column fast)
  | intsGetitem (column : Int) : Built (intsGetitemColumn column)
  | list2ragged : Built list2raggedL
  | ragged2list : Built ragged2listL
  | list2array : Built list2arrayL
  | list2padded : Built list2paddedL
  | padded2list : Built padded2listL
  | chain (Ls : List Layer) : (∀ L ∈ Ls, Built L) → Built (chain Ls)
  | add (Ls : List Layer) : (∀ L ∈ Ls, Built L) → Built (addLayers Ls)
  | concatenate (Ls : List Layer) : (∀ L ∈ Ls, Built L) → Built (concatenate Ls)
  | tuplify (Ls : List Layer) : (∀ L ∈ Ls, Built L) → Built (tuplify Ls)
  | clone (L : Layer) (copies : Nat → Layer) (n : Nat) : Built L → (∀ k, Built (copies k)) → Built (clone L copies n)
  | residual (L : Layer) : Built L → Built (residual L)
  | siamese (L S : Layer) : Built L → Built S → Built (siamese L S)
  | mapList (L : Layer) : Built L → Built (mapList L)
  | withGetitem (i : Int) (L : Layer) : Built L → Built (withGetitem i L)
  | bidirectional (L R : Layer) : Built L → Built R → Built (bidirectional L R)
  | withArray (L : Layer) (pad : Nat) : Built L → Built (withArrayAny L pad)
  | withList (L : Layer) : Built L → Built (withListL L)
  | withRagged (L : Layer) : Built L → Built (withRaggedL L)
  | withPadded (L : Layer) : Built L → Built (withPaddedL L)

end Thinc.Spec.Memory
