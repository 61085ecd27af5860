import Verif.Model.Initialize
import Verif.Model.Dropout
/-!
# The options `normalize` and `dropout` of the dense layers

`Relu`, `Maxout`, `Mish`, `Swish`, `Gelu`, `Dish`, `HardSwish`, `HardSwishMobilenet` and `ClippedLinear` (with
`HardSigmoid`, `HardTanh`, `ReluK`) have the options `normalize` and `dropout`: the factory returns a chain of the layer
itself, a LayerNorm and a Dropout.
-/
namespace Thinc

/-- thinc/model.py:67-128 `Model.__init__`: a new node with the given dimensions, and parameters that are not allocated
yet. -/
def NetState.newNode (s : NetState) (id : Nat) (nO nI : Option (Option Nat)) : NetState :=
  { s with
    nO := fun i => if i = id then nO else s.nO i
    nI := fun i => if i = id then nI else s.nI i
    ready := fun i => if i = id then false else s.ready i }

/-- thinc/layers/chain.py:35-36: the dimension nO of a new chain, from that of its last layer. -/
def chainDimO (last : Option (Option Nat)) : Option (Option Nat) :=
  match last with
  | some (some v) => some (some v)
  | _ => some none

/-- thinc/layers/chain.py:14-45 `chain` for two layers.  The chain has the dimension nI exactly if its first layer has. -/
def makeChain (id : Nat) (layer1 layer2 : NetNode) (s : NetState) : NetNode × NetState :=
  (.chain id [layer1, layer2], s.newNode id (chainDimO (layer2.dimO s)) (layer1.dimI s))

/-- The identities of the nodes that a factory makes. -/
structure BlockIds where
  core : Nat
  norm : Nat
  inner : Nat
  outer : Nat

/-- `if normalize: model = chain(model, LayerNorm(nI=nO))`, with thinc/layers/layernorm.py:12-20 `LayerNorm`. -/
def withNorm (ids : BlockIds) (nO : Option Nat) (normalize : Bool) (m : NetNode × NetState) : NetNode × NetState :=
  if normalize then makeChain ids.inner m.1 (.leaf ids.norm) (m.2.newNode ids.norm (some nO) (some nO)) else m

/-- `if dropout is not None: model = chain(model, Dropout(dropout))`; Dropout (thinc/layers/dropout.py:10-16) has no
dimensions. -/
def withDropout (ids : BlockIds) (dropout : Option Layer) (m : NetNode × NetState) : NetNode × NetState :=
  match dropout with
  | none => m
  | some d => makeChain ids.outer m.1 (.plain d) m.2

/-- thinc/layers/relu.py:16-41 `Relu`, thinc/layers/maxout.py:16-42 `Maxout`, thinc/layers/mish.py:16-44,
thinc/layers/swish.py:13-38, thinc/layers/gelu.py:13-38, thinc/layers/dish.py:13-38, thinc/layers/hard_swish.py:13-38,
thinc/layers/hard_swish_mobilenet.py:13-38, thinc/layers/clipped_linear.py:13-49 and 92-163: what the factories have in
common.  The kind of the node `ids.core` says which of them it is. -/
def makeLayer (ids : BlockIds) (nO nI : Option Nat) (normalize : Bool) (dropout : Option Layer) (s : NetState) :
    NetNode × NetState :=
  withDropout ids dropout (withNorm ids nO normalize (.leaf ids.core, s.newNode ids.core (some nO) (some nI)))

end Thinc
