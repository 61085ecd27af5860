import Verif.Model.SoftmaxLayer
import Verif.Model.MaxoutLayer
import Verif.Model.LayerNorm
/-!
# Initialization and shape inference

`Model.initialize` for networks made of dense layers, layers without dimensions, `chain`, `add`, `concatenate` and
`residual`.  A network is a tree of nodes; the dimensions and parameters of the nodes live in a separate state, so a node
may occur at several places of the tree.
-/
namespace Thinc

/-- The layers with parameters.  `dense` stands for Relu, Sigmoid, Swish, Gelu, Mish, HardSwish, HardSwishMobilenet, Dish
and ClippedLinear, see `Verif.Model.Dense`. -/
inductive LeafKind where
  | linear
  | dense (bFirst : Bool) (act : (Nat → ℝ) → Nat → ℝ) (back : Mat ℝ → Mat ℝ → Mat ℝ → Mat ℝ → Except PyErr (Mat ℝ))
  /-- with `normalize_outputs=True`, the default -/
  | softmax (temperature : ℝ)
  | maxout (nP : Nat) (junk : Nat → ℝ) (junkW : Nat → Int)
  | layerNorm

/-- A model.  The numbers identify nodes; layers without dimensions and without `init` (noop, Dropout, activations) need
none. -/
inductive NetNode where
  | leaf (id : Nat)
  | plain (L : Layer)
  | chain (id : Nat) (layers : List NetNode)
  | add (id : Nat) (layers : List NetNode)
  | concatenate (id : Nat) (layers : List NetNode)
  | residual (id : Nat) (layer : NetNode)

/-- The dimensions nO and nI of the nodes (`none`: the node has no such dimension; `some none`: it is unset), the
parameters, and which nodes have got theirs.  Node `id` has the parameters `2 * id` (W or G) and `2 * id + 1` (b). -/
structure NetState where
  nO : Nat → Option (Option Nat)
  nI : Nat → Option (Option Nat)
  params : ParamVals
  ready : Nat → Bool
  /-- how many arrays have been drawn -/
  draws : Nat

/-- What initialization depends on: the kinds of the leaves, and the numbers that the initializers draw
(thinc/initializers.py; the `k`-th array has the entries `rnd k`). -/
structure NetEnv where
  kind : Nat → LeafKind
  rnd : Nat → Nat → Nat → ℝ

/-- thinc/util.py:293-318 `get_width`.  A one-dimensional array of integers has the width of its one-hot encoding; an
empty one has no maximum.  (With a negative maximum the code returns a number that is not positive; here 0.) -/
def getWidth : Val → Except PyErr Nat
  | .arr A => .ok A.cols
  | .ragged A _ => .ok A.cols
  | .padded A _ _ _ _ => .ok A.cols
  | .intMat A => .ok A.cols
  | .ints [] => .error .valueError
  | .ints (k :: ks) => .ok ((ks.foldl max k) + 1).toNat
  | .list [] => .ok 0
  | .list (v :: _) => getWidth v
  | .tup [] => .ok 0
  | .tup (v :: _) => getWidth v

/-- thinc/model.py:198-212 `Model.set_dim` without `force`: the new entry. -/
def newDim (old : Option (Option Nat)) (value : Nat) : Except PyErr (Option (Option Nat)) :=
  match old with
  | none => .error .keyError
  | some none => .ok (some (some value))
  | some (some v) => if v = value then .ok (some (some value)) else .error .valueError

/-- thinc/model.py:187-196 `Model.get_dim` -/
def dimValue (d : Option (Option Nat)) : Except PyErr Nat :=
  match d with
  | none => .error .keyError
  | some none => .error .valueError
  | some (some v) => .ok v

/-- `model.set_dim("nO", value)` -/
def NetState.setO (s : NetState) (id value : Nat) : Except PyErr NetState := do
  let d ← newDim (s.nO id) value
  return { s with nO := fun i => if i = id then d else s.nO i }

/-- `model.set_dim("nI", value)` -/
def NetState.setI (s : NetState) (id value : Nat) : Except PyErr NetState := do
  let d ← newDim (s.nI id) value
  return { s with nI := fun i => if i = id then d else s.nI i }

/-- `model.set_param(…, init_W(model.ops, (r, c)))`, `model.set_param(…, init_b(model.ops, …))`: both parameters get
arrays of the given shapes. -/
def NetState.setParams (s : NetState) (E : NetEnv) (id : Nat) (shW shb : Nat × Nat) : NetState :=
  { s with
    params := fun p => if p = 2 * id then Mat.ofFn shW.1 shW.2 (E.rnd s.draws)
      else if p = 2 * id + 1 then Mat.ofFn shb.1 shb.2 (E.rnd (s.draws + 1)) else s.params p
    ready := fun i => if i = id then true else s.ready i
    draws := s.draws + 2 }

/-- `model.has_dim(…) is not False` for the dimension nI. -/
def NetNode.dimI (s : NetState) : NetNode → Option (Option Nat)
  | .leaf id => s.nI id
  | .plain _ => none
  | .chain id _ => s.nI id
  | .add id _ => s.nI id
  | .concatenate id _ => s.nI id
  | .residual id _ => s.nI id

/-- The dimension nO. -/
def NetNode.dimO (s : NetState) : NetNode → Option (Option Nat)
  | .leaf id => s.nO id
  | .plain _ => none
  | .chain id _ => s.nO id
  | .add id _ => s.nO id
  | .concatenate id _ => s.nO id
  | .residual id _ => s.nO id

/-- `layer.set_dim("nI", value)` -/
def NetNode.setI (t : NetNode) (s : NetState) (value : Nat) : Except PyErr NetState :=
  match t with
  | .leaf id => s.setI id value
  | .plain _ => .error .keyError
  | .chain id _ => s.setI id value
  | .add id _ => s.setI id value
  | .concatenate id _ => s.setI id value
  | .residual id _ => s.setI id value

/-- `layer.set_dim("nO", value)` -/
def NetNode.setO (t : NetNode) (s : NetState) (value : Nat) : Except PyErr NetState :=
  match t with
  | .leaf id => s.setO id value
  | .plain _ => .error .keyError
  | .chain id _ => s.setO id value
  | .add id _ => s.setO id value
  | .concatenate id _ => s.setO id value
  | .residual id _ => s.setO id value

/-! ### The forward functions -/

/-- The forward function of a leaf whose dimensions are `nO` and `nI`. -/
noncomputable def LeafKind.layer (k : LeafKind) (W b nO nI : Nat) : Layer :=
  match k with
  | .linear => Thinc.linear W b
  | .dense bFirst act back => Thinc.dense W b bFirst act back
  | .softmax temperature => softmaxLayer W b true temperature
  | .maxout nP junk junkW => maxoutLayer junk junkW W b nO nP nI
  | .layerNorm => Thinc.layerNorm W b

/-- The forward function of a leaf: `get_param` raises KeyError before the leaf is initialized.  (Only Maxout reads its
dimensions, and they are set when its parameters are.) -/
noncomputable def leafForward (E : NetEnv) (s : NetState) (id : Nat) : Layer := fun train P X => do
  if s.ready id = false then .error .keyError else
  let nO ← dimValue (s.nO id)
  let nI ← dimValue (s.nI id)
  (E.kind id).layer (2 * id) (2 * id + 1) nO nI train P X

mutual
/-- The forward function of a model. -/
noncomputable def NetNode.layer (E : NetEnv) (s : NetState) : NetNode → Layer
  | .leaf id => leafForward E s id
  | .plain L => L
  | .chain _ layers => Thinc.chain (NetNode.layersOf E s layers)
  | .add _ layers => addLayers (NetNode.layersOf E s layers)
  | .concatenate _ layers => concatenateForward (NetNode.layersOf E s layers)
  | .residual _ layer => Thinc.residual (NetNode.layer E s layer)
noncomputable def NetNode.layersOf (E : NetEnv) (s : NetState) : List NetNode → List Layer
  | [] => []
  | t :: ts => t.layer E s :: NetNode.layersOf E s ts
end

/-- thinc/model.py:330-334 `Model.predict` -/
noncomputable def NetNode.predict (E : NetEnv) (s : NetState) (t : NetNode) (X : Val) : Except PyErr Val := do
  let r ← t.layer E s false s.params X
  return r.1

/-! ### The init functions of the leaves -/

/-- `if X is not None: model.set_dim("nI", get_width(X))` -/
def NetState.inferI (s : NetState) (id : Nat) (X : Option Val) : Except PyErr NetState :=
  match X with
  | none => .ok s
  | some x => do s.setI id (← getWidth x)

/-- `if Y is not None: model.set_dim("nO", get_width(Y))` -/
def NetState.inferO (s : NetState) (id : Nat) (Y : Option Val) : Except PyErr NetState :=
  match Y with
  | none => .ok s
  | some y => do s.setO id (← getWidth y)

/-- The end of the init functions: the parameters are allocated.  `shapes nO nI` are the shapes of W and b; the
three-dimensional W of Maxout is stored with two dimensions (see `maxoutLayer`). -/
def NetState.alloc (s : NetState) (E : NetEnv) (id : Nat) (shapes : Nat → Nat → (Nat × Nat) × Nat × Nat) :
    Except PyErr NetState := do
  let nO ← dimValue (s.nO id)
  let nI ← dimValue (s.nI id)
  let sh := shapes nO nI
  return s.setParams E id sh.1 sh.2

/-- thinc/layers/linear.py:49-61 `init`; the other dense layers have the same. -/
def denseInit (E : NetEnv) (id : Nat) (X Y : Option Val) (s : NetState) : Except PyErr NetState := do
  let s ← s.inferI id X
  let s ← s.inferO id Y
  s.alloc E id fun nO nI => ((nO, nI), (1, nO))

/-- thinc/layers/maxout.py:69-82 `init` -/
def maxoutInit (E : NetEnv) (nP id : Nat) (X Y : Option Val) (s : NetState) : Except PyErr NetState := do
  let s ← s.inferI id X
  let s ← s.inferO id Y
  s.alloc E id fun nO nI => ((nO * nP, nI), (nO, nP))

/-- `if X is not None and model.has_dim("nI") is None: …` -/
def NetState.inferUnsetI (s : NetState) (id : Nat) (X : Option Val) : Except PyErr NetState :=
  if s.nI id = some none then s.inferI id X else .ok s

/-- `if Y is not None and model.has_dim("nO") is None: …` -/
def NetState.inferUnsetO (s : NetState) (id : Nat) (Y : Option Val) : Except PyErr NetState :=
  if s.nO id = some none then s.inferO id Y else .ok s

/-- thinc/layers/softmax.py:97-109 `init`: the dimensions are inferred only if they are unset, and not checked
otherwise. -/
def softmaxInit (E : NetEnv) (id : Nat) (X Y : Option Val) (s : NetState) : Except PyErr NetState := do
  let s ← s.inferUnsetI id X
  let s ← s.inferUnsetO id Y
  s.alloc E id fun nO nI => ((nO, nI), (1, nO))

/-- thinc/layers/layernorm.py:42-49 -/
def layerNormInfer (id : Nat) (X Y : Option Val) (s : NetState) : Except PyErr NetState :=
  match X, Y with
  | some x, _ => do
    let w ← getWidth x
    let s ← s.setI id w
    s.setO id w
  | none, some y => do
    let w ← getWidth y
    let s ← s.setI id w
    s.setO id w
  | none, none => .ok s

/-- `if not model.has_dim("nO"): model.set_dim("nO", nI)` -/
def NetState.defaultO (s : NetState) (id nI : Nat) : Except PyErr NetState :=
  if s.nO id = some none ∨ s.nO id = none then s.setO id nI else .ok s

/-- thinc/layers/layernorm.py:39-55 `init`.  (The arrays of ones and zeros are here any arrays.) -/
def layerNormInit (E : NetEnv) (id : Nat) (X Y : Option Val) (s : NetState) : Except PyErr NetState := do
  let s ← layerNormInfer id X Y s
  let nI ← dimValue (s.nI id)
  let s ← s.defaultO id nI
  s.alloc E id fun _ nI => ((1, nI), (1, nI))

/-- The init function of a leaf. -/
def leafInit (E : NetEnv) (id : Nat) (X Y : Option Val) (s : NetState) : Except PyErr NetState :=
  match E.kind id with
  | .linear => denseInit E id X Y s
  | .dense _ _ _ => denseInit E id X Y s
  | .softmax _ => softmaxInit E id X Y s
  | .maxout nP _ _ => maxoutInit E nP id X Y s
  | .layerNorm => layerNormInit E id X Y s

/-! ### The init functions of the combinators -/

/-- `if layer.has_dim("nI"): model.set_dim("nI", layer.get_dim("nI"))` -/
def NetState.copyI (s : NetState) (id : Nat) (layer : Option NetNode) : Except PyErr NetState :=
  match layer with
  | none => .error .indexError
  | some l => match l.dimI s with
    | some (some v) => s.setI id v
    | _ => .ok s

/-- `if layer.has_dim("nO"): model.set_dim("nO", layer.get_dim("nO"))` -/
def NetState.copyO (s : NetState) (id : Nat) (layer : Option NetNode) : Except PyErr NetState :=
  match layer with
  | none => .error .indexError
  | some l => match l.dimO s with
    | some (some v) => s.setO id v
    | _ => .ok s

/-- thinc/layers/chain.py:72-78: without data all layers are initialized here, and once more in the loop; `inits` is the
result of the first time. -/
def chainStart (id : Nat) (layers : List NetNode) (X Y : Option Val) (inits : Except PyErr NetState) (s : NetState) :
    Except PyErr NetState :=
  if X.isNone && Y.isNone then do
    let s ← inits
    let s ← s.copyI id layers.head?
    s.copyO id layers.getLast?
  else .ok s

/-- thinc/layers/chain.py:95-102: nO of a chain is the width of the output if there is one, otherwise that of the last
layer. -/
def chainSetO (id : Nat) (layers : List NetNode) (cur : Option Val) (s : NetState) : Except PyErr NetState :=
  match cur with
  | none => s.copyO id layers.getLast?
  | some v => match getWidth v with
    | .ok w => s.setO id w
    | .error .valueError => s.copyO id layers.getLast?
    | .error e => .error e

/-- thinc/layers/chain.py:93-102: the end of `init`. -/
def chainFinish (id : Nat) (layers : List NetNode) (cur : Option Val) (s : NetState) : Except PyErr NetState := do
  let s ← s.copyI id layers.head?
  if s.nO id = some none then chainSetO id layers cur s else .ok s

/-- `if layer.has_dim("nI") is not False: layer.set_dim("nI", w)` -/
def NetNode.setIIfAny (l : NetNode) (s : NetState) (w : Nat) : Except PyErr NetState :=
  if l.dimI s = none then .ok s else l.setI s w

/-- `if layer.has_dim("nO") is not False: layer.set_dim("nO", w)` -/
def NetNode.setOIfAny (l : NetNode) (s : NetState) (w : Nat) : Except PyErr NetState :=
  if l.dimO s = none then .ok s else l.setO s w

/-- `if model.has_dim("nI") is not False: model.set_dim("nI", w)` -/
def NetState.setIIfAny (s : NetState) (id w : Nat) : Except PyErr NetState :=
  if s.nI id = none then .ok s else s.setI id w

/-- `if model.has_dim("nO") is not False: model.set_dim("nO", w)` -/
def NetState.setOIfAny (s : NetState) (id w : Nat) : Except PyErr NetState :=
  if s.nO id = none then .ok s else s.setO id w

/-- `for layer in model.layers: if layer.has_dim("nI") is not False: layer.set_dim("nI", w)` -/
def setAllI (w : Nat) : List NetNode → NetState → Except PyErr NetState
  | [], s => .ok s
  | l :: ls, s => do
    let s ← l.setIIfAny s w
    setAllI w ls s

/-- `for layer in model.layers: if layer.has_dim("nO") is not False: layer.set_dim("nO", w)` -/
def setAllO (w : Nat) : List NetNode → NetState → Except PyErr NetState
  | [], s => .ok s
  | l :: ls, s => do
    let s ← l.setOIfAny s w
    setAllO w ls s

/-- thinc/layers/add.py:54-59 and thinc/layers/concatenate.py:146-151 -/
def combInferI (id : Nat) (layers : List NetNode) (X : Option Val) (s : NetState) : Except PyErr NetState :=
  match X with
  | none => .ok s
  | some x => do
    let w ← getWidth x
    let s ← s.setIIfAny id w
    setAllI w layers s

/-- thinc/layers/add.py:60-65 -/
def addInferO (id : Nat) (layers : List NetNode) (Y : Option Val) (s : NetState) : Except PyErr NetState :=
  match Y with
  | none => .ok s
  | some y => do
    let w ← getWidth y
    let s ← s.setOIfAny id w
    setAllO w layers s

/-- thinc/layers/add.py:68: `model.set_dim("nO", model.layers[0].get_dim("nO"))` -/
def addFinish (id : Nat) (layers : List NetNode) (s : NetState) : Except PyErr NetState :=
  match layers with
  | [] => .error .indexError
  | l :: _ => do s.setO id (← dimValue (l.dimO s))

/-- `sum(layer.get_dim("nO") for layer in model.layers)` if all layers have nO. -/
def sumDims (s : NetState) : List NetNode → Option Nat
  | [] => some 0
  | l :: ls => match l.dimO s with
    | some (some v) => (sumDims s ls).map (v + ·)
    | _ => none

/-- thinc/layers/concatenate.py:154-155 -/
def concatFinish (id : Nat) (layers : List NetNode) (s : NetState) : Except PyErr NetState :=
  match sumDims s layers with
  | some v => s.setO id v
  | none => .ok s

/-- The next input in the loop of `chain`: `if curr_input is not None: curr_input = layer.predict(curr_input)`. -/
noncomputable def nextInput (E : NetEnv) (s : NetState) (l : NetNode) (X : Option Val) : Except PyErr (Option Val) :=
  match X with
  | none => .ok none
  | some x => do return some (← l.predict E s x)

/-- `Y if layer.has_dim("nO") is None else None` -/
def targetFor (s : NetState) (l : NetNode) (Y : Option Val) : Option Val := if l.dimO s = some none then Y else none

mutual
/-- thinc/model.py:312-319 `Model.initialize` (without data validation) with the `init` functions:
`plain`: no init; thinc/layers/chain.py:67-102; thinc/layers/add.py:51-68; thinc/layers/concatenate.py:143-155;
thinc/layers/residual.py:53-64. -/
noncomputable def NetNode.initialize (E : NetEnv) : NetNode → Option Val → Option Val → NetState → Except PyErr NetState
  | .leaf id, X, Y, s => leafInit E id X Y s
  | .plain _, _, _, s => .ok s
  | .chain id layers, X, Y, s => do
    let s ← chainStart id layers X Y (NetNode.initAll E layers none none s) s
    let r ← NetNode.initChain E layers X Y s
    chainFinish id layers r.1 r.2
  | .add id layers, X, Y, s => do
    let s ← combInferI id layers X s
    let s ← addInferO id layers Y s
    let s ← NetNode.initAll E layers X Y s
    addFinish id layers s
  | .concatenate id layers, X, Y, s => do
    let s ← combInferI id layers X s
    let s ← NetNode.initAll E layers X Y s
    concatFinish id layers s
  | .residual id layer, X, Y, s => do
    let s ← NetNode.initialize E layer X (targetFor s layer Y) s
    let s ← s.copyO id (some layer)
    s.copyI id (some layer)
/-- `for layer in model.layers: layer.initialize(X=X, Y=Y)` -/
noncomputable def NetNode.initAll (E : NetEnv) : List NetNode → Option Val → Option Val → NetState → Except PyErr NetState
  | [], _, _, s => .ok s
  | l :: ls, X, Y, s => do
    let s ← NetNode.initialize E l X Y s
    NetNode.initAll E ls X Y s
/-- thinc/layers/chain.py:85-91: the loop over the layers; the last output and the state. -/
noncomputable def NetNode.initChain (E : NetEnv) :
    List NetNode → Option Val → Option Val → NetState → Except PyErr (Option Val × NetState)
  | [], X, _, s => .ok (X, s)
  | l :: ls, X, Y, s => do
    let s ← NetNode.initialize E l X (targetFor s l Y) s
    let X ← nextInput E s l X
    NetNode.initChain E ls X Y s
end

end Thinc
