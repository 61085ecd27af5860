import Verif.Model.Initialize
import Verif.Model.TextLayers
import Verif.Model.Attention
import Verif.Model.PoolLayers
import Verif.Model.WindowLayer
/-!
# Initialization of models for text

`Verif.Model.Initialize` models `initialize` of networks on arrays.  Here are the layers around them: embedding tables,
attention, the wrappers for sequences, and the combinators of `Verif.Model.Initialize` again, for layers of any of these
kinds.  A layer is a record of what a combinator does with it.
-/
namespace Thinc

/-- The layers with parameters: those of `Verif.Model.Initialize`, HashEmbed (its number of rows and its seed are always
given; `coinflips` and `fast` as in `hashEmbed`), and ParametricAttention (version 1). -/
inductive TextKind where
  | net (k : LeafKind)
  | hashEmbed (nV : Nat) (seed : BitVec 32) (dropout : Option ℝ) (coinflips : Nat → Nat → ℝ) (fast : Bool)
  | attention

/-- The kinds of the layers with parameters, and the numbers that the initializers draw. -/
structure TextEnv where
  kind : Nat → TextKind
  rnd : Nat → Nat → Nat → ℝ

/-- The same for the layers of `Verif.Model.Initialize`; the other ones do not matter. -/
def TextEnv.net (T : TextEnv) : NetEnv where
  kind id := match T.kind id with
    | .net k => k
    | _ => .linear
  rnd := T.rnd

/-- A layer as its combinators see it: `get_dim` and `set_dim` for nI and nO, `initialize` (thinc/model.py:312-319, without
data validation), and the forward function. -/
structure Comp where
  dimI : NetState → Option (Option Nat)
  dimO : NetState → Option (Option Nat)
  setI : NetState → Nat → Except PyErr NetState
  setO : NetState → Nat → Except PyErr NetState
  init : Option Val → Option Val → NetState → Except PyErr NetState
  layer : NetState → Layer

/-- thinc/model.py:330-334 `Model.predict` -/
noncomputable def Comp.predict (c : Comp) (s : NetState) (X : Val) : Except PyErr Val := do
  let r ← c.layer s false s.params X
  return r.1

/-! ### Layers with parameters -/

/-- `model.set_param(…)`: the only parameter of the layer gets an array of the given shape. -/
def NetState.setParam (s : NetState) (T : TextEnv) (id : Nat) (sh : Nat × Nat) : NetState :=
  { s with
    params := fun p => if p = 2 * id then Mat.ofFn sh.1 sh.2 (T.rnd s.draws) else s.params p
    ready := fun i => if i = id then true else s.ready i
    draws := s.draws + 1 }

/-- thinc/layers/hashembed.py:94-101 `init`: the example data are not looked at. -/
def hashEmbedInit (T : TextEnv) (nV id : Nat) (s : NetState) : Except PyErr NetState := do
  let nO ← dimValue (s.nO id)
  return s.setParam T id (nV, nO)

/-- thinc/layers/parametricattention.py:33-41 `init`.  (The parameter Q is a row.) -/
def attentionInit (T : TextEnv) (id : Nat) (X : Option Val) (s : NetState) : Except PyErr NetState := do
  let s ← s.inferO id X
  let nO ← dimValue (s.nO id)
  return s.setParam T id (1, nO)

/-- The init function of a layer with parameters. -/
def textInit (T : TextEnv) (id : Nat) (X Y : Option Val) (s : NetState) : Except PyErr NetState :=
  match T.kind id with
  | .net _ => leafInit T.net id X Y s
  | .hashEmbed nV _ _ _ _ => hashEmbedInit T nV id s
  | .attention => attentionInit T id X s

/-- `get_param` raises KeyError before the layer is initialized. -/
def whenReady (s : NetState) (id : Nat) (L : Layer) : Layer := fun train P X =>
  if s.ready id = false then .error .keyError else L train P X

/-- The forward function of a layer with parameters. -/
noncomputable def textForward (T : TextEnv) (s : NetState) (id : Nat) : Layer :=
  match T.kind id with
  | .net _ => leafForward T.net s id
  | .hashEmbed _ seed dropout coinflips fast => whenReady s id (hashEmbed (2 * id) seed dropout coinflips fast)
  | .attention => whenReady s id (parametricAttention (2 * id))

/-- A layer with parameters. -/
noncomputable def leafC (T : TextEnv) (id : Nat) : Comp where
  dimI s := s.nI id
  dimO s := s.nO id
  setI s := s.setI id
  setO s := s.setO id
  init := textInit T id
  layer s := textForward T s id

/-- A layer without dimensions and without `init`. -/
def plainC (L : Layer) : Comp where
  dimI _ := none
  dimO _ := none
  setI _ _ := .error .keyError
  setO _ _ := .error .keyError
  init _ _ s := .ok s
  layer _ := L

/-! ### Wrappers for sequences -/

/-- thinc/backends/ops.py:319-344 `Ops.flatten` without padding, for a list of arrays of one kind. -/
def flattenVals (vs : List Val) : Except PyErr Val :=
  match vs.mapM Val.asArr, vs.mapM Val.asIntMat, vs.mapM Val.asInts with
  | .ok As, _, _ => (opsFlatten (As.map Mat.toArr) 0).map fun x => .arr x.toMat
  | _, .ok As, _ => (opsFlatten (As.map Mat.toArr) 0).map fun x => .intMat x.toMat
  | _, _, .ok ks => .ok (.ints ks.flatten)
  | _, _, _ => .error .typeError

/-- thinc/layers/with_array.py:59-67 and thinc/layers/with_array2d.py:59-69 `_get_array`.  (The data of a `Padded` are
two-dimensional here, see `Val`.) -/
def Val.getArray : Val → Except PyErr Val
  | .ragged A _ => .ok (.arr A)
  | .padded A _ _ _ _ => .ok (.arr A)
  | .list vs => flattenVals vs
  | .tup vs => flattenVals vs
  | v => .ok v

/-- thinc/layers/with_list.py:42-48 `_get_list` -/
def Val.getList : Val → Except PyErr Val
  | .padded A steps sizeAtT lengths indices => do
    return Val.ofArrays (← unpadList (← (Val.padded A steps sizeAtT lengths indices).asPadded))
  | .ragged A lengths => do return Val.ofArrays (← opsUnflatten A.toArr lengths 0)
  | v => .ok v

/-- thinc/layers/with_ragged.py:54-67 `_get_ragged`.  (A tuple of two is a TypeError here, as in `withRaggedL`.) -/
def Val.getRagged : Val → Except PyErr Val
  | .ragged A lengths => .ok (.ragged A lengths)
  | .padded A steps sizeAtT lengths indices => do
    let Xs ← unpadList (← (Val.padded A steps sizeAtT lengths indices).asPadded)
    return Val.ofRagged (Ragged.make (← opsFlatten Xs 0) (Xs.map Arr.len))
  | .tup [_, _] => .error .typeError
  | v => do
    let Xs ← v.arrays
    return Val.ofRagged (Ragged.make (← opsFlatten Xs 0) (Xs.map Arr.len))

/-- thinc/layers/with_padded.py:59-74 `_get_padded`, without the variants for a tuple of four arrays and for a
three-dimensional array. -/
def Val.getPadded : Val → Except PyErr Val
  | .padded A steps sizeAtT lengths indices => .ok (.padded A steps sizeAtT lengths indices)
  | .ragged A lengths => do return Val.ofPadded (← list2padded (← opsUnflatten A.toArr lengths 0))
  | .list vs => do return Val.ofPadded (← list2padded (← (Val.list vs).arrays))
  | _ => .error .assertionError

/-- `f(x) if x is not None else None` -/
def convertOpt (f : Val → Except PyErr Val) : Option Val → Except PyErr (Option Val)
  | none => .ok none
  | some x => do return some (← f x)

/-- `if layer.has_dim("nI"): model.set_dim("nI", layer.get_dim("nI"))` -/
def Comp.copyI (id : Nat) (l : Comp) (s : NetState) : Except PyErr NetState :=
  match l.dimI s with
  | some (some v) => s.setI id v
  | _ => .ok s

/-- `if layer.has_dim("nO"): model.set_dim("nO", layer.get_dim("nO"))` -/
def Comp.copyO (id : Nat) (l : Comp) (s : NetState) : Except PyErr NetState :=
  match l.dimO s with
  | some (some v) => s.setO id v
  | _ => .ok s

/-- A wrapper with its own dimensions. -/
def wrapper (id : Nat) (init : Option Val → Option Val → NetState → Except PyErr NetState) (layer : NetState → Layer) : Comp where
  dimI s := s.nI id
  dimO s := s.nO id
  setI s := s.setI id
  setO s := s.setO id
  init := init
  layer := layer

/-- A wrapper without dimensions. -/
def bareWrapper (init : Option Val → Option Val → NetState → Except PyErr NetState) (layer : NetState → Layer) : Comp where
  dimI _ := none
  dimO _ := none
  setI _ _ := .error .keyError
  setO _ _ := .error .keyError
  init := init
  layer := layer

/-- thinc/layers/with_array.py:45-56 and thinc/layers/with_array2d.py:45-56 `init` -/
def withArrayInit (id : Nat) (c : Comp) (X Y : Option Val) (s : NetState) : Except PyErr NetState := do
  let X ← convertOpt Val.getArray X
  let Y ← convertOpt Val.getArray Y
  let s ← c.init X Y s
  let s ← c.copyO id s
  c.copyI id s

/-- thinc/layers/with_array.py:32-42 and thinc/layers/with_array2d.py:31-43 `forward`: a list of integer arrays, or anything
else. -/
def withArrayAny (layer : Layer) (pad : Nat) : Layer := fun train P X =>
  match X with
  | .list (.intMat A :: vs) => withArrayIdsL layer pad train P (.list (.intMat A :: vs))
  | X => withArray2dL layer pad train P X

/-- thinc/layers/with_array2d.py:15-28 `with_array2d`, and thinc/layers/with_array.py:15-29 `with_array` for inputs that
are no `Padded`. -/
def withArrayC (id : Nat) (pad : Nat) (c : Comp) : Comp :=
  wrapper id (withArrayInit id c) fun s => withArrayAny (c.layer s) pad

/-- The init functions of the other three wrappers: thinc/layers/with_list.py:33-39, thinc/layers/with_ragged.py:39-47,
thinc/layers/with_padded.py:46-52. -/
def convertInit (f : Val → Except PyErr Val) (c : Comp) (X Y : Option Val) (s : NetState) : Except PyErr NetState := do
  let X ← convertOpt f X
  let Y ← convertOpt f Y
  c.init X Y s

/-- thinc/layers/with_list.py:10-18 `with_list`: it has the dimensions that the layer has when it is wrapped; they are not
updated. -/
def withListC (id : Nat) (c : Comp) : Comp := wrapper id (convertInit Val.getList c) fun s => withListL (c.layer s)

/-- thinc/layers/with_ragged.py:15-17 `with_ragged` -/
def withRaggedC (c : Comp) : Comp := bareWrapper (convertInit Val.getRagged c) fun s => withRaggedL (c.layer s)

/-- thinc/layers/with_padded.py:12-20 `with_padded`; its dimensions are not updated. -/
def withPaddedC (id : Nat) (c : Comp) : Comp := wrapper id (convertInit Val.getPadded c) fun s => withPaddedL (c.layer s)

/-! ### chain -/

/-- `if layers[0].has_dim("nI"): …`; without layers IndexError. -/
def copyFirstI (id : Nat) (layers : List Comp) (s : NetState) : Except PyErr NetState :=
  match layers.head? with
  | none => .error .indexError
  | some l => l.copyI id s

/-- `if layers[-1].has_dim("nO"): …` -/
def copyLastO (id : Nat) (layers : List Comp) (s : NetState) : Except PyErr NetState :=
  match layers.getLast? with
  | none => .error .indexError
  | some l => l.copyO id s

/-- `for layer in model.layers: layer.initialize(X=X, Y=Y)` -/
def initAllC : List Comp → Option Val → Option Val → NetState → Except PyErr NetState
  | [], _, _, s => .ok s
  | l :: ls, X, Y, s => do
    let s ← l.init X Y s
    initAllC ls X Y s

/-- `Y if layer.has_dim("nO") is None else None` -/
def Comp.target (l : Comp) (s : NetState) (Y : Option Val) : Option Val := if l.dimO s = some none then Y else none

/-- `if curr_input is not None: curr_input = layer.predict(curr_input)` -/
noncomputable def Comp.next (l : Comp) (s : NetState) (X : Option Val) : Except PyErr (Option Val) :=
  match X with
  | none => .ok none
  | some x => do return some (← l.predict s x)

/-- thinc/layers/chain.py:85-91: the loop over the layers; the last output and the state. -/
noncomputable def initChainC : List Comp → Option Val → Option Val → NetState → Except PyErr (Option Val × NetState)
  | [], X, _, s => .ok (X, s)
  | l :: ls, X, Y, s => do
    let s ← l.init X (l.target s Y) s
    let X ← l.next s X
    initChainC ls X Y s

/-- thinc/layers/chain.py:72-78 -/
def chainStartC (id : Nat) (layers : List Comp) (X Y : Option Val) (s : NetState) : Except PyErr NetState :=
  if X.isNone && Y.isNone then do
    let s ← initAllC layers none none s
    let s ← copyFirstI id layers s
    copyLastO id layers s
  else .ok s

/-- thinc/layers/chain.py:95-102 -/
def chainSetOC (id : Nat) (layers : List Comp) (cur : Option Val) (s : NetState) : Except PyErr NetState :=
  match cur with
  | none => copyLastO id layers s
  | some v => match getWidth v with
    | .ok w => s.setO id w
    | .error .valueError => copyLastO id layers s
    | .error e => .error e

/-- thinc/layers/chain.py:93-102 -/
def chainFinishC (id : Nat) (layers : List Comp) (cur : Option Val) (s : NetState) : Except PyErr NetState := do
  let s ← copyFirstI id layers s
  if s.nO id = some none then chainSetOC id layers cur s else .ok s

/-- thinc/layers/chain.py:67-102 `init` -/
noncomputable def chainInitC (id : Nat) (layers : List Comp) (X Y : Option Val) (s : NetState) : Except PyErr NetState := do
  let s ← chainStartC id layers X Y s
  let r ← initChainC layers X Y s
  chainFinishC id layers r.1 r.2

/-- thinc/layers/chain.py:18-45 `chain` -/
noncomputable def chainC (id : Nat) (layers : List Comp) : Comp :=
  wrapper id (chainInitC id layers) fun s => Thinc.chain (layers.map fun c => c.layer s)

/-! ### add, concatenate, residual -/

/-- `if layer.has_dim("nI") is not False: layer.set_dim("nI", w)` -/
def Comp.setIIfAny (l : Comp) (s : NetState) (w : Nat) : Except PyErr NetState := if l.dimI s = none then .ok s else l.setI s w

/-- `if layer.has_dim("nO") is not False: layer.set_dim("nO", w)` -/
def Comp.setOIfAny (l : Comp) (s : NetState) (w : Nat) : Except PyErr NetState := if l.dimO s = none then .ok s else l.setO s w

/-- `for layer in model.layers: if layer.has_dim("nI") is not False: layer.set_dim("nI", w)` -/
def setAllIC (w : Nat) : List Comp → NetState → Except PyErr NetState
  | [], s => .ok s
  | l :: ls, s => do
    let s ← l.setIIfAny s w
    setAllIC w ls s

/-- The same for nO. -/
def setAllOC (w : Nat) : List Comp → NetState → Except PyErr NetState
  | [], s => .ok s
  | l :: ls, s => do
    let s ← l.setOIfAny s w
    setAllOC w ls s

/-- thinc/layers/add.py:54-59 and thinc/layers/concatenate.py:146-151 -/
def combInferIC (id : Nat) (layers : List Comp) (X : Option Val) (s : NetState) : Except PyErr NetState :=
  match X with
  | none => .ok s
  | some x => do
    let w ← getWidth x
    let s ← s.setIIfAny id w
    setAllIC w layers s

/-- thinc/layers/add.py:60-65 -/
def addInferOC (id : Nat) (layers : List Comp) (Y : Option Val) (s : NetState) : Except PyErr NetState :=
  match Y with
  | none => .ok s
  | some y => do
    let w ← getWidth y
    let s ← s.setOIfAny id w
    setAllOC w layers s

/-- thinc/layers/add.py:68 -/
def addFinishC (id : Nat) (layers : List Comp) (s : NetState) : Except PyErr NetState :=
  match layers with
  | [] => .error .indexError
  | l :: _ => do s.setO id (← dimValue (l.dimO s))

/-- thinc/layers/add.py:51-68 `init` -/
def addInitC (id : Nat) (layers : List Comp) (X Y : Option Val) (s : NetState) : Except PyErr NetState := do
  let s ← combInferIC id layers X s
  let s ← addInferOC id layers Y s
  let s ← initAllC layers X Y s
  addFinishC id layers s

/-- thinc/layers/add.py:12-29 `add` -/
noncomputable def addC (id : Nat) (layers : List Comp) : Comp :=
  wrapper id (addInitC id layers) fun s => addLayers (layers.map fun c => c.layer s)

/-- `sum(layer.get_dim("nO") for layer in model.layers)` if all layers have nO. -/
def sumDimsC (s : NetState) : List Comp → Option Nat
  | [] => some 0
  | l :: ls => match l.dimO s with
    | some (some v) => (sumDimsC s ls).map (v + ·)
    | _ => none

/-- thinc/layers/concatenate.py:154-155 -/
def concatFinishC (id : Nat) (layers : List Comp) (s : NetState) : Except PyErr NetState :=
  match sumDimsC s layers with
  | some v => s.setO id v
  | none => .ok s

/-- thinc/layers/concatenate.py:143-155 `init` -/
def concatInitC (id : Nat) (layers : List Comp) (X Y : Option Val) (s : NetState) : Except PyErr NetState := do
  let s ← combInferIC id layers X s
  let s ← initAllC layers X Y s
  concatFinishC id layers s

/-- thinc/layers/concatenate.py:28-53 `concatenate` with at least two layers -/
noncomputable def concatenateC (id : Nat) (layers : List Comp) : Comp :=
  wrapper id (concatInitC id layers) fun s => concatenateForward (layers.map fun c => c.layer s)

/-- thinc/layers/residual.py:53-64 `init` -/
def residualInitC (id : Nat) (c : Comp) (X Y : Option Val) (s : NetState) : Except PyErr NetState := do
  let s ← c.init X (c.target s Y) s
  let s ← c.copyO id s
  c.copyI id s

/-- thinc/layers/residual.py:14-25 `residual` -/
noncomputable def residualC (id : Nat) (c : Comp) : Comp :=
  wrapper id (residualInitC id c) fun s => Thinc.residual (c.layer s)

end Thinc
