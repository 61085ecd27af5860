import Verif.Model.TextInit
import Verif.Model.Uniqued
import Verif.Model.Cauchy
import Verif.Model.SparseLinear
import Verif.Model.Bidirectional
/-!
# Initialization of the other layers

`Verif.Model.TextInit` models `initialize` of models for text.  Here are the `init` functions of the other layers on the
same state: Embed, SparseLinear, MultiSoftmax, CauchySimilarity, ParametricAttention (version 2), and the combinators
siamese, tuplify, map_list, with_getitem, uniqued, resizable, with_cpu and bidirectional.
-/
namespace Thinc

/-- The layers with parameters that are not in `TextKind`.  The number of rows of an Embed (`nV`), the `length` of a
SparseLinear and the sizes `nOs` of a MultiSoftmax are always given. -/
inductive MoreKind where
  | embed (nV : Nat) (dropout : Option ℝ) (coinflips : Nat → Nat → ℝ) (fast : Bool)
  | sparse (length : Nat) (v1 : Bool)
  | multiSoftmax (nOs : List Nat)
  | cauchy
  /-- with a layer for the keys, see `attentionV2C` -/
  | attentionV2

/-- The kinds of the layers with parameters: `more`, and `text` for the other ones. -/
structure WideEnv where
  text : TextEnv
  more : Nat → Option MoreKind

/-- `model.set_param("W", A)` and `model.set_param("b", B)` -/
def NetState.putParams (s : NetState) (id : Nat) (A B : Mat ℝ) : NetState :=
  { s with
    params := fun p => if p = 2 * id then A else if p = 2 * id + 1 then B else s.params p
    ready := fun i => if i = id then true else s.ready i }

/-- `model.set_param("W", A)` of a layer with one parameter -/
def NetState.putParam (s : NetState) (id : Nat) (A : Mat ℝ) : NetState :=
  { s with
    params := fun p => if p = 2 * id then A else s.params p
    ready := fun i => if i = id then true else s.ready i }

/-- `X[i]` for a tuple or a list.  (Other values are a TypeError here: arrays are not modelled.) -/
def Val.item (X : Val) (i : Int) : Except PyErr Val :=
  match X with
  | .tup vs => pyIndex vs i
  | .list vs => pyIndex vs i
  | _ => .error .typeError

/-- thinc/layers/embed.py:74-83 `init` -/
def embedInit (T : TextEnv) (nV id : Nat) (Y : Option Val) (s : NetState) : Except PyErr NetState := do
  let s ← s.inferO id Y
  let nO ← dimValue (s.nO id)
  return s.setParam T id (nV, nO)

/-- thinc/layers/sparselinear.pyx:61-68 `init`; one-dimensional arrays are rows. -/
def sparseInit (length id : Nat) (Y : Option Val) (s : NetState) : Except PyErr NetState := do
  let s ← s.inferO id Y
  let nO ← dimValue (s.nO id)
  return s.putParams id (Mat.zeros 1 (nO * length)) (Mat.zeros 1 nO)

/-- thinc/layers/multisoftmax.py:48-56 `init` -/
def multiSoftmaxInit (id : Nat) (X : Option Val) (s : NetState) : Except PyErr NetState := do
  let s ← s.inferI id X
  let nO ← dimValue (s.nO id)
  let nI ← dimValue (s.nI id)
  return s.putParams id (Mat.zeros nO nI) (Mat.zeros 1 nO)

/-- thinc/layers/cauchysimilarity.py:47-55 `init`: `get_width(X[0])`, and weights that are 1. -/
def cauchyInit (id : Nat) (X : Option Val) (s : NetState) : Except PyErr NetState := do
  let s ← s.inferI id (← convertOpt (fun x => x.item 0) X)
  let nI ← dimValue (s.nI id)
  return s.putParam id (Mat.ofFn 1 nI fun _ _ => 1)

/-- thinc/layers/parametricattention_v2.py:60-63: `width` is not None and not zero. -/
def attentionV2Dims (id : Nat) (c : Comp) (w : Nat) (s : NetState) : Except PyErr NetState :=
  if w = 0 then .ok s else do
    let s ← s.setO id w
    match c.dimO s with
    | some (some _) => c.setO s w
    | _ => .ok s

/-- thinc/layers/parametricattention_v2.py:59-63 -/
def attentionV2Infer (id : Nat) (c : Comp) (X : Option Val) (s : NetState) : Except PyErr NetState :=
  match X with
  | none => .ok s
  | some x => do
    let w ← getWidth x
    attentionV2Dims id c w s

/-- `X.dataXd` -/
def Val.dataXd : Val → Except PyErr Val
  | .ragged A _ => .ok (.arr A)
  | _ => .error .attributeError

/-- thinc/layers/parametricattention_v2.py:55-73 `init` -/
def attentionV2Init (W : WideEnv) (id : Nat) (c : Comp) (X Y : Option Val) (s : NetState) : Except PyErr NetState := do
  let s ← attentionV2Infer id c X s
  let nO ← dimValue (s.nO id)
  let s := s.setParam W.text id (1, nO)
  let X ← convertOpt Val.dataXd X
  let Y ← convertOpt Val.dataXd Y
  c.init X Y s

/-- The init function of a layer of these kinds. -/
def moreInit (W : WideEnv) (id : Nat) (k : MoreKind) (X Y : Option Val) (s : NetState) : Except PyErr NetState :=
  match k with
  | .embed nV _ _ _ => embedInit W.text nV id Y s
  | .sparse length _ => sparseInit length id Y s
  | .multiSoftmax _ => multiSoftmaxInit id X s
  | .cauchy => cauchyInit id X s
  | .attentionV2 => attentionV2Init W id (plainC noop) X Y s

/-- thinc/layers/sparselinear.pyx:82-94: `nO = model.get_dim("nO")` -/
noncomputable def sparseForward (s : NetState) (id length : Nat) (v1 : Bool) : Layer := fun train P X => do
  let nO ← dimValue (s.nO id)
  sparseLinear (2 * id) (2 * id + 1) nO length v1 train P X

/-- The forward function of a layer of these kinds. -/
noncomputable def moreForward (s : NetState) (id : Nat) (k : MoreKind) : Layer :=
  match k with
  | .embed _ dropout coinflips fast => whenReady s id (embed (2 * id) dropout coinflips fast)
  | .sparse length v1 => whenReady s id (sparseForward s id length v1)
  | .multiSoftmax nOs => whenReady s id (Thinc.multiSoftmax (2 * id) (2 * id + 1) nOs)
  | .cauchy => whenReady s id (cauchySimilarity (2 * id))
  | .attentionV2 => whenReady s id (parametricAttentionV2 (2 * id) noop)

/-- A layer of one of these kinds.  (`attentionV2` is here the layer with the default for the keys, noop.) -/
noncomputable def moreC (W : WideEnv) (id : Nat) (k : MoreKind) : Comp :=
  wrapper id (moreInit W id k) fun s => moreForward s id k

/-! ### ParametricAttention with a layer for the keys -/

/-- thinc/layers/parametricattention_v2.py:15-33 `ParametricAttention_v2`: it has the dimension nO only. -/
noncomputable def attentionV2C (W : WideEnv) (id : Nat) (c : Comp) : Comp where
  dimI _ := none
  dimO s := s.nO id
  setI _ _ := .error .keyError
  setO s := s.setO id
  init := attentionV2Init W id c
  layer s := whenReady s id (parametricAttentionV2 (2 * id) (c.layer s))

/-! ### siamese -/

/-- thinc/layers/siamese.py:47-50: the encoder is initialized if there are data. -/
noncomputable def siameseEncode (c : Comp) (X : Option Val) (s : NetState) : Except PyErr (Option Val × NetState) :=
  match X with
  | none => .ok (none, s)
  | some x => do
    let x1 ← x.item 1
    let w ← getWidth x1
    let s ← c.setI s w
    let x0 ← x.item 0
    let s ← c.init (some x0) none s
    let v0 ← c.predict s x0
    let v1 ← c.predict s x1
    return (some (.tup [v0, v1]), s)

/-- thinc/layers/siamese.py:44-53 `init` -/
noncomputable def siameseInit (id : Nat) (c sim : Comp) (X Y : Option Val) (s : NetState) : Except PyErr NetState := do
  let r ← siameseEncode c X s
  let s ← sim.init r.1 Y r.2
  let i ← dimValue (c.dimI s)
  let s ← s.setI id i
  let o ← dimValue (sim.dimO s)
  s.setO id o

/-- thinc/layers/siamese.py:14-24 `siamese` -/
noncomputable def siameseC (id : Nat) (c sim : Comp) : Comp :=
  wrapper id (siameseInit id c sim) fun s => siamese (c.layer s) (sim.layer s)

/-! ### tuplify -/

/-- thinc/layers/tuplify.py:53-57 -/
def tuplifyStart (id : Nat) (layers : List Comp) (X Y : Option Val) (s : NetState) : Except PyErr NetState :=
  if X.isNone && Y.isNone then do
    let s ← initAllC layers none none s
    copyFirstI id layers s
  else .ok s

/-- `Y[ii]` if `Y is not None and layer.has_dim("nO") is None`, else None -/
def tuplifyTarget (l : Comp) (ii : Nat) (Y : Option Val) (s : NetState) : Except PyErr (Option Val) :=
  if l.dimO s = some none then convertOpt (fun y => y.item ii) Y else .ok none

/-- thinc/layers/tuplify.py:62-66: the loop over the layers -/
def initTuplify : List Comp → Nat → Option Val → Option Val → NetState → Except PyErr NetState
  | [], _, _, _, s => .ok s
  | l :: ls, ii, X, Y, s => do
    let y ← tuplifyTarget l ii Y s
    let s ← l.init X y s
    initTuplify ls (ii + 1) X Y s

/-- thinc/layers/tuplify.py:50-70 `init` -/
def tuplifyInit (id : Nat) (layers : List Comp) (X Y : Option Val) (s : NetState) : Except PyErr NetState := do
  let s ← tuplifyStart id layers X Y s
  let s ← initTuplify layers 0 X Y s
  copyFirstI id layers s

/-- thinc/layers/tuplify.py:11-29 `tuplify`: it has the dimension nI only. -/
noncomputable def tuplifyC (id : Nat) (layers : List Comp) : Comp where
  dimI s := s.nI id
  dimO _ := none
  setI s := s.setI id
  setO _ _ := .error .keyError
  init := tuplifyInit id layers
  layer s := tuplify (layers.map fun c => c.layer s)

/-! ### Wrappers of one layer -/

/-- `X[0] if X else None` for a list or a tuple.  (Other values are a TypeError here: arrays are not modelled.) -/
def firstIfAny : Option Val → Except PyErr (Option Val)
  | none => .ok none
  | some (.list []) => .ok none
  | some (.list (v :: _)) => .ok (some v)
  | some (.tup []) => .ok none
  | some (.tup (v :: _)) => .ok (some v)
  | some _ => .error .typeError

/-- thinc/layers/map_list.py:31-36 `init` -/
def mapListInit (c : Comp) (X Y : Option Val) (s : NetState) : Except PyErr NetState := do
  let x ← firstIfAny X
  let y ← firstIfAny Y
  c.init x y s

/-- thinc/layers/map_list.py:9-11 `map_list` -/
def mapListC (c : Comp) : Comp := bareWrapper (mapListInit c) fun s => mapList (c.layer s)

/-- thinc/layers/with_getitem.py:37-43 `init` -/
def withGetitemInit (idx : Int) (c : Comp) (X Y : Option Val) (s : NetState) : Except PyErr NetState :=
  convertInit (fun x => x.item idx) c X Y s

/-- thinc/layers/with_getitem.py:10-21 `with_getitem` -/
def withGetitemC (idx : Int) (c : Comp) : Comp := bareWrapper (withGetitemInit idx c) fun s => withGetitem idx (c.layer s)

/-- thinc/layers/uniqued.py:57-65 `init` -/
def uniquedInit (id : Nat) (c : Comp) (X Y : Option Val) (s : NetState) : Except PyErr NetState := do
  let s ← c.init X Y s
  let s ← c.copyI id s
  c.copyO id s

/-- thinc/layers/uniqued.py:12-28 `uniqued` -/
noncomputable def uniquedC (id : Nat) (column : Int) (fast : Bool) (c : Comp) : Comp :=
  wrapper id (uniquedInit id c) fun s => uniqued (c.layer s) column fast

/-- thinc/layers/resizable.py:11-38 `resizable`; it has the dimensions that the layer has when it is wrapped; they are not
updated. -/
def resizableC (id : Nat) (c : Comp) : Comp := wrapper id c.init c.layer

/-- thinc/layers/with_cpu.py:11-36 `with_cpu`; its dimensions are not updated.  `forward` calls `begin_update`, so the layer is
always in training mode.  (On the CPU `_to_cpu` and `_to_device` return arrays, and lists and tuples of arrays, unchanged;
Ragged and Padded are not modelled.) -/
def withCpuC (id : Nat) (c : Comp) : Comp := wrapper id c.init fun s _ P X => c.layer s true P X

/-- thinc/layers/bidirectional.py:41: `_split(model.ops, Y) if Y is not None else (None, None)` -/
def splitOpt : Option Val → Except PyErr (Option Val × Option Val)
  | none => .ok (none, none)
  | some y => do
    let r ← bidiSplit y
    return (some r.1, some r.2)

/-- thinc/layers/bidirectional.py:38-43 `init` -/
def bidirectionalInit (l2r r2l : Comp) (X Y : Option Val) (s : NetState) : Except PyErr NetState := do
  let ys ← splitOpt Y
  let s ← l2r.init X ys.1 s
  r2l.init X ys.2 s

/-- thinc/layers/bidirectional.py:12-19 `bidirectional` -/
def bidirectionalC (l2r r2l : Comp) : Comp :=
  bareWrapper (bidirectionalInit l2r r2l) fun s => bidirectional (l2r.layer s) (r2l.layer s)

end Thinc
