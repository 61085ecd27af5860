import Verif.Model.GraphEdit
/-!
# `to_dict`, `from_dict`, `can_from_dict` (thinc/model.py lines 571-747)

Simplifications, for the whole file:
* the byte level (`srsly.msgpack`, `convert_recursive`, disk files) is in Model/Disk.lean; here the
  message is the Python dict that `to_dict` returns and `from_dict` takes;
* `serialize_attr`, `deserialize_attr`, `Shim.to_bytes`, `Shim.from_bytes` and `array.shape` are
  parameters (`SerOps`): users register their own;
* a message without the key "nodes" is modelled (`nodes = none`), as are lists that are too
  short or too long; messages without the keys "attrs", "params", "shims", or whose node entries
  lack "name", "dims" or "refs", are not.
-/
namespace Thinc
variable {V A S B Sh : Type}

/-- The pluggable operations used by serialization. -/
structure SerOps (V A S B Sh : Type) where
  /-- `serialize_attr(value, value, name, node)`, model.py:811-818 -/
  ser : A → Except PyErr B
  /-- `deserialize_attr(default_value, value, attr, node)`, model.py:821-827; the first argument
  is the target's current value, on whose type it dispatches -/
  deser : Option A → B → Except PyErr A
  /-- `shim.to_bytes()` -/
  toBytes : S → Except PyErr B
  /-- `shim.from_bytes(data)`, run on a shim with the given content -/
  fromBytes : S → B → Except PyErr S
  /-- `param.shape` -/
  shape : V → Sh

/-- One entry of `msg["nodes"]` (its "index" entry is never read). -/
structure NodeInfo where
  name : String
  dims : PyDict String (Option Nat)
  refs : PyDict String (Option Int)
  deriving DecidableEq, Repr

/-- The dict returned by `to_dict`. -/
structure Msg (V B : Type) where
  nodes : Option (List NodeInfo)
  attrs : List (PyDict String B)
  params : List (PyDict String (Option V))
  shims : List (List B)
  deriving DecidableEq, Repr

/-- `[f(x) for x in xs]` where `f` may raise. -/
def mapE {ε α β : Type} (f : α → Except ε β) : List α → Except ε (List β)
  | [] => .ok []
  | x :: xs => match f x with
    | .error e => .error e
    | .ok y => match mapE f xs with
      | .error e => .error e
      | .ok ys => .ok (y :: ys)

/-- The objects that `from_dict` mutates. -/
structure LoadState (V A S : Type) where
  nodes : Heap V A
  shims : List S

/-! ## to_dict -/

/-- `node_to_i = {node.id: i for i, node in enumerate(nodes)}`, model.py:586-587. -/
def nodeToI (h : Heap V A) : List Addr → Nat → PyDict Nat Nat → PyDict Nat Nat
  | [], _, d => d
  | a :: as, i, d => nodeToI h as (i + 1) (match h[a]? with | some n => d.set n.id i | none => d)

/-- The loop over `node.ref_names`, model.py:591-600: the refs and the invalid names. -/
def refsToDict (h : Heap V A) (toI : PyDict Nat Nat) (n : Node V A) :
    List String → PyDict String (Option Int) × List String
  | [] => ([], [])
  | name :: rest =>
    let (refs, invalid) := refsToDict h toI n rest
    if n.hasRef name = some true then
      match n.getRef name with
      | .error _ => (refs, invalid)
      | .ok r => match h[r]? with
        | none => (refs, invalid)
        | some rn => match toI.get? rn.id with
          | some i => ((name, some (i : Int)) :: refs, invalid)
          | none => (refs, name :: invalid)
    else ((name, none) :: refs, invalid)

/-- The body of the first loop of `to_dict`, model.py:588-608. -/
def nodeInfo (h : Heap V A) (toI : PyDict Nat Nat) (a : Addr) : Except PyErr NodeInfo :=
  match h[a]? with
  | none => .error .attributeError
  | some n =>
    let (refs, invalid) := refsToDict h toI n n.refNames
    if invalid ≠ [] then .error .valueError
    else
      let dims := n.dimNames.map fun d =>
        (d, if n.hasDim d = some true then (match n.getDim d with | .ok v => some v | .error _ => none) else none)
      .ok { name := n.name, dims := dims, refs := refs }

/-- `attrs` of one node, model.py:610-616: attributes whose serialization raises TypeError are
left out, other exceptions propagate. -/
def attrsToDict (ops : SerOps V A S B Sh) : PyDict String A → Except PyErr (PyDict String B)
  | [] => .ok []
  | (name, v) :: rest =>
    match ops.ser v with
    | .error .typeError => attrsToDict ops rest
    | .error e => .error e
    | .ok b => match attrsToDict ops rest with
      | .error e => .error e
      | .ok r => .ok ((name, b) :: r)

/-- `params` of one node, model.py:620-626. -/
def paramsToDict (n : Node V A) : List String → Except PyErr (PyDict String (Option V))
  | [] => .ok []
  | k :: ks =>
    if n.hasParam k = some true then
      match n.getParam k with
      | .error e => .error e
      | .ok v => (paramsToDict n ks).map fun r => (k, some v) :: r
    else (paramsToDict n ks).map fun r => (k, none) :: r

/-- Body of the loop over nodes at model.py:609-616. -/
def nodeAttrs (ops : SerOps V A S B Sh) (s : LoadState V A S) (a : Addr) : Except PyErr (PyDict String B) :=
  match s.nodes[a]? with
  | some n => attrsToDict ops n.attrs
  | none => .error .attributeError

/-- `shim.to_bytes()` of one shim. -/
def shimBytes (ops : SerOps V A S B Sh) (s : LoadState V A S) (t : Addr) : Except PyErr B :=
  match s.shims[t]? with
  | some x => ops.toBytes x
  | none => .error .attributeError

/-- Body of the loop over nodes at model.py:617-618. -/
def nodeShims (ops : SerOps V A S B Sh) (s : LoadState V A S) (a : Addr) : Except PyErr (List B) :=
  match s.nodes[a]? with
  | some n => mapE (shimBytes ops s) n.shims
  | none => .error .attributeError

/-- Body of the loop over nodes at model.py:619-626. -/
def nodeParams (s : LoadState V A S) (a : Addr) : Except PyErr (PyDict String (Option V)) :=
  match s.nodes[a]? with
  | some n => paramsToDict n n.paramNames
  | none => .error .attributeError

/-- `to_dict`, model.py:571-628. -/
def toDict (ops : SerOps V A S B Sh) (s : LoadState V A S) (self : Addr) : Except PyErr (Msg V B) := do
  let nodes := walkBfs s.nodes self
  let toI := nodeToI s.nodes nodes 0 []
  let infos ← mapE (nodeInfo s.nodes toI) nodes
  let attrs ← mapE (nodeAttrs ops s) nodes
  let shims ← mapE (nodeShims ops s) nodes
  let params ← mapE (nodeParams s) nodes
  return { nodes := some infos, attrs := attrs, params := params, shims := shims }

/-! ## from_dict -/

/-- Sequencing of statements that may raise; the state at the exception is kept. -/
def seqE {σ ε : Type} (f g : σ → σ × Except ε Unit) (s : σ) : σ × Except ε Unit :=
  match f s with
  | (s', .ok ()) => g s'
  | (s', .error e) => (s', .error e)

/-- Run a method of the node at `a`. -/
def onNode (a : Addr) (f : Node V A → Node V A × Except PyErr Unit) (s : LoadState V A S) :
    LoadState V A S × Except PyErr Unit :=
  match s.nodes[a]? with
  | none => (s, .error .attributeError)
  | some n => ({ s with nodes := s.nodes.modify a fun _ => (f n).1 }, (f n).2)

/-- `if value is not None: node.set_dim(dim, value)`, model.py:661-663. -/
def loadDim (n : Node V A) (p : String × Option Nat) : Node V A × Except PyErr Unit :=
  match p.2 with
  | none => (n, .ok ())
  | some v => match n.setDim p.1 v with
    | .ok n' => (n', .ok ())
    | .error e => (n, .error e)

/-- Python list indexing `xs[i]` with negative indices counting from the end. -/
def pyGet {α : Type} (xs : List α) (i : Int) : Except PyErr α :=
  let j := if i < 0 then i + xs.length else i
  if j < 0 then .error .indexError
  else match xs[j.toNat]? with
    | some x => .ok x
    | none => .error .indexError

/-- `node.set_ref(ref, None)` or `node.set_ref(ref, nodes[ref_index])`, model.py:664-668. -/
def loadRef (nodes : List Addr) (a : Addr) (s : LoadState V A S) (p : String × Option Int) :
    LoadState V A S × Except PyErr Unit :=
  match p.2 with
  | none => match setRef s.nodes a p.1 none with
    | .ok h => ({ s with nodes := h }, .ok ())
    | .error e => (s, .error e)
  | some i => match pyGet nodes i with
    | .error e => (s, .error e)
    | .ok r => match setRef s.nodes a p.1 (some r) with
      | .ok h => ({ s with nodes := h }, .ok ())
      | .error e => (s, .error e)

/-- Loading one attribute, model.py:669-672. -/
def loadAttr (ops : SerOps V A S B Sh) (n : Node V A) (p : String × B) : Node V A × Except PyErr Unit :=
  match ops.deser (n.attrs.get? p.1) p.2 with
  | .error e => (n, .error e)
  | .ok v => ({ n with attrs := n.attrs.set p.1 v }, .ok ())

/-- Loading one parameter, model.py:673-676 (`asarray(value).copy()` is the same value). -/
def loadParam (n : Node V A) (p : String × Option V) : Node V A × Except PyErr Unit :=
  (n.setParam p.1 p.2, .ok ())

/-- `for i, shim_bytes in enumerate(...): node.shims[i].from_bytes(shim_bytes)`, model.py:677-678. -/
def loadShims (ops : SerOps V A S B Sh) : List Addr → List B → LoadState V A S → LoadState V A S × Except PyErr Unit
  | _, [], s => (s, .ok ())
  | [], _ :: _, s => (s, .error .indexError)
  | t :: ts, b :: bs, s => match s.shims[t]? with
    | none => (s, .error .attributeError)
    | some x => match ops.fromBytes x b with
      | .error e => (s, .error e)
      | .ok x' => loadShims ops ts bs { s with shims := s.shims.set t x' }

/-- The loop body of `from_dict` for the `i`-th node, model.py:658-678. -/
def loadNode (ops : SerOps V A S B Sh) (nodes : List Addr) (msg : Msg V B) (infos : List NodeInfo)
    (s : LoadState V A S) (p : Nat × Addr) : LoadState V A S × Except PyErr Unit :=
  match infos[p.1]? with
  | none => (s, .error .indexError)
  | some info =>
    seqE (onNode p.2 fun n => ({ n with name := info.name }, .ok ()))
    (seqE (onNode p.2 (loopE loadDim info.dims))
    (seqE (loopE (loadRef nodes p.2) info.refs)
    (seqE (fun s => match msg.attrs[p.1]? with
      | none => (s, .error .indexError)
      | some attrs => onNode p.2 (loopE (loadAttr ops) attrs) s)
    (seqE (fun s => match msg.params[p.1]? with
      | none => (s, .error .indexError)
      | some params => onNode p.2 (loopE loadParam params) s)
    (fun s => match msg.shims[p.1]? with
      | none => (s, .error .indexError)
      | some bs => match s.nodes[p.2]? with
        | none => (s, .error .attributeError)
        | some n => loadShims ops n.shims bs s))))) s

/-- `enumerate(xs)` -/
def enumFrom' {α : Type} : Nat → List α → List (Nat × α)
  | _, [] => []
  | i, x :: xs => (i, x) :: enumFrom' (i + 1) xs

/-- `from_dict`, model.py:649-679: final state and result. -/
def fromDict (ops : SerOps V A S B Sh) (s : LoadState V A S) (self : Addr) (msg : Msg V B) :
    LoadState V A S × Except PyErr Unit :=
  match msg.nodes with
  | none => (s, .error .valueError)
  | some infos =>
    let nodes := walkBfs s.nodes self
    if infos.length ≠ nodes.length then (s, .error .valueError)
    else loopE (loadNode ops nodes msg infos) (enumFrom' 0 nodes) s

/-! ## can_from_dict -/

/-- Loop over `info["dims"]`, model.py:720-725: `true` = no `return False`. -/
def canDims (n : Node V A) : PyDict String (Option Nat) → Bool
  | [] => true
  | (d, value) :: rest =>
    if n.hasDim d = some false then false
    else if n.hasDim d = some true ∧ (match n.getDim d with | .ok v => some v | .error _ => none) ≠ value then false
    else canDims n rest

/-- Loop over `msg["params"][i]`, model.py:726-733. -/
def canParams [DecidableEq Sh] (ops : SerOps V A S B Sh) (n : Node V A) :
    PyDict String (Option V) → Except PyErr Bool
  | [] => .ok true
  | (k, value) :: rest =>
    if n.hasParam k = some false then .ok false
    else match n.hasParam k, value with
      | some true, some v => match n.getParam k with
        | .error e => .error e
        | .ok p => if ops.shape p ≠ ops.shape v then .ok false else canParams ops n rest
      | _, _ => canParams ops n rest

/-- Loop over `msg["attrs"][i]` (only if strict), model.py:734-746. -/
def canAttrs [DecidableEq B] (ops : SerOps V A S B Sh) (n : Node V A) : PyDict String B → Except PyErr Bool
  | [] => .ok true
  | (k, b) :: rest => match n.attrs.get? k with
    | none => canAttrs ops n rest
    | some v => match ops.ser v with
      | .error .typeError => canAttrs ops n rest
      | .error e => .error e
      | .ok b' => if b' ≠ b then .ok false else canAttrs ops n rest

/-- The loop body of `can_from_dict`, model.py:711-746. -/
def canNode [DecidableEq B] [DecidableEq Sh] (ops : SerOps V A S B Sh) (h : Heap V A) (msg : Msg V B)
    (infos : List NodeInfo) (strict : Bool) (p : Nat × Addr) : Except PyErr Bool :=
  match infos[p.1]?, h[p.2]? with
  | some info, some n =>
    if strict = true ∧ info.name ≠ n.name then .ok false
    else match msg.shims[p.1]? with
      | none => .error .indexError
      | some bs =>
        if bs.length ≠ n.shims.length then .ok false
        else if canDims n info.dims = false then .ok false
        else match msg.params[p.1]? with
          | none => .error .indexError
          | some params => match canParams ops n params with
            | .error e => .error e
            | .ok false => .ok false
            | .ok true =>
              if strict then
                match msg.attrs[p.1]? with
                | none => .error .indexError
                | some attrs => canAttrs ops n attrs
              else .ok true
  | _, _ => .error .indexError

/-- The loop of `can_from_dict`: stops at the first `return False` or exception. -/
def allE {ε α : Type} (f : α → Except ε Bool) : List α → Except ε Bool
  | [] => .ok true
  | x :: xs => match f x with
    | .error e => .error e
    | .ok false => .ok false
    | .ok true => allE f xs

/-- `can_from_dict`, model.py:702-747. -/
def canFromDict [DecidableEq B] [DecidableEq Sh] (ops : SerOps V A S B Sh) (s : LoadState V A S)
    (self : Addr) (msg : Msg V B) (strict : Bool := true) : Except PyErr Bool :=
  match msg.nodes with
  | none => .ok false
  | some infos =>
    let nodes := walkBfs s.nodes self
    if infos.length ≠ nodes.length then .ok false
    else allE (canNode ops s.nodes msg infos strict) (enumFrom' 0 nodes)

end Thinc
