import Verif.Model.Heap
/-!
# Per-node state: dims, params, gradients, attrs (thinc/model.py lines 88-122, 176-289;
thinc/backends/_param_server.py)

The node's `ParamServer` is modelled with `proxy = None` (the proxy is treated in
`Verif.Model.ParamProxy`).  Arrays are values of an abstract type `V`; aliasing of gradient
buffers is treated in `Verif.Model.GradBuf`.
-/
namespace Thinc
variable {V A : Type}

/-- `Model.set_param`, model.py:244-250 with ParamServer.set_param (_param_server.py:54-57). -/
def Node.setParam (n : Node V A) (name : String) (value : Option V) : Node V A :=
  match value with
  | none => { n with hasParams := n.hasParams.set name none }
  | some v => { n with params := n.params.set (n.id, name) v,
                       hasParams := n.hasParams.set name (some ()) }

/-- The loop of `Model.__init__` over `params.items()`, model.py:118-122. -/
def Node.initParams (n : Node V A) : PyDict String (Option V) → Node V A
  | [] => n
  | (name, value) :: rest =>
    let n := { n with hasParams := n.hasParams.set name none }
    let n := match value with
      | none => n
      | some v => n.setParam name (some v)
    n.initParams rest

/-- `Model.__init__`, model.py:88-122 (the new id is passed in; see `Verif.Model.Ids`).
`forward`, `init`, `ops` are not modelled. -/
def Node.mk' (id : Nat) (name : String) (params : PyDict String (Option V) := [])
    (dims : PyDict String (Option Nat) := []) (attrs : PyDict String A := [])
    (refs : PyDict String (Option Addr) := []) (layers : List Addr := [])
    (shims : List Addr := []) : Node V A :=
  Node.initParams
    { name := name, id := id, layers := layers, refs := refs, dims := dims, hasParams := [],
      params := [], grads := [], attrs := attrs, shims := shims } params

/-- `has_dim`, model.py:176-185; Python's `False`/`True`/`None` are `some false`/`some true`/`none`. -/
def Node.hasDim (n : Node V A) (name : String) : Option Bool :=
  match n.dims.get? name with
  | none => some false
  | some (some _) => some true
  | some none => none

/-- `get_dim`, model.py:187-196. -/
def Node.getDim (n : Node V A) (name : String) : Except PyErr Nat :=
  match n.dims.get? name with
  | none => .error .keyError
  | some none => .error .valueError
  | some (some v) => .ok v

/-- `any(bool(y) for x, y in self._has_params.items())`, model.py:205. -/
def Node.anyParamSet (n : Node V A) : Bool := n.hasParams.any (fun p => p.2.isSome)

/-- `set_dim`, model.py:198-212. -/
def Node.setDim (n : Node V A) (name : String) (value : Nat) (force : Bool := false) :
    Except PyErr (Node V A) :=
  match n.dims.get? name with
  | none => .error .keyError
  | some old =>
    let invalidChange : Bool :=
      (old.isSome && decide (old ≠ some value)) && (!force || (force && n.anyParamSet))
    if invalidChange then .error .valueError
    else .ok { n with dims := n.dims.set name (some value) }

/-- `maybe_get_dim`, model.py:214-216 (`None` is falsy). -/
def Node.maybeGetDim (n : Node V A) (name : String) : Except PyErr (Option Nat) :=
  if n.hasDim name = some true then (n.getDim name).map some else .ok none

/-- `param_names`, model.py:143-146. -/
def Node.paramNames (n : Node V A) : List String := n.hasParams.keys

/-- `has_param`, model.py:218-228. -/
def Node.hasParam (n : Node V A) (name : String) : Option Bool :=
  match n.hasParams.get? name with
  | none => some false
  | some (some _) => some true
  | some none => none

/-- `get_param`, model.py:230-238 with ParamServer.has_param / get_param. -/
def Node.getParam (n : Node V A) (name : String) : Except PyErr V :=
  if n.hasParams.contains name then
    match n.params.get? (n.id, name) with
    | none => .error .keyError
    | some v => .ok v
  else .error .keyError

/-- `maybe_get_param`, model.py:240-242. -/
def Node.maybeGetParam (n : Node V A) (name : String) : Except PyErr (Option V) :=
  if n.hasParam name = some true then (n.getParam name).map some else .ok none

/-- `has_grad`, model.py:252-254. -/
def Node.hasGrad (n : Node V A) (name : String) : Bool := n.grads.contains (n.id, name)

/-- `get_grad`, model.py:256-258 (ParamServer.get_grad: dict lookup). -/
def Node.getGrad (n : Node V A) (name : String) : Except PyErr V :=
  match n.grads.get? (n.id, name) with
  | none => .error .keyError
  | some v => .ok v

/-- `set_grad`, model.py:260-262 (no proxy). -/
def Node.setGrad (n : Node V A) (name : String) (v : V) : Node V A :=
  { n with grads := n.grads.set (n.id, name) v }

/-- `maybe_get_grad`, model.py:264-266. -/
def Node.maybeGetGrad (n : Node V A) (name : String) : Except PyErr (Option V) :=
  if n.hasGrad name then (n.getGrad name).map some else .ok none

/-- `inc_grad`, model.py:268-270 with ParamServer.inc_grad (_param_server.py:65-79), by value. -/
def Node.incGrad [Add V] (n : Node V A) (name : String) (v : V) : Node V A :=
  match n.grads.get? (n.id, name) with
  | none => { n with grads := n.grads.set (n.id, name) v }
  | some g => { n with grads := n.grads.set (n.id, name) (g + v) }

/-- `grad_names`, model.py:148-151. -/
def Node.gradNames (n : Node V A) : List String := n.paramNames.filter n.hasGrad

/-- `dim_names`, model.py:153-156. -/
def Node.dimNames (n : Node V A) : List String := n.dims.keys

/-- `ref_names`, model.py:158-161. -/
def Node.refNames (n : Node V A) : List String := n.refs.keys

/-- `has_ref`, model.py:272-281. -/
def Node.hasRef (n : Node V A) (name : String) : Option Bool :=
  match n.refs.get? name with
  | none => some false
  | some (some _) => some true
  | some none => none

/-- `get_ref`, model.py:283-292. -/
def Node.getRef (n : Node V A) (name : String) : Except PyErr Addr :=
  match n.refs.get? name with
  | none => .error .keyError
  | some none => .error .valueError
  | some (some v) => .ok v

/-- `maybe_get_ref`, model.py:294-296. -/
def Node.maybeGetRef (n : Node V A) (name : String) : Except PyErr (Option Addr) :=
  if n.hasRef name = some true then (n.getRef name).map some else .ok none

/-- A call on one node's state, as issued by a user. -/
inductive NodeOp (V A : Type) where
  | setDim (name : String) (value : Nat) (force : Bool)
  | setParam (name : String) (value : Option V)
  | setGrad (name : String) (value : V)
  | incGrad (name : String) (value : V)
  | setAttr (name : String) (value : A)
  | setName (name : String)

/-- Execute one call.  A raising call leaves the state as the code leaves it (unchanged). -/
def Node.step [Add V] (n : Node V A) : NodeOp V A → Node V A
  | .setDim name v force => match n.setDim name v force with
    | .ok n' => n'
    | .error _ => n
  | .setParam name v => n.setParam name v
  | .setGrad name v => n.setGrad name v
  | .incGrad name v => n.incGrad name v
  | .setAttr name v => { n with attrs := n.attrs.set name v }
  | .setName s => { n with name := s }

/-- Execute a history of calls. -/
def Node.run [Add V] (n : Node V A) (ops : List (NodeOp V A)) : Node V A := ops.foldl Node.step n

end Thinc
