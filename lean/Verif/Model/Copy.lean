import Verif.Model.NodeState
/-!
# `Model.copy` (thinc/model.py lines 478-525)

The Python recursion `_copy` is run with a recursion limit `depth`, at which Python raises
RecursionError.  `copy.deepcopy` of parameters, dims and attrs, and `.copy()` of gradients, are
modelled by value; new objects get new addresses.  Shims are objects in their own heap and
`shim.copy()` (shims/shim.py:50-51, a deepcopy) appends an object with equal content.
-/
namespace Thinc
variable {V A S : Type}

/-- The memory `_copy` works on: both heaps, the global id counter and the `seen` dict (split in
two, because `id()` never confuses a model with a shim). -/
structure CopyState (V A S : Type) where
  nodes : Heap V A
  shims : List S
  globalId : Nat
  seen : PyDict Addr Addr := []
  seenShims : PyDict Addr Addr := []

/-- `params[name] = self.get_param(name) if self.has_param(name) else None`, model.py:491-493. -/
def copyParams (n : Node V A) : List String → Except PyErr (PyDict String (Option V))
  | [] => .ok []
  | k :: ks =>
    if n.hasParam k = some true then
      match n.getParam k with
      | .error e => .error e
      | .ok v => (copyParams n ks).map fun r => (k, some v) :: r
    else (copyParams n ks).map fun r => (k, none) :: r

/-- Loop over `self.layers`, model.py:495-502; `rec` is the recursive call `layer._copy(seen)`. -/
def copyLayers (rec : Addr → CopyState V A S → CopyState V A S × Except PyErr Addr) :
    List Addr → CopyState V A S → CopyState V A S × Except PyErr (List Addr)
  | [], s => (s, .ok [])
  | layer :: rest, s =>
    match s.seen.get? layer with
    | some c =>
      match copyLayers rec rest s with
      | (s', .ok cs) => (s', .ok (c :: cs))
      | (s', .error e) => (s', .error e)
    | none =>
      match rec layer s with
      | (s1, .error e) => (s1, .error e)
      | (s1, .ok c) =>
        match copyLayers rec rest { s1 with seen := s1.seen.set layer c } with
        | (s', .ok cs) => (s', .ok (c :: cs))
        | (s', .error e) => (s', .error e)

/-- Loop over `self.shims`, model.py:504-511. -/
def copyShims : List Addr → CopyState V A S → CopyState V A S × Except PyErr (List Addr)
  | [], s => (s, .ok [])
  | shim :: rest, s =>
    match s.seenShims.get? shim with
    | some c =>
      match copyShims rest s with
      | (s', .ok cs) => (s', .ok (c :: cs))
      | (s', .error e) => (s', .error e)
    | none =>
      match s.shims[shim]? with
      | none => (s, .error .attributeError)
      | some x =>
        let c := s.shims.length
        match copyShims rest { s with shims := s.shims ++ [x], seenShims := s.seenShims.set shim c } with
        | (s', .ok cs) => (s', .ok (c :: cs))
        | (s', .error e) => (s', .error e)

/-- `for name in self.grad_names: copied.set_grad(name, self.get_grad(name).copy())`,
model.py:523-524 (`grad_names` only lists names for which `get_grad` succeeds). -/
def copyGrads (n : Node V A) : List String → Node V A → Node V A
  | [], c => c
  | k :: ks, c => match n.getGrad k with
    | .ok g => copyGrads n ks (c.setGrad k g)
    | .error _ => copyGrads n ks c

/-- `_copy`, model.py:486-525. -/
def copyNode : Nat → Addr → CopyState V A S → CopyState V A S × Except PyErr Addr
  | 0, _, s => (s, .error .recursionError)
  | depth + 1, a, s =>
    match s.nodes[a]? with
    | none => (s, .error .attributeError)
    | some n =>
      match copyParams n n.paramNames with
      | .error e => (s, .error e)
      | .ok params =>
        match copyLayers (copyNode depth) n.layers s with
        | (s1, .error e) => (s1, .error e)
        | (s1, .ok layers) =>
          match copyShims n.shims s1 with
          | (s2, .error e) => (s2, .error e)
          | (s2, .ok shims) =>
            let c : Node V A := Node.mk' (s2.globalId + 1) n.name params n.dims n.attrs [] layers shims
            let c := copyGrads n n.gradNames c
            ({ s2 with nodes := s2.nodes ++ [c], globalId := s2.globalId + 1 }, .ok s2.nodes.length)

/-- `copy`, model.py:478-484: `_copy()` with an empty `seen`. -/
def copyModel (depth : Nat) (nodes : Heap V A) (shims : List S) (globalId : Nat) (self : Addr) :
    CopyState V A S × Except PyErr Addr :=
  copyNode depth self { nodes := nodes, shims := shims, globalId := globalId }

end Thinc
