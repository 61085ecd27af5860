import Verif.Model.NodeState
/-!
# `Model.use_params` (thinc/model.py lines 351-372)

A context manager is modelled in continuation style: `useParams depth params a body` is
`with a.use_params(params): body`.  The body is any function on the heap that returns normally or
raises.  `depth` is Python's recursion limit.  Shims are entered with the base-class method
(shims/shim.py:48-50), which does nothing.
-/
namespace Thinc
variable {V A R : Type}

/-- The loop that backs up and overwrites, model.py:357-361.  Returns the node as mutated so far
and either the `backup` dict or the exception raised by `get_param`. -/
def swapIn (params : PyDict (Nat × String) V) :
    List String → Node V A → PyDict String V → Node V A × Except PyErr (PyDict String V)
  | [], n, backup => (n, .ok backup)
  | name :: rest, n, backup =>
    match params.get? (n.id, name) with
    | none => swapIn params rest n backup
    | some v =>
      match n.getParam name with
      | .error e => (n, .error e)
      | .ok old => swapIn params rest (n.setParam name (some v)) (backup.set name old)

/-- `for name, param in backup.items(): self.set_param(name, param)`, model.py:370-372. -/
def restoreNode (backup : PyDict String V) (n : Node V A) : Node V A :=
  backup.foldl (fun n p => n.setParam p.1 (some p.2)) n

/-- `for layer in self.layers: stack.enter_context(layer.use_params(params))`, model.py:363-366,
followed by the body and, on normal exit, the exits in reverse order.  `enter` is `use_params` of
a layer. -/
def enterLayers (enter : Addr → (Heap V A → Heap V A × Except PyErr R) → Heap V A → Heap V A × Except PyErr R) :
    List Addr → (Heap V A → Heap V A × Except PyErr R) → Heap V A → Heap V A × Except PyErr R
  | [], body => body
  | layer :: rest, body => enter layer (enterLayers enter rest body)

/-- `use_params`, model.py:351-372.  There is no try/finally: when the body or the entering of a
layer raises, the exception is thrown at the `yield` and the code after it is skipped. -/
def useParams (params : PyDict (Nat × String) V) :
    Nat → Addr → (Heap V A → Heap V A × Except PyErr R) → Heap V A → Heap V A × Except PyErr R
  | 0, _, _, h => (h, .error .recursionError)
  | depth + 1, a, body, h =>
    match h[a]? with
    | none => (h, .error .attributeError)
    | some n =>
      match swapIn params n.paramNames n [] with
      | (n', .error e) => (h.modify a fun _ => n', .error e)
      | (n', .ok backup) =>
        match enterLayers (useParams params depth) n.layers body (h.modify a fun _ => n') with
        | (h2, .error e) => (h2, .error e)
        | (h2, .ok x) => (h2.modify a (restoreNode backup), .ok x)

end Thinc
