import Verif.Model.Walk
import Verif.Model.NodeState
/-!
# `Model.finish_update` (thinc/model.py lines 336-349)

The optimizer is any stateful function of (key, parameter, gradient).  It returns the new
parameter and may overwrite the gradient array in place; both are part of its result here.
(Its second return value is ignored by `finish_update`.)  It does not raise.
A shim's `finish_update` is any stateful function that may call the optimizer and may raise.
-/
namespace Thinc
variable {V A O T : Type}

/-- `optimizer(key, param, grad)`: new optimizer state, returned parameter, and what the gradient
array holds after the call. -/
abbrev OptFn (O V : Type) := O → Nat × String → V → V → O × V × V

/-- The memory `finish_update` works on: the models and the optimizer's state. -/
structure FUState (O V A : Type) where
  nodes : Heap V A
  opt : O

/-- The body of the inner loop for one parameter name, model.py:344-349. -/
def updateParam (opt : OptFn O V) (a : Addr) (s : FUState O V A) (name : String) : FUState O V A × Except PyErr Unit :=
  match s.nodes[a]? with
  | none => (s, .error .attributeError)
  | some n =>
    if n.hasGrad name then
      match n.getParam name with
      | .error e => (s, .error e)
      | .ok p =>
        match n.getGrad name with
        | .error e => (s, .error e)
        | .ok g =>
          let (o, p', g') := opt s.opt (n.id, name) p g
          ({ nodes := s.nodes.modify a fun n => (n.setGrad name g').setParam name (some p'), opt := o }, .ok ())
    else (s, .ok ())

/-- `for name in node.param_names`, model.py:343 (the tuple is built before the loop). -/
def updateNode (opt : OptFn O V) (s : FUState O V A) (a : Addr) : FUState O V A × Except PyErr Unit :=
  match s.nodes[a]? with
  | none => (s, .error .attributeError)
  | some n => loopE (updateParam opt a) n.paramNames s

/-- `for shim in node.shims: shim.finish_update(optimizer)`, model.py:340-341. `O × T` is the state of
the optimizer and of all shims. -/
def updateShims (shimFU : O × T → Addr → (O × T) × Except PyErr Unit) (h : Heap V A) (s : O × T) (a : Addr) :
    (O × T) × Except PyErr Unit :=
  match h[a]? with
  | none => (s, .error .attributeError)
  | some n => loopE shimFU n.shims s

/-- `finish_update`, model.py:336-349. -/
def finishUpdate (opt : OptFn O V) (shimFU : O × T → Addr → (O × T) × Except PyErr Unit) (h : Heap V A) (o : O) (t : T)
    (self : Addr) : (FUState O V A × T) × Except PyErr Unit :=
  match loopE (updateShims shimFU h) (walkBfs h self) (o, t) with
  | ((o1, t1), .error e) => (({ nodes := h, opt := o1 }, t1), .error e)
  | ((o1, t1), .ok ()) =>
    let (s, r) := loopE (updateNode opt) (walkBfs h self) { nodes := h, opt := o1 }
    ((s, t1), r)

end Thinc
