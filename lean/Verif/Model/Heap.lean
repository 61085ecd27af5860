import Verif.Model.Py
/-!
# The object heap of `thinc.Model` instances  (thinc/model.py, lines 40-122)

A `Model` object is an address; `a is b` and `id(a) == id(b)` are equality of addresses.
`Model.__eq__`/`__hash__` are not overridden in thinc, so `in`, `list.remove` and `set`
on models also compare identity.
-/
namespace Thinc

abbrev Addr := Nat

/-- One `Model` instance (thinc/model.py:60-122, `__slots__` 70-83).
`V` is the type of parameter arrays, `A` of attribute values.  `_func`, `init` and `ops`
are not stored here: they play no role in the modelled graph and state functions. -/
structure Node (V A : Type) where
  name : String
  /-- `self.id`, model.py:115-117 -/
  id : Nat
  /-- `self._layers` -/
  layers : List Addr
  /-- `self._refs : Dict[str, Optional[Model]]` -/
  refs : PyDict String (Option Addr) := []
  /-- `self._dims : Dict[str, Optional[int]]` -/
  dims : PyDict String (Option Nat) := []
  /-- `self._has_params : Dict[str, Optional[bool]]`; the code only ever stores `None` or `True` -/
  hasParams : PyDict String (Option Unit) := []
  /-- `self._params._params` (the node's own `ParamServer`), keyed by `(model id, name)` -/
  params : PyDict (Nat × String) V := []
  /-- `self._params._grads` -/
  grads : PyDict (Nat × String) V := []
  /-- `self._attrs` -/
  attrs : PyDict String A := []
  /-- `self._shims`: addresses of `Shim` objects -/
  shims : List Addr := []
  deriving DecidableEq, Repr

/-- The heap: node at address `a` is `h[a]?`. -/
abbrev Heap (V A : Type) := List (Node V A)

variable {V A : Type}

/-- `node.layers` for the node at address `a` (`[]` for an address with no object; Python
references are never dangling). model.py:124-129. -/
def layersOf (h : Heap V A) (a : Addr) : List Addr :=
  match h[a]? with
  | some n => n.layers
  | none => []

/-- Mutate the object at an address in place. -/
def Heap.modify (h : Heap V A) (a : Addr) (f : Node V A → Node V A) : Heap V A :=
  List.modify h a f

end Thinc
