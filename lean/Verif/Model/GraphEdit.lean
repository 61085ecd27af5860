import Verif.Model.Walk
import Verif.Model.NodeState
/-!
# References and graph edits (thinc/model.py lines 298-305, 422-464)
-/
namespace Thinc
variable {V A : Type}

/-- `set_ref`, model.py:298-305.  `self` is the address of the model. -/
def setRef (h : Heap V A) (self : Addr) (name : String) (value : Option Addr) :
    Except PyErr (Heap V A) :=
  match value with
  | none => .ok (h.modify self fun n => { n with refs := n.refs.set name none })
  | some b =>
    if b ∈ walkBfs h self then
      .ok (h.modify self fun n => { n with refs := n.refs.set name (some b) })
    else .error .valueError

/-- `while node in child.layers: child.layers.remove(node)`, model.py:430-431. -/
def removeAll (l : List Addr) (x : Addr) : List Addr :=
  if x ∈ l then removeAll (l.erase x) x else l
termination_by l.length
decreasing_by
  rw [List.length_erase_of_mem (by assumption)]
  have : 0 < l.length := List.length_pos_of_mem (by assumption)
  omega

/-- Body of the loop over `node.ref_names` in `remove_node`, model.py:434-437, on one node:
`get_ref` raises ValueError on an unset reference; `set_ref(name, None)` never looks at the tree. -/
def cleanRefs (tree : List Addr) (n : Node V A) (name : String) : Node V A × Except PyErr Unit :=
  match n.getRef name with
  | .error e => (n, .error e)
  | .ok ref => if ref ∉ tree then ({ n with refs := n.refs.set name none }, .ok ()) else (n, .ok ())

/-- `remove_node`, model.py:422-437.  `enum` is the (unspecified) iteration order of the Python set
`tree`. -/
def removeNode (enum : List Addr → List Addr) (h : Heap V A) (self node : Addr) :
    Heap V A × Except PyErr Unit :=
  let h := (walkBfs h self).foldl
    (fun h child => h.modify child fun n => { n with layers := removeAll n.layers node }) h
  let tree := walkBfs h self
  loopE (fun h a =>
    match h[a]? with
    | none => (h, .ok ())
    | some n =>
      let (n', r) := loopE (cleanRefs tree) n.refNames n
      (List.set h a n', r)) (enum tree) h

/-- Body of the loop over `node.ref_names` in `replace_node`, model.py:460-462. -/
def replaceRef (a old new : Addr) (h : Heap V A) (name : String) : Heap V A × Except PyErr Unit :=
  match h[a]? with
  | none => (h, .ok ())
  | some n =>
    match n.getRef name with
    | .error e => (h, .error e)
    | .ok ref =>
      if ref = old then
        match setRef h a name (some new) with
        | .ok h' => (h', .ok ())
        | .error e => (h, .error e)
      else (h, .ok ())

/-- Body of the main loop of `replace_node`, model.py:453-462; the state is the heap and `seen`. -/
def replaceStep (old new : Addr) (s : Heap V A × Bool) (a : Addr) :
    (Heap V A × Bool) × Except PyErr Unit :=
  if a = old then ((s.1, true), .ok ())
  else
    let h := s.1.modify a fun n =>
      { n with layers := n.layers.map fun l => if l = old then new else l }
    match h[a]? with
    | none => ((h, s.2), .ok ())
    | some n =>
      let (h', r) := loopE (replaceRef a old new) n.refNames h
      ((h', s.2), r)

/-- `replace_node`, model.py:445-464: the heap afterwards and the result. -/
def replaceNode (h : Heap V A) (self old new : Addr) : Heap V A × Except PyErr Bool :=
  match loopE (replaceStep old new) (walkDfs h self true) (h, false) with
  | ((h', seen), .ok ()) => (h', .ok seen)
  | ((h', _), .error e) => (h', .error e)

end Thinc
