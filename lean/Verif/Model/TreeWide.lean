import Verif.Model.GraphEdit
/-!
# Functions over the whole tree of a model (thinc/model.py lines 466-476, 855-886)

`walk()` is a generator, but these functions do not change the layers while it runs, except `wrap_model_recursive`, which
makes a list of it first.
-/
namespace Thinc
variable {V A : Type}

/-- thinc/model.py:873-875: the inner loop of `set_dropout_rate`, for one node. -/
def setAttrsTo (names : List String) (value : A) (n : Node V A) : Node V A :=
  names.foldl (fun n attr => if n.attrs.contains attr then { n with attrs := n.attrs.set attr value } else n) n

/-- thinc/model.py:868-876 `set_dropout_rate`. -/
def setDropoutRate (h : Heap V A) (root : Addr) (drop : A) (names : List String) : Heap V A :=
  (walkBfs h root).foldl (fun h a => h.modify a (setAttrsTo names drop)) h

/-- thinc/model.py:861-864: one node of `change_attr_values`, whose name is in the mapping. -/
def setAttrItems (items : PyDict String A) (n : Node V A) : Node V A :=
  items.foldl (fun n e => if n.attrs.contains e.1 then { n with attrs := n.attrs.set e.1 e.2 } else n) n

/-- thinc/model.py:860-864: one node of `change_attr_values`. -/
def changeNodeAttrs (mapping : PyDict String (PyDict String A)) (n : Node V A) : Node V A :=
  match mapping.get? n.name with
  | none => n
  | some items => setAttrItems items n

/-- thinc/model.py:855-865 `change_attr_values`. -/
def changeAttrValues (h : Heap V A) (root : Addr) (mapping : PyDict String (PyDict String A)) : Heap V A :=
  (walkBfs h root).foldl (fun h a => h.modify a (changeNodeAttrs mapping)) h

/-- thinc/model.py:473-475: the body of the inner loop of `get_gradients`. -/
def collectGradient (n : Node V A) (d : PyDict (Nat × String) (V × V)) (name : String) :
    Except PyErr (PyDict (Nat × String) (V × V)) := do
  let param ← n.getParam name
  let grad ← n.getGrad name
  return d.set (n.id, name) (param, grad)

/-- thinc/model.py:472-475: one node of `get_gradients`. -/
def collectGradients (h : Heap V A) (d : PyDict (Nat × String) (V × V)) (a : Addr) :
    Except PyErr (PyDict (Nat × String) (V × V)) :=
  match h[a]? with
  | none => .ok d
  | some n => forM' n.gradNames d (collectGradient n)

/-- thinc/model.py:466-476 `get_gradients`. -/
def getGradients (h : Heap V A) (root : Addr) : Except PyErr (PyDict (Nat × String) (V × V)) :=
  forM' (walkBfs h root) [] (collectGradients h)

/-- thinc/model.py:882-883: the body of the loop of `wrap_model_recursive`; `wrapper` makes a new object. -/
def wrapStep (wrapper : Heap V A → Addr → Heap V A × Addr) (root : Addr) (h : Heap V A) (node : Addr) :
    Heap V A × Except PyErr Unit :=
  match replaceNode (wrapper h node).1 root node (wrapper h node).2 with
  | (h', .ok _) => (h', .ok ())
  | (h', .error e) => (h', .error e)

/-- thinc/model.py:879-885 `wrap_model_recursive`. -/
def wrapModelRecursive (wrapper : Heap V A → Addr → Heap V A × Addr) (h : Heap V A) (root : Addr) :
    Heap V A × Except PyErr Addr :=
  match loopE (wrapStep wrapper root) (walkBfs h root) h with
  | (h', .error e) => (h', .error e)
  | (h', .ok ()) => ((wrapper h' root).1, .ok (wrapper h' root).2)

end Thinc
