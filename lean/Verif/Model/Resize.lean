import Verif.Model.NodeState
import Mathlib.Data.Real.Basic
/-!
# Model of `thinc/layers/resizable.py` and of the initialisation of `Linear` and `Softmax`

An array is a list of rows (for a one-dimensional array: of numbers, with `rowShape = []`); a row is flattened.
-/
namespace Thinc

/-- A float array with at least one dimension. -/
structure RowArr where
  rowShape : List ℕ
  rows : List (List ℝ)

variable {A : Type}

/-- `larger[:len(smaller)] = smaller` (resizable.py:88).  The slice has `min(len(smaller), len(larger))` rows; numpy broadcasts
one row to any number of rows and otherwise raises ValueError.  (Broadcasting along the other dimensions is not modelled.) -/
def RowArr.setFirst (larger smaller : RowArr) : Except PyErr RowArr :=
  let k := min smaller.rows.length larger.rows.length
  if smaller.rowShape ≠ larger.rowShape then .error .valueError
  else if smaller.rows.length = k then .ok ⟨larger.rowShape, smaller.rows ++ larger.rows.drop k⟩
  else if smaller.rows.length = 1 then .ok ⟨larger.rowShape, (List.replicate k (smaller.rows.headD [])) ++ larger.rows.drop k⟩
  else .error .valueError

/-- `larger[n:] = filler` (resizable.py:90). -/
def RowArr.fillFrom (larger : RowArr) (n : ℕ) (filler : ℝ) : RowArr :=
  ⟨larger.rowShape, larger.rows.take n ++ (larger.rows.drop n).map fun r => r.map fun _ => filler⟩

/-- resizable.py:84-91 `_resize_parameter`. -/
def resizeParameter (name : String) (layer newLayer : Node RowArr A) (filler : ℝ) : Except PyErr (Node RowArr A) := do
  let larger ← newLayer.getParam name
  let smaller ← layer.getParam name
  let larger ← larger.setFirst smaller
  let larger := larger.fillFrom smaller.rows.length filler
  return newLayer.setParam name (some larger)

/-- resizable.py:76-77: the filler of a parameter; `fill_defaults=None` is the empty dict (both are falsy). -/
def fillerOf (fillDefaults : PyDict String ℝ) (name : String) : ℝ := (fillDefaults.get? name).getD 0

/-- resizable.py:75-78: one iteration of the loop over `layer.param_names`. -/
def resizeStep (fillDefaults : PyDict String ℝ) (layer newLayer : Node RowArr A) (name : String) : Except PyErr (Node RowArr A) :=
  if layer.hasParam name = some true then resizeParameter name layer newLayer (fillerOf fillDefaults name)
  else .ok newLayer

/-- resizable.py:60-62: `{name: layer.maybe_get_dim(name) for name in layer.dim_names}`; here the values are read from the
dict directly, which is the same. -/
def resizeDims (layer : Node RowArr A) (newNO : ℕ) : PyDict String (Option ℕ) := layer.dims.set "nO" (some newNO)

/-- resizable.py:46-79 `resize_linear_weighted`.  `init` is `layer.init` with `X=None, Y=None`, `newId` the id of the new model.
The result is the layer and whether it is a new object. -/
def resizeLinearWeighted (init : Node RowArr A → Except PyErr (Node RowArr A)) (newId : ℕ) (layer : Node RowArr A) (newNO : ℕ)
    (fillDefaults : PyDict String ℝ) : Except PyErr (Bool × Node RowArr A) := do
  if layer.layers ≠ [] then throw .assertionError
  if layer.refs.keys ≠ [] then throw .assertionError
  if layer.shims ≠ [] then throw .assertionError
  if layer.hasDim "nO" = none then
    return (false, ← layer.setDim "nO" newNO)
  if newNO = (← layer.getDim "nO") then
    return (false, layer)
  if layer.hasDim "nI" = none then
    return (false, ← layer.setDim "nO" newNO true)
  let newLayer : Node RowArr A := Node.mk' newId layer.name (layer.paramNames.map fun name => (name, none))
    (resizeDims layer newNO) layer.attrs [] [] []
  let newLayer ← init newLayer
  let newLayer ← forM' layer.paramNames newLayer (resizeStep fillDefaults layer)
  return (true, newLayer)

/-- The heap after `resize_model(model, new_nO)` (resizable.py:39-43): the first layer of the model at `a` is replaced. -/
def resizeModel (init : Node RowArr A → Except PyErr (Node RowArr A)) (newId : ℕ) (fillDefaults : PyDict String ℝ)
    (h : Heap RowArr A) (a : Addr) (newNO : ℕ) : Except PyErr (Heap RowArr A) :=
  match layersOf h a with
  | [] => .error .indexError
  | l :: rest =>
    match h[l]? with
    | none => .error .attributeError
    | some layer =>
      match resizeLinearWeighted init newId layer newNO fillDefaults with
      | .error e => .error e
      | .ok (false, layer) => .ok (h.modify l fun _ => layer)
      | .ok (true, layer) => .ok ((h ++ [layer]).modify a fun n => { n with layers := h.length :: rest })

/-- layers/linear.py:50-62 and layers/softmax.py:96-108 `init` with `X=None, Y=None`; `initW` and `initb` return arrays of
the shape they are asked for. -/
def linearInit (initW : ℕ → ℕ → RowArr) (initb : ℕ → RowArr) (n : Node RowArr A) : Except PyErr (Node RowArr A) := do
  let nO ← n.getDim "nO"
  let nI ← n.getDim "nI"
  let n := n.setParam "W" (some (initW nO nI))
  let nO ← n.getDim "nO"
  return n.setParam "b" (some (initb nO))

end Thinc
