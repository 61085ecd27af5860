import Verif.Model.Layer
import Verif.Model.FinishUpdate
import Verif.Model.Optimizer
/-!
# Training a model with an optimizer

The parameters of a model are kept by its nodes (`Verif.Model.NodeState`), while `Verif.Model.Layer` numbers them.
`slot` says where each numbered parameter is kept.  One iteration of training is what the README and the docstrings of
`begin_update` and `finish_update` (thinc/model.py:312-349) tell the user to do:

```
for X, Y in batches:
    Yh, backprop = model.begin_update(X)
    backprop(loss.get_grad(Yh, Y))
model.finish_update(optimizer)
optimizer.step_schedules()
```
-/
namespace Thinc
variable {A : Type}

/-- The node and the name of each numbered parameter. -/
abbrev Slots := Nat → Addr × String

/-- The parameters that the layers read, thinc/model.py:230-238 `get_param`.  (A parameter that is not allocated is read as an
array without entries here; the code raises.) -/
noncomputable def readParams (h : Heap (Mat ℝ) A) (slot : Slots) : ParamVals := fun p =>
  match h[(slot p).1]? with
  | some n => match n.getParam (slot p).2 with
    | .ok v => v
    | .error _ => Mat.zeros 0 0
  | none => Mat.zeros 0 0

/-- The gradients that the nodes hold, thinc/backends/_param_server.py `ParamServer._grads`. -/
def readGrads (h : Heap (Mat ℝ) A) (slot : Slots) : GradStore := fun p =>
  match h[(slot p).1]? with
  | some n => n.grads.get? (n.id, (slot p).2)
  | none => none

/-- The gradient of one parameter becomes `g` (`none`: no gradient), thinc/backends/_param_server.py:65-79. -/
def Node.putGrad (n : Node (Mat ℝ) A) (name : String) : Option (Mat ℝ) → Node (Mat ℝ) A
  | none => { n with grads := n.grads.filter fun e => e.1 ≠ (n.id, name) }
  | some g => n.setGrad name g

/-- Store one gradient in its node. -/
def writeGrad (slot : Slots) (G : GradStore) (h : Heap (Mat ℝ) A) (p : Nat) : Heap (Mat ℝ) A :=
  h.modify (slot p).1 fun n => n.putGrad (slot p).2 (G p)

/-- The nodes hold the gradients that the callback has left. -/
def writeGrads (N : Nat) (slot : Slots) (G : GradStore) (h : Heap (Mat ℝ) A) : Heap (Mat ℝ) A :=
  (List.range N).foldl (writeGrad slot G) h

/-- `Yh, backprop = model.begin_update(X)`, `backprop(get_grad(Yh))`: thinc/model.py:312-318. -/
noncomputable def backpropBatch (L : Layer) (N : Nat) (slot : Slots) (h : Heap (Mat ℝ) A)
    (batch : Val × (Val → Except PyErr Val)) : Except PyErr (Heap (Mat ℝ) A) := do
  let (Y, callback) ← L true (readParams h slot) batch.1
  let D ← batch.2 Y
  let (_, G) ← callback D (readGrads h slot)
  return writeGrads N slot G h

/-- The entries of an array in memory order, as `Verif.Model.Optimizer` takes them. -/
noncomputable def Mat.ravel (X : Mat ℝ) : Vec := List.ofFn fun k : Fin (X.rows * X.cols) => X.val k

/-- The array with the given entries. -/
noncomputable def Mat.ofVec (rows cols : Nat) (v : Vec) : Mat ℝ := ⟨rows, cols, fun k => v.getD k 0⟩

/-- thinc/optimizers.py:230-284 `Optimizer.__call__` as `finish_update` calls it.  Exceptions of the optimizer are not
modelled here (C18_when_it_raises says when there are none).  `len(gradient)` of a one-dimensional gradient, a matrix with
one row here, is its number of entries; the difference only matters for empty arrays, which hold nothing to update. -/
noncomputable def optimizerFn (cfg : OptCfg (Nat × String)) : OptFn (OptState (Nat × String)) (Mat ℝ) := fun st key w g =>
  let (st', r) := st.call cfg key g.rows w.ravel g.ravel 1
  (st', Mat.ofVec w.rows w.cols r.weights, Mat.ofVec g.rows g.cols r.gradient)

/-- What training changes. -/
structure TrainState (A : Type) where
  nodes : Heap (Mat ℝ) A
  opt : OptState (Nat × String)

/-- Backprop through some batches, then `finish_update` and `step_schedules` (thinc/optimizers.py:210-211).  The model has no
shims. -/
noncomputable def trainIteration (L : Layer) (N : Nat) (slot : Slots) (cfg : OptCfg (Nat × String)) (self : Addr)
    (s : TrainState A) (batches : List (Val × (Val → Except PyErr Val))) : Except PyErr (TrainState A) := do
  let h ← batches.foldlM (backpropBatch L N slot) s.nodes
  match finishUpdate (optimizerFn cfg) (fun s _ => (s, .ok ())) h s.opt () self with
  | ((fu, _), .ok ()) => return ⟨fu.nodes, { fu.opt with step := fu.opt.step + 1 }⟩
  | (_, .error e) => throw e

/-- Several iterations. -/
noncomputable def trainLoop (L : Layer) (N : Nat) (slot : Slots) (cfg : OptCfg (Nat × String)) (self : Addr)
    (s : TrainState A) (iterations : List (List (Val × (Val → Except PyErr Val)))) : Except PyErr (TrainState A) :=
  iterations.foldlM (trainIteration L N slot cfg self) s

end Thinc
