import Verif.Model.Containers
import Mathlib.Data.Real.Basic
/-!
# Wrapped TensorFlow and MXNet models: training, and temporary weights

thinc/shims/tensorflow.py and thinc/shims/mxnet.py.  The frameworks are outside the repository: the gradients on the tape are an
arbitrary function of the tensor, and the weights of a newly built model are arbitrary.  Arrays have a shape and entries in
row-major order (`Container.NdArray`).
-/
namespace Thinc.TF
open Container

/-- A weight, variable or gradient. -/
abbrev Arr := NdArray ℝ

/-- `thinc.optimizers.Optimizer.__call__`, here for one-dimensional arrays: key, parameters, gradient, state; new parameters
and new state. -/
abbrev FlatOpt (σ : Type) := Nat × String → List ℝ → List ℝ → σ → Except PyErr (List ℝ × σ)

/-! ### Training -/

/-- thinc/shims/tensorflow.py:71-75: the shim; the trainable variables of its model. -/
structure Shim where
  id : Nat
  vars : List Arr
  gradients : Option (List Arr)

/-- What gradients are asked for: the input, a row of the first input, or a trainable variable. -/
inductive Wrt where
  | input (i : Nat)
  | row (j : Nat)
  | var (k : Nat)

/-- A forward pass on the tape: the number of inputs, the number of rows of the first of them, and the gradient of the
output's gradient for each tensor (`None` for tensors that the output does not depend on).  The rows that iterating over a tensor
gives are new tensors, so the output does not depend on them. -/
structure Pass where
  nArgs : Nat
  rows : Nat
  gradInput : Nat → Option Arr
  gradVar : Nat → Option Arr

/-- `tape.gradient` for one tensor. -/
def Pass.grad (p : Pass) : Wrt → Option Arr
  | .input i => p.gradInput i
  | .row _ => none
  | .var k => p.gradVar k

/-- thinc/shims/tensorflow.py:110-114 `wrt_tensors`. -/
def Pass.wrt (p : Pass) (nVars : Nat) : Except PyErr (List Wrt) :=
  if p.nArgs = 1 then .ok (.input 0 :: (List.range nVars).map .var)
  else if p.nArgs = 0 then .error .indexError
  else .ok ((List.range p.rows).map .row ++ (List.range nVars).map .var)

/-- `tf.Variable(f)`: there must be a value. -/
def newVariables : List (Option Arr) → Except PyErr (List Arr)
  | [] => .ok []
  | none :: _ => .error .valueError
  | some g :: gs => do
    let vs ← newVariables gs
    .ok (g :: vs)

/-- `variable.assign_add(new_variable)`: the shapes must agree. -/
noncomputable def assignAdd (v : Arr) : Option Arr → Except PyErr Arr
  | none => .error .valueError
  | some g => if v.shape = g.shape then .ok ⟨v.shape, List.zipWith (· + ·) v.data g.data⟩ else .error .valueError

/-- thinc/shims/tensorflow.py:124-125: the loop. -/
noncomputable def assignAddAll : List Arr → List (Option Arr) → Except PyErr (List Arr)
  | v :: vs, g :: gs => do
    let v ← assignAdd v g
    let vs ← assignAddAll vs gs
    .ok (v :: vs)
  | _, _ => .ok []

/-- thinc/shims/tensorflow.py:120-128: accumulation of the gradients. -/
noncomputable def accumulate (old : Option (List Arr)) (new : List (Option Arr)) : Except PyErr (List Arr) :=
  match old with
  | none => newVariables new
  | some vs => if new.length = vs.length then assignAddAll vs new else .error .assertionError

/-- thinc/shims/tensorflow.py:106-129 `backprop` (the callback of `begin_update`): the gradients of the inputs, and the shim. -/
noncomputable def Shim.backprop (s : Shim) (p : Pass) : Except PyErr (List (Option Arr) × Shim) := do
  let wrt ← p.wrt s.vars.length
  let all := wrt.map p.grad
  let gradients ← accumulate s.gradients (all.drop 1)
  .ok (all.take p.nArgs, { s with gradients := some gradients })

/-- `flat[start : start + size].reshape(shape)` -/
def cut (flat : List ℝ) (start : Nat) (shape : List Nat) : Except PyErr Arr :=
  if ((flat.drop start).take shape.prod).length = shape.prod then .ok ⟨shape, (flat.drop start).take shape.prod⟩
  else .error .valueError

/-- thinc/shims/tensorflow.py:156-161, thinc/shims/mxnet.py:78-84: every variable gets its part of the flat array. -/
def writeBack (flat : List ℝ) : Nat → List (List Nat) → Except PyErr (List Arr)
  | _, [] => .ok []
  | start, shape :: shapes => do
    let v ← cut flat start shape
    let vs ← writeBack flat (start + shape.prod) shapes
    .ok (v :: vs)

/-- thinc/shims/tensorflow.py:133-162 `finish_update`. -/
def Shim.finishUpdate {σ : Type} (s : Shim) (opt : FlatOpt σ) (st : σ) : Except PyErr (Shim × σ) :=
  match s.gradients with
  | none => .error .valueError
  | some gs =>
    if gs.length ≠ s.vars.length then .error .assertionError
    else if s.vars.length = 0 then .error .indexError
    else do
      let (flat, st) ← opt (s.id, "tensorflow-shim") (s.vars.map (·.data)).flatten (gs.map (·.data)).flatten st
      let vars ← writeBack flat 0 (s.vars.map (·.shape))
      .ok ({ s with vars := vars, gradients := none }, st)

/-- A parameter of an MXNet model and its gradient. -/
structure MxParam where
  data : Arr
  grad : Arr

/-- `value.set_data(param)`, `value.zero_grad()` (thinc/shims/mxnet.py:82-83). -/
def setData (p : MxParam) (v : Arr) : MxParam := ⟨v, ⟨p.grad.shape, p.grad.data.map fun _ => 0⟩⟩

/-- thinc/shims/mxnet.py:61-84 `finish_update`. -/
def mxFinishUpdate {σ : Type} (id : Nat) (params : List MxParam) (opt : FlatOpt σ) (st : σ) :
    Except PyErr (List MxParam × σ) :=
  if params.length = 0 then .ok (params, st)
  else do
    let (flat, st) ← opt (id, "mxnet-shim") (params.map (·.data.data)).flatten (params.map (·.grad.data)).flatten st
    let vs ← writeBack flat 0 (params.map (·.data.shape))
    .ok (List.zipWith setData params vs, st)

/-! ### Weights -/

/-- A Keras model: its layers, each with its named weights. -/
abbrev Keras := List (List (String × Arr))

/-- thinc/shims/tensorflow.py:176-182 `_create_state_dict`: a later weight of the same name replaces an earlier one. -/
def stateDict (m : Keras) (name : String) : Option Arr :=
  (m.flatten.reverse.find? (fun kv => kv.1 == name)).map Prod.snd

/-- thinc/shims/tensorflow.py:170-172: the weights of one layer. -/
def layerWeights (dict : String → Option Arr) : List (String × Arr) → Except PyErr (List (String × Arr))
  | [] => .ok []
  | (name, _) :: ws => match dict name with
    | none => .error .keyError
    | some v => do
      let rest ← layerWeights dict ws
      .ok ((name, v) :: rest)

/-- `layer.set_weights(current_layer_weights)` (thinc/shims/tensorflow.py:173): Keras raises `ValueError` if a shape differs. -/
def setWeights (dict : String → Option Arr) (l : List (String × Arr)) : Except PyErr (List (String × Arr)) := do
  let new ← layerWeights dict l
  if new.map (·.2.shape) = l.map (·.2.shape) then .ok new else .error .valueError

/-- thinc/shims/tensorflow.py:164-173 `_load_weights_from_state_dict`: the model afterwards, also if a name is missing
(`KeyError`) or a shape is wrong (`ValueError`): then the layers before it are changed. -/
def loadWeights (dict : String → Option Arr) : Keras → Option PyErr × Keras
  | [] => (none, [])
  | l :: ls => match setWeights dict l with
    | .error e => (some e, l :: ls)
    | .ok l' => ((loadWeights dict ls).1, l' :: (loadWeights dict ls).2)

/-- A key of the dict given to `use_params`: a weight of the shim with this number, or something else. -/
inductive Key where
  | weight (shim : Nat) (name : String)
  | other (id : Nat)
  deriving DecidableEq

/-- thinc/shims/tensorflow.py:186-197: the entries for this shim (`k.replace(key_prefix, "")` is the name; names do not contain the
prefix themselves). -/
def ownParams (id : Nat) : List (Key × Arr) → List (String × Arr)
  | [] => []
  | (.weight i name, v) :: rest => if i = id then (name, v) :: ownParams id rest else ownParams id rest
  | (.other _, _) :: rest => ownParams id rest

/-- The value for a name in a dict made in this order. -/
def lookupLast (kvs : List (String × Arr)) (name : String) : Option Arr :=
  (kvs.reverse.find? (fun kv => kv.1 == name)).map Prod.snd

/-- thinc/shims/tensorflow.py:184-204 `use_params` around a `with` block.  `body` is what the block does with the model; it may raise.
There is no `try`, so an exception leaves the model as it is. -/
def useParams {β : Type} (id : Nat) (params : List (Key × Arr)) (body : Keras → Except PyErr β × Keras) (m : Keras) :
    Except PyErr β × Keras :=
  if (ownParams id params).isEmpty then body m
  else
    let backup := stateDict m
    match loadWeights (lookupLast (ownParams id params)) m with
    | (some e, m') => (.error e, m')
    | (none, m') =>
      match body m' with
      | (.error e, m'') => (.error e, m'')
      | (.ok b, m'') =>
        match loadWeights backup m'' with
        | (some e, m3) => (.error e, m3)
        | (none, m3) => (.ok b, m3)

/-- The configuration of a model, `self._model.to_json()`: names and shapes of the weights, but not the weights. -/
def config (m : Keras) : List (List (String × List Nat)) := m.map fun l => l.map fun kv => (kv.1, kv.2.shape)

/-- thinc/shims/tensorflow.py:206-214 `_clone_model`: `build` is `model_from_json`, a model with newly initialized weights; the
state dict that is loaded is created from the new model. -/
def cloneModel (build : List (List (String × List Nat)) → Keras) (m : Keras) : Keras :=
  (loadWeights (stateDict (build (config m))) (build (config m))).2

/-- thinc/shims/tensorflow.py:216-223 `copy`: the model of the original and of the copy afterwards. -/
def copyShim (build : List (List (String × List Nat)) → Keras) (m : Keras) : Option Keras × Option Keras :=
  (none, some (loadWeights (stateDict (build (config m))) (build (config m))).2)

end Thinc.TF
