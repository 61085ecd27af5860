import Verif.Model.Py
/-!
# Wrapped models of other libraries: bytes, copies and temporary parameters

The libraries themselves are parameters: what `torch.save`, `torch.jit.save`, `h5py` and
`srsly.msgpack` write and read are arbitrary functions.
-/
namespace Thinc.Wrapped

/-- Bytes. -/
abbrev Bytes := List (BitVec 8)

/-- A writer and reader of values of type `α` as bytes. -/
structure Codec (α : Type) where
  dumps : α → Bytes
  loads : Bytes → Except PyErr α

/-- A shim: its `cfg` and the wrapped model. -/
structure Shim (C M : Type) where
  cfg : C
  model : M

/-- `default_serialize_torch_model(model)`, thinc/shims/pytorch.py:220-232. -/
def defaultSerialize {M S : Type} (stateDict : M → S) (torchSave : Codec S) (model : M) : Bytes :=
  torchSave.dumps (stateDict model)

/-- `default_deserialize_torch_model(model, state_bytes, device)`, thinc/shims/pytorch.py:235-258.
The state dict is loaded from the bytes, the model is moved to the device (not modelled) and
returned.  The code does not put the state dict into the model. -/
def defaultDeserialize {M S : Type} (torchSave : Codec S) (model : M) (stateBytes : Bytes) : Except PyErr M := do
  let _stateDict ← torchSave.loads stateBytes
  .ok model

/-- `PyTorchShim.to_bytes`, thinc/shims/pytorch.py:206-209; `serialize` is the callback. -/
def torchToBytes {C M : Type} (msgpack : Codec (C × Bytes)) (serialize : M → Bytes) (sh : Shim C M) : Bytes :=
  msgpack.dumps (sh.cfg, serialize sh.model)

/-- `PyTorchShim.from_bytes`, thinc/shims/pytorch.py:211-217. -/
def torchFromBytes {C M : Type} (msgpack : Codec (C × Bytes)) (deserialize : M → Bytes → Except PyErr M)
    (sh : Shim C M) (data : Bytes) : Except PyErr (Shim C M) := do
  let msg ← msgpack.loads data
  let model ← deserialize sh.model msg.2
  .ok ⟨msg.1, model⟩

/-- `TorchScriptShim.to_bytes`, thinc/shims/torchscript.py:47-53. -/
def scriptToBytes {C M : Type} (msgpack : Codec (C × Bytes)) (jitSave : Codec M) (sh : Shim C M) : Bytes :=
  msgpack.dumps (sh.cfg, jitSave.dumps sh.model)

/-- `TorchScriptShim.from_bytes`, thinc/shims/torchscript.py:55-67. -/
def scriptFromBytes {C M : Type} (msgpack : Codec (C × Bytes)) (jitSave : Codec M) (_sh : Shim C M) (data : Bytes) :
    Except PyErr (Shim C M) := do
  let msg ← msgpack.loads data
  let model ← jitSave.loads msg.2
  .ok ⟨msg.1, model⟩

/-- What `TensorFlowShim.to_bytes` returns: the bytes of an h5 file, or, for a subclassed model that
h5 cannot represent, the name under which its class is registered and its weights. -/
inductive TfData (W : Type) where
  | bytes (b : Bytes)
  | weights (name : Nat) (w : W)

/-- A Keras model: what it is (its code and configuration) and its weights.  `h5` says whether the
h5 format can represent it, `catalogueName` is the registered name of a decorated subclass. -/
structure Keras (K W : Type) where
  kind : K
  weights : W
  h5 : Bool
  catalogueName : Option Nat

/-- `TensorFlowShim.to_bytes`, thinc/shims/tensorflow.py:233-247. -/
def tfToBytes {C K W : Type} (h5 : Codec (Keras K W)) (sh : Shim C (Option (Keras K W))) : Except PyErr (TfData W) :=
  match sh.model with
  | none => .error .attributeError
  | some m =>
    if m.h5 then .ok (.bytes (h5.dumps m))
    else match m.catalogueName with
      | none => .error .valueError
      | some name => .ok (.weights name m.weights)

/-- `TensorFlowShim.from_bytes`, thinc/shims/tensorflow.py:249-277.  With weights for a shim that has
no model, a new model is built but stored in another field, and `self._model.set_weights` is called
on `None`. -/
def tfFromBytes {C K W : Type} (h5 : Codec (Keras K W)) (sh : Shim C (Option (Keras K W))) (data : TfData W) :
    Except PyErr (Shim C (Option (Keras K W))) :=
  match data with
  | .bytes b => (h5.loads b).map (fun m => ⟨sh.cfg, some m⟩)
  | .weights _ w => match sh.model with
    | none => .error .attributeError
    | some m => .ok ⟨sh.cfg, some { m with weights := w }⟩

/-- `TensorFlowShim.copy`, thinc/shims/tensorflow.py:216-223: the original shim and the copy
afterwards.  `fresh` is the model that `model_from_json` builds: the same kind, new weights.
`_load_weights_from_state_dict()` without argument reads the state dict of the copy itself
(thinc/shims/tensorflow.py:164-173), so it puts back the weights that are there. -/
def tfCopy {C K W : Type} (fresh : K → Keras K W) (sh : Shim C (Option (Keras K W))) :
    Except PyErr (Shim C (Option (Keras K W)) × Shim C (Option (Keras K W))) :=
  match sh.model with
  | none => .error .attributeError
  | some m =>
    let original : Shim C (Option (Keras K W)) := ⟨sh.cfg, none⟩
    let copied : Shim C (Option (Keras K W)) := ⟨original.cfg, some (fresh m.kind)⟩
    .ok (original, copied)

/-- `Shim.copy`, thinc/shims/shim.py:52-53: a deep copy; the original and the copy afterwards. -/
def shimCopy {C M : Type} (sh : Shim C M) : Shim C M × Shim C M := (sh, sh)

/-- `Shim.to_disk` and `Shim.from_disk`, thinc/shims/shim.py:58-68: the bytes go through one file. -/
def shimFromDisk {C M : Type} (fromBytes : Shim C M → Bytes → Except PyErr (Shim C M)) (sh : Shim C M)
    (disk : PyDict Nat Bytes) (path : Nat) : Except PyErr (Shim C M) :=
  match disk.get? path with
  | none => .error (.userError 2)
  | some b => fromBytes sh b

/-- A key of the dictionary given to `use_params`: a pair of an id and a name, or a string. -/
inductive PKey where
  | pair (id : Nat) (name : List Char)
  | str (s : List Char)
  deriving DecidableEq

/-- `s.replace(p, "")` for a nonempty `p`: occurrences are removed from left to right. -/
def removeAll (p : List Char) : List Char → List Char
  | [] => []
  | c :: cs =>
    if p.isPrefixOf (c :: cs) then removeAll p (cs.drop (p.length - 1)) else c :: removeAll p cs
  termination_by s => s.length

/-- The loop of thinc/shims/pytorch.py:186-188: string keys with the prefix go into the state dict,
all others are skipped. -/
def selectState {V : Type} (pre : List Char) : PyDict PKey V → PyDict (List Char) V → PyDict (List Char) V
  | [], acc => acc
  | (.pair _ _, _) :: rest, acc => selectState pre rest acc
  | (.str k, v) :: rest, acc =>
    if pre.isPrefixOf k then selectState pre rest (acc.set (removeAll pre k) v) else selectState pre rest acc

/-- `module.load_state_dict(state)` (strict): every name must be there and no other
(`RuntimeError` otherwise). -/
def loadStateDict {V : Type} (module_ state : PyDict (List Char) V) : Except PyErr (PyDict (List Char) V) :=
  if (module_.all fun p => (state.get? p.1).isSome) && (state.all fun p => (module_.get? p.1).isSome) then
    .ok (module_.map fun p => (p.1, (state.get? p.1).getD p.2))
  else .error (.userError 1)

/-- `PyTorchShim.use_params(params)` around a body, thinc/shims/pytorch.py:182-195.  `pre` is
`f"pytorch_{self.id}_"`.  The body sees the module's parameters and may change them; there is no
try/finally. -/
def torchUseParams {V R : Type} (pre : List Char) (params : PyDict PKey V)
    (body : PyDict (List Char) V → PyDict (List Char) V × Except PyErr R) (module_ : PyDict (List Char) V) :
    PyDict (List Char) V × Except PyErr R :=
  let state := selectState pre params []
  if state.isEmpty then body module_
  else match loadStateDict module_ state with
    | .error e => (module_, .error e)
    | .ok loaded => match body loaded with
      | (m, .error e) => (m, .error e)
      | (m, .ok r) => match loadStateDict m module_ with
        | .error e => (m, .error e)
        | .ok m' => (m', .ok r)

/-- The counters of thinc/model.py (`Model.global_id`) and thinc/shims/shim.py:20, 26-29
(`Shim.global_id`): two separate numbers. -/
structure Counters where
  model : Nat := 0
  shim : Nat := 0

/-- Constructing a model: its id and the counters afterwards. -/
def newModelId (c : Counters) : Nat × Counters := (c.model + 1, { c with model := c.model + 1 })

/-- Constructing a shim, thinc/shims/shim.py:26-33. -/
def newShimId (c : Counters) : Nat × Counters := (c.shim + 1, { c with shim := c.shim + 1 })

end Thinc.Wrapped
