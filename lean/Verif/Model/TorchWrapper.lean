import Verif.Model.Recursive
import Mathlib.Data.Real.Basic
import Mathlib.Logic.Function.Basic
/-!
# Wrapped PyTorch models as layers: conversion of inputs, outputs and gradients

thinc/layers/pytorchwrapper.py, with the shim of thinc/shims/pytorch.py (mixed precision switched off; the gradient
scaler is the subject of `Model/TorchShim.lean`).  Arrays and tensors are objects with an identity; the store says what
they contain.  The identity of an object shows its type: `4k` is an array, `4k + 1` a tensor, `4k + 2` the tensor that
is the gradient of tensor `4k + 1`, `4k + 3` anything else; 3 is `None` and 7 is `Ellipsis`.  Devices are left out, and
so is the memory that an array and its tensor may share: the contents are copied.  PyTorch is outside the repository:
calling the module and the backward pass of autograd are arbitrary functions.
-/
namespace Thinc.Torch
open Obj

/-- The arrays and tensors: their entries, whether the type of the entries is a float type, `requires_grad`, and
whether `.grad` is a tensor (or else `None`).  `next` numbers new objects. -/
structure Store where
  next : Nat
  data : Nat → List ℝ
  floats : Nat → Bool
  requiresGrad : Nat → Bool
  hasGrad : Nat → Bool

/-- A computation that may change the store or raise. -/
abbrev Run := StateT Store (Except PyErr)

/-- thinc/util.py:112-132 `is_xp_array`. -/
def isXp : Obj → Bool
  | .other id _ => id % 4 == 0
  | _ => false

/-- thinc/util.py:135-141 `is_torch_array`; also `hasattr(x, "grad")` (thinc/shims/pytorch.py:148, 160). -/
def isTorch : Obj → Bool
  | .other id _ => id % 4 == 1 || id % 4 == 2
  | _ => false

def pyNone : Obj := .other 3 true
def pyEllipsis : Obj := .other 7 true

/-- A new tensor with the contents of object `id`. -/
def Store.newTensor (s : Store) (requiresGrad : Bool) (id : Nat) : Store where
  next := s.next + 1
  data := Function.update s.data (4 * s.next + 1) (s.data id)
  floats := Function.update s.floats (4 * s.next + 1) (s.floats id)
  requiresGrad := Function.update s.requiresGrad (4 * s.next + 1) requiresGrad
  hasGrad := Function.update s.hasGrad (4 * s.next + 1) false

/-- A new array with the contents of object `id`. -/
def Store.newArray (s : Store) (id : Nat) : Store where
  next := s.next + 1
  data := Function.update s.data (4 * s.next) (s.data id)
  floats := Function.update s.floats (4 * s.next) (s.floats id)
  requiresGrad := s.requiresGrad
  hasGrad := s.hasGrad

/-- thinc/util.py:388-413 `xp2torch`: `requires_grad_` raises (RuntimeError, here `userError 0`) if the entries are no
floats. -/
def xp2torch (requiresGrad : Bool) : Obj → Run Obj
  | .other id _ => fun s =>
    if requiresGrad && !s.floats id then .error (.userError 0)
    else .ok (.other (4 * s.next + 1) true, s.newTensor requiresGrad id)
  | _ => fun _ => .error .typeError

/-- thinc/util.py:416-434 `torch2xp`; something that is no tensor has no `detach`. -/
def torch2xp : Obj → Run Obj
  | .other id h => fun s =>
    if isTorch (.other id h) then .ok (.other (4 * s.next) false, s.newArray id) else .error .attributeError
  | _ => fun _ => .error .attributeError

/-- `x.grad` for a tensor `x` (thinc/shims/pytorch.py:158): the gradient of a gradient is `None`. -/
def getGrad : Obj → Run Obj
  | .other id _ => fun s =>
    if id % 4 == 1 && s.hasGrad id then .ok (.other (id + 1) true, s) else .ok (pyNone, s)
  | _ => fun _ => .error .attributeError

/-- The wrapped module: what a call with given arguments (an `ArgsKwargs`) does in training or evaluation mode, and
what the backward pass of autograd does for outputs and their gradients. -/
structure Module where
  call : Bool → Obj → Run Obj
  backward : List Obj → List Obj → Run Unit

/-- The arguments of `torch.autograd.backward`: a tensor, or a sequence of tensors. -/
def asTensors : Obj → Except PyErr (List Obj)
  | .other id h => if isTorch (.other id h) then .ok [.other id h] else .error .typeError
  | .tup xs => if xs.all isTorch then .ok xs else .error .typeError
  | .list xs => if xs.all isTorch then .ok xs else .error .typeError
  | _ => .error .typeError

/-- `torch.autograd.backward(tensors, grad_tensors=…)`: there must be one gradient for each tensor. -/
def Module.autograd (M : Module) (tensors gradTensors : Obj) : Run Unit := do
  let ts ← liftE (asTensors tensors)
  let gs ← liftE (asTensors gradTensors)
  if ts.length = gs.length then M.backward ts gs else throw (.userError 0)

/-- thinc/layers/pytorchwrapper.py:246-272: the `ArgsKwargs` made of the converted input. -/
def wrapArgs : Obj → Obj
  | .argsKwargs args kwargs => .argsKwargs args kwargs
  | .dict kvs => .argsKwargs [] kvs
  | .tup xs => .argsKwargs xs []
  | .list xs => .argsKwargs xs []
  | o => .argsKwargs [o] []

/-- `dX.args` -/
def getArgs : Obj → Except PyErr (List Obj)
  | .argsKwargs args _ => .ok args
  | _ => .error .attributeError

/-- `dX.kwargs` -/
def getKwargs : Obj → Except PyErr (List (Obj × Obj))
  | .argsKwargs _ kwargs => .ok kwargs
  | _ => .error .attributeError

/-- `dX.args[0]` -/
def getArg0 (o : Obj) : Except PyErr Obj :=
  match getArgs o with
  | .error e => .error e
  | .ok [] => .error .indexError
  | .ok (a :: _) => .ok a

/-- thinc/layers/pytorchwrapper.py:246-272: what the four `reverse_conversion`s take out of the `ArgsKwargs`. -/
def unwrapArgs (converted dX : Obj) : Except PyErr Obj :=
  match converted with
  | .argsKwargs _ _ => .ok dX
  | .dict _ => (getKwargs dX).map .dict
  | .tup _ => (getArgs dX).map .tup
  | .list _ => (getArgs dX).map .tup
  | _ => getArg0 dX

/-- thinc/layers/pytorchwrapper.py:248-270 `reverse_conversion` of `convert_pytorch_default_inputs`. -/
noncomputable def reverseInputs (converted dXtorch : Obj) : Run Obj := do
  let dX ← convertRecursive isTorch torch2xp dXtorch
  liftE (unwrapArgs converted dX)

/-- thinc/layers/pytorchwrapper.py:280-284 `reverse_conversion` of `convert_pytorch_default_outputs`: the tensors and
their gradients for autograd (`args` and `grad_tensors` of the `ArgsKwargs`). -/
noncomputable def reverseOutputs (Ytorch dY : Obj) : Run (Obj × Obj) := do
  let dYtorch ← convertRecursive isXp (xp2torch false) dY
  pure (.tup [Ytorch], dYtorch)

/-- thinc/shims/pytorch.py:131-160: the callback of `begin_update`. -/
noncomputable def Module.backprop (M : Module) (inputs : Obj) (grads : Obj × Obj) : Run Obj := do
  M.autograd grads.1 grads.2
  convertRecursive isTorch getGrad inputs

/-- thinc/shims/pytorch.py:93-97, 107-129 `__call__`, `predict` and `begin_update`. -/
noncomputable def Module.shimCall (M : Module) (inputs : Obj) (isTrain : Bool) : Run (Obj × (Obj × Obj → Run Obj)) := do
  let Ytorch ← M.call isTrain inputs
  pure (Ytorch, if isTrain then M.backprop inputs else fun _ => pure pyEllipsis)

/-- thinc/layers/pytorchwrapper.py:217-234 `forward`, with the default conversions (240-286). -/
noncomputable def Module.forward (M : Module) (X : Obj) (isTrain : Bool) : Run (Obj × (Obj → Run Obj)) := do
  let converted ← convertRecursive isXp (xp2torch isTrain) X
  let (Ytorch, torchBackprop) ← M.shimCall (wrapArgs converted) isTrain
  let Y ← convertRecursive isTorch torch2xp Ytorch
  pure (Y, fun dY => do
    let dYtorch ← reverseOutputs Ytorch dY
    let dXtorch ← torchBackprop dYtorch
    reverseInputs converted dXtorch)

/-! ### Recurrent networks -/

/-- thinc/types.py:1110-1121 `Padded`, with the array as an object. -/
structure PaddedObj where
  data : Obj
  sizeAtT : Obj
  lengths : Obj
  indices : Obj

/-- thinc/layers/pytorchwrapper.py:311: `(Ytorch, _) = …` -/
def unpackPair : Obj → Except PyErr (Obj × Obj)
  | .tup [a, b] => .ok (a, b)
  | .list [a, b] => .ok (a, b)
  | .tup _ => .error .valueError
  | .list _ => .error .valueError
  | _ => .error .typeError

/-- thinc/layers/pytorchwrapper.py:217-234 `forward`, with `convert_rnn_inputs` (292-306) and `convert_rnn_outputs`
(309-319). -/
noncomputable def Module.forwardRnn (M : Module) (Xp : PaddedObj) (isTrain : Bool) :
    Run (PaddedObj × (PaddedObj → Run PaddedObj)) := do
  let Xtorch ← xp2torch true Xp.data
  let (out, torchBackprop) ← M.shimCall (.argsKwargs [Xtorch, pyNone] []) isTrain
  let (Ytorch, _) ← liftE (unpackPair out)
  let Y ← torch2xp Ytorch
  pure (⟨Y, Xp.sizeAtT, Xp.lengths, Xp.indices⟩, fun dYp => do
    let dYtorch ← xp2torch true dYp.data
    let dXtorch ← torchBackprop (Ytorch, dYtorch)
    let d ← liftE (getArg0 dXtorch)
    let dX ← torch2xp d
    pure ⟨dX, Xp.sizeAtT, Xp.lengths, Xp.indices⟩)

end Thinc.Torch
