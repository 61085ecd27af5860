import Verif.Model.TorchWrapper
/-!
# Wrapped TensorFlow and MXNet models as layers: conversion of inputs, outputs and gradients

thinc/layers/tensorflowwrapper.py and thinc/layers/mxnetwrapper.py, with the shims' calls (thinc/shims/tensorflow.py,
thinc/shims/mxnet.py).  Arrays and tensors are the objects of `Model/TorchWrapper.lean`.  TensorFlow and MXNet are outside
the repository: calling the model and computing gradients are arbitrary functions.  What the shims do with the gradients of
the weights is the subject of `Model/TensorFlow.lean`.  The learning phase of Keras and the recording switch of MXNet are
left out: models are told whether they are trained.
-/
namespace Thinc.Frameworks
open Obj Torch

/-- thinc/util.py:436-459 `xp2tensorflow`, with `as_variable=False`.  TensorFlow's tensors do not ask for gradients by
themselves: `requires_grad` only decides about `tf.stop_gradient`, which has no effect outside a tape. -/
def xp2tf : Obj → Run Obj
  | .other id _ => fun s => .ok (.other (4 * s.next + 1) true, s.newTensor false id)
  | _ => fun _ => .error .typeError

/-- thinc/util.py:462-481 `tensorflow2xp`: something that is no tensor has no `numpy`. -/
def tf2xp : Obj → Run Obj
  | .other id h => fun s =>
    if isTorch (.other id h) then .ok (.other (4 * s.next) false, s.newArray id) else .error .attributeError
  | _ => fun _ => .error .attributeError

/-- A Keras model: what `tape.watch` and a call with given arguments (an `ArgsKwargs`) do, in training or not; the trainable
variables; the tensors that iterating over a tensor gives; `tape.gradient` for an output, a list of tensors and the gradient
of the output; and how the shim accumulates the gradients of the variables (thinc/shims/tensorflow.py:120-128). -/
structure Keras where
  watch : List Obj → Run Unit
  call : Bool → Obj → Run Obj
  vars : List Obj
  rows : Obj → Run (List Obj)
  gradient : Obj → List Obj → Obj → Run (List Obj)
  accumulate : List Obj → Run Unit

/-- thinc/shims/tensorflow.py:110-113: the tensors of the inputs for which gradients are computed. -/
noncomputable def Keras.inputTensors (K : Keras) : List Obj → Run (List Obj)
  | [x] => pure [x]
  | [] => fun _ => .error .indexError
  | x :: _ => if isTorch x then K.rows x else liftE x.iter

/-- thinc/shims/tensorflow.py:106-129 `backprop`: the callback of `begin_update`. -/
noncomputable def Keras.backprop (K : Keras) (args : List Obj) (output dOutput : Obj) : Run Obj := do
  let wrt ← K.inputTensors args
  let all ← K.gradient output (wrt ++ K.vars) dOutput
  K.accumulate (all.drop 1)
  pure (.argsKwargs (all.take args.length) [])

/-- thinc/layers/tensorflowwrapper.py:148-174: the four `reverse_conversion`s of `_convert_inputs`. -/
noncomputable def reverseTf (converted dXtf : Obj) : Run Obj := do
  let dX ← convertRecursive isTorch tf2xp dXtf
  liftE (unwrapArgs converted dX)

/-- thinc/layers/tensorflowwrapper.py:117-136 `forward` with `_convert_inputs` (145-174) and `_convert_outputs` (177-183);
thinc/shims/tensorflow.py:86-104 `__call__`, `predict` and `begin_update`.  In evaluation the callback uses the variable
`tensorflow_backprop`, which has no value (NameError, here `unboundLocalError`). -/
noncomputable def Keras.forward (K : Keras) (X : Obj) (isTrain : Bool) : Run (Obj × (Obj → Run Obj)) := do
  let converted ← convertRecursive isXp xp2tf X
  if isTrain then do
    let args ← liftE (getArgs (wrapArgs converted))
    K.watch args
    let Ytf ← K.call true (wrapArgs converted)
    let Y ← convertRecursive isTorch tf2xp Ytf
    pure (Y, fun dY => do
      let dYtf ← convertRecursive isXp xp2tf dY
      let dXtf ← K.backprop args Ytf dYtf
      reverseTf converted dXtf)
  else do
    let Ytf ← K.call false (wrapArgs converted)
    let Y ← convertRecursive isTorch tf2xp Ytf
    pure (Y, fun dY => do
      let _ ← convertRecursive isXp xp2tf dY
      fun _ => .error .unboundLocalError)

/-- thinc/util.py:484-497 `xp2mxnet`: `attach_grad` takes tensors of every type. -/
def xp2mx (requiresGrad : Bool) : Obj → Run Obj
  | .other id _ => fun s => .ok (.other (4 * s.next + 1) true, s.newTensor requiresGrad id)
  | _ => fun _ => .error .typeError

/-- thinc/util.py:500-516 `mxnet2xp`. -/
def mx2xp : Obj → Run Obj
  | .other id h => fun s =>
    if isTorch (.other id h) then .ok (.other (4 * s.next) false, s.newArray id) else .error .attributeError
  | _ => fun _ => .error .attributeError

/-- thinc/layers/mxnetwrapper.py:79-105: the four `reverse_conversion`s of `convert_mxnet_default_inputs`. -/
noncomputable def reverseMx (converted dXmx : Obj) : Run Obj := do
  let dX ← convertRecursive isTorch mx2xp dXmx
  liftE (unwrapArgs converted dX)

/-- thinc/shims/mxnet.py:25-29, 42-60: the callbacks of `__call__`.  `mxnet.autograd.backward` takes a tensor or a sequence of
tensors, like PyTorch's. -/
noncomputable def mxBackprop (M : Module) (isTrain : Bool) (inputs heads headGrads : Obj) : Run Obj :=
  if isTrain then do
    M.autograd heads headGrads
    convertRecursive isTorch getGrad inputs
  else pure pyEllipsis

/-- thinc/layers/mxnetwrapper.py:51-69 `forward` with `convert_mxnet_default_inputs` (74-105) and
`convert_mxnet_default_outputs` (108-116); thinc/shims/mxnet.py:25-60. -/
noncomputable def mxForward (M : Module) (X : Obj) (isTrain : Bool) : Run (Obj × (Obj → Run Obj)) := do
  let converted ← convertRecursive isXp (xp2mx isTrain) X
  let Ymx ← M.call isTrain (wrapArgs converted)
  let Y ← convertRecursive isTorch mx2xp Ymx
  pure (Y, fun dY => do
    let dYmx ← convertRecursive isXp (xp2mx false) dY
    let dXmx ← mxBackprop M isTrain (wrapArgs converted) (.tup [Ymx]) dYmx
    reverseMx converted dXmx)

end Thinc.Frameworks
