import Verif.Model.Py
import Mathlib.Data.Real.Basic
import Mathlib.Data.Rat.Floor
/-!
# Wrapped PyTorch models: the shim and its gradient scaler

PyTorch is outside the repository; what the shim needs of it is modelled by parameters: what
`torch.autograd.backward` adds to the gradients is an arbitrary function of the gradient of the
output.  An entry of a tensor is a real number or `none`, a value that is not finite (infinite or
NaN); arithmetic with a value that is not finite gives one that is not finite.  Devices are not
distinguished: tensors of all devices are scaled and checked alike
(thinc/shims/pytorch_grad_scaler.py:124-130 groups them by device and treats every group alike).
-/
namespace Thinc.Torch

/-- The entries of a float tensor; `none` is an infinity or a NaN. -/
abbrev Tensor := List (Option ℝ)

/-- `tensor * scale`, thinc/shims/pytorch_grad_scaler.py:118-122. -/
noncomputable def mulScalar (s : ℝ) (t : Tensor) : Tensor := t.map (Option.map (s * ·))

/-- The sum of two entries. -/
noncomputable def addEntry : Option ℝ → Option ℝ → Option ℝ
  | some x, some y => some (x + y)
  | _, _ => none

/-- `a += b`. -/
noncomputable def addTensor (a b : Tensor) : Tensor := List.zipWith addEntry a b

/-- No entry is infinite or NaN. -/
def allFinite (t : Tensor) : Bool := t.all Option.isSome

/-- `t.zero_()`. -/
def zeroTensor (t : Tensor) : Tensor := t.map (fun _ => some 0)

/-- The fields of `PyTorchGradScaler`, thinc/shims/pytorch_grad_scaler.py:49-56. -/
structure Scaler where
  enabled : Bool
  growthFactor : ℝ
  backoffFactor : ℝ
  growthInterval : Int
  growthTracker : Int
  scale : ℝ
  foundInf : Bool

/-- `PyTorchGradScaler.__init__`, thinc/shims/pytorch_grad_scaler.py:19-56. -/
noncomputable def Scaler.init (enabled : Bool := false) (initScale : ℝ := 2 ^ 16) (backoffFactor : ℝ := 1 / 2)
    (growthFactor : ℝ := 2) (growthInterval : Int := 2000) : Scaler :=
  ⟨enabled, growthFactor, backoffFactor, growthInterval, 0, initScale, false⟩

/-- The argument of `scale`: a tensor, an iterable of things that are tensors or not (`none`), or
something else.  The Boolean of a tensor says that it is on a CUDA device. -/
inductive ScaleArg where
  | tensor (cuda : Bool) (t : Tensor)
  | iterable (items : List (Option (Bool × Tensor)))
  | other

/-- The tensors of an argument, unscaled. -/
def ScaleArg.tensors : ScaleArg → List Tensor
  | .tensor _ t => [t]
  | .iterable items => items.filterMap (Option.map Prod.snd)
  | .other => []

/-- `PyTorchGradScaler._scale_tensor`, thinc/shims/pytorch_grad_scaler.py:94-122. -/
noncomputable def Scaler.scaleTensor (s : Scaler) (hasAmp : Bool) (cuda : Bool) (t : Tensor) : Except PyErr Tensor :=
  if !hasAmp then .error .valueError
  else if !cuda then .error .valueError
  else .ok (mulScalar s.scale t)

/-- The loop of thinc/shims/pytorch_grad_scaler.py:82-88. -/
noncomputable def Scaler.scaleItems (s : Scaler) (hasAmp : Bool) : List (Option (Bool × Tensor)) → Except PyErr (List Tensor)
  | [] => .ok []
  | none :: _ => .error .valueError
  | some (cuda, t) :: rest => do
    let t' ← s.scaleTensor hasAmp cuda t
    let ts ← s.scaleItems hasAmp rest
    .ok (t' :: ts)

/-- `PyTorchGradScaler.scale(tensors, inplace)`, thinc/shims/pytorch_grad_scaler.py:62-92; the
tensors returned.  (`inplace=True` multiplies the tensors themselves, see `backprop`.) -/
noncomputable def Scaler.scaleUp (s : Scaler) (hasAmp : Bool) (arg : ScaleArg) : Except PyErr (List Tensor) :=
  if !s.enabled then .ok arg.tensors
  else match arg with
    | .tensor cuda t => (s.scaleTensor hasAmp cuda t).map (fun t => [t])
    | .iterable items => s.scaleItems hasAmp items
    | .other => .error .valueError

/-- `PyTorchGradScaler.unscale(tensors)`, thinc/shims/pytorch_grad_scaler.py:136-157: the scaler and
the tensors afterwards.  The value returned by the method is the new `foundInf` (or `False` when
disabled).  `torch._amp_foreach_non_finite_check_and_unscale_` multiplies by the inverse and
reports entries that are not finite. -/
noncomputable def Scaler.unscale (s : Scaler) (ts : List Tensor) : Scaler × List Tensor :=
  if !s.enabled then (s, ts)
  else ({ s with foundInf := s.foundInf || !(ts.all allFinite) }, ts.map (mulScalar s.scale⁻¹))

/-- What `unscale` returns, thinc/shims/pytorch_grad_scaler.py:139, 157. -/
def Scaler.unscaleResult (s' : Scaler) : Bool := s'.enabled && s'.foundInf

/-- `torch._amp_update_scale_`: with an overflow the scale shrinks and the count starts again;
otherwise the count goes up, and when it reaches the interval the scale grows. -/
noncomputable def Scaler.ampUpdate (s : Scaler) : Scaler :=
  if s.foundInf then { s with scale := s.scale * s.backoffFactor, growthTracker := 0 }
  else if s.growthTracker + 1 = s.growthInterval then { s with scale := s.scale * s.growthFactor, growthTracker := 0 }
  else { s with growthTracker := s.growthTracker + 1 }

/-- `PyTorchGradScaler.update()`, thinc/shims/pytorch_grad_scaler.py:159-181. -/
noncomputable def Scaler.update (s : Scaler) : Scaler :=
  if !s.enabled then s else { s.ampUpdate with foundInf := false }

/-- A parameter of the PyTorch module. -/
structure Param where
  name : Nat
  data : Tensor
  grad : Option Tensor

/-- The shim: its id, the parameters of its module in the order of `named_parameters()`, and the
scaler (thinc/shims/pytorch.py:48-91). -/
structure Shim where
  id : Nat
  params : List Param
  scaler : Scaler

/-- What a backward pass adds to a `.grad` (`none`: the tensor takes no part). -/
noncomputable def accumulate : Option Tensor → Option Tensor → Option Tensor
  | none, g => g
  | g, none => g
  | some a, some b => some (addTensor a b)

/-- `torch.autograd.backward`: for the gradients of the outputs, what is added to the gradient of
every parameter, and of every input. -/
abbrev Autograd := List Tensor → List (Option Tensor) × List (Option Tensor)

/-- Put new gradients into the parameters, in order. -/
def setGrads (params : List Param) (grads : List (Option Tensor)) : List Param :=
  List.zipWith (fun p g => { p with grad := g }) params grads

/-- Undo the scale of the gradients that are there. -/
noncomputable def unscaleGrads (s : Scaler) (gs : List (Option Tensor)) : List (Option Tensor) :=
  if !s.enabled then gs else gs.map (Option.map (mulScalar s.scale⁻¹))

/-- thinc/shims/pytorch.py:154-158: the gradient handed back for an input. -/
def inputGrads (foundInf : Bool) (gs : List (Option Tensor)) : List (Option Tensor) :=
  if foundInf then gs.map (Option.map zeroTensor) else gs

/-- The callback of `PyTorchShim.begin_update`, thinc/shims/pytorch.py:131-160.  The inputs are
fresh tensors, so their gradients start empty.  The scaled gradients overwrite the tensors of `dY`
(`inplace=True`); `backpropCaller` says what the caller of the callback is left with. -/
noncomputable def Shim.backprop (sh : Shim) (hasAmp : Bool) (auto : Autograd) (dY : ScaleArg) :
    Except PyErr (Shim × List (Option Tensor)) := do
  let scaled ← sh.scaler.scaleUp hasAmp dY
  let added := auto scaled
  let pgrads := List.zipWith accumulate (sh.params.map (·.grad)) added.1
  let gradTensors := (pgrads ++ added.2).filterMap (fun g => g)
  let scaler' := (sh.scaler.unscale gradTensors).1
  let params' := setGrads sh.params (unscaleGrads sh.scaler pgrads)
  let igrads := inputGrads scaler'.unscaleResult (unscaleGrads sh.scaler added.2)
  .ok (⟨sh.id, params', scaler'⟩, igrads)

/-- The caller's gradient array after `backprop`: on a GPU the tensor shares its memory with the
array (`from_dlpack`, thinc/util.py:399-407), so the in-place scaling of
thinc/shims/pytorch.py:138-140 is seen by the caller; otherwise it is a copy. -/
noncomputable def Shim.backpropCaller (sh : Shim) (shared : Bool) (dY : Tensor) : Tensor :=
  if sh.scaler.enabled && shared then mulScalar sh.scaler.scale dY else dY

/-- An optimizer call: the state of the optimizer, the key `(shim.id, name)`, parameter and
gradient; the new state and parameter. -/
abbrev OptStep (σ : Type) := σ → Nat × Nat → Tensor → Tensor → σ × Tensor

/-- One round of the loop of thinc/shims/pytorch.py:165-178. -/
def finishParam {σ : Type} (opt : OptStep σ) (id : Nat) (foundInf : Bool) (st : σ) (p : Param) : σ × Param :=
  match p.grad with
  | none => (st, p)
  | some g =>
    if foundInf then (st, ⟨p.name, p.data, some (zeroTensor g)⟩)
    else ((opt st (id, p.name) p.data g).1, ⟨p.name, (opt st (id, p.name) p.data g).2, some (zeroTensor g)⟩)

/-- The loop of thinc/shims/pytorch.py:165-178. -/
def finishParams {σ : Type} (opt : OptStep σ) (id : Nat) (foundInf : Bool) : σ → List Param → σ × List Param
  | st, [] => (st, [])
  | st, p :: ps =>
    let r := finishParam opt id foundInf st p
    let rest := finishParams opt id foundInf r.1 ps
    (rest.1, r.2 :: rest.2)

/-- `PyTorchShim.finish_update(optimizer)`, thinc/shims/pytorch.py:164-180. -/
noncomputable def Shim.finishUpdate {σ : Type} (sh : Shim) (opt : OptStep σ) (st : σ) : Shim × σ :=
  let r := finishParams opt sh.id sh.scaler.foundInf st sh.params
  (⟨sh.id, r.2, sh.scaler.update⟩, r.1)

end Thinc.Torch
