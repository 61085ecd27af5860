import Verif.Model.ArrMem
import Verif.Model.Session
/-!
# Calls of a user who holds arrays

`Verif.Model.Session` has values.  Here the user has arrays: they create arrays, pass them to the model, get arrays from it, and overwrite
arrays they hold, at any time between the calls.
-/
namespace Thinc.Shared
variable {A : Type}

/-- What a user does. -/
inductive MCall where
  /-- A new array, with whatever contents. -/
  | new (B : Mat ℝ)
  /-- `A[...] = B`, `A += ...` and so on, for an array or a view of it. -/
  | write (r : ArrRef) (B : Mat ℝ)
  /-- `model.predict(X)` -/
  | predict (X : RVal)
  /-- `Y, backprop = model.begin_update(X)` -/
  | beginUpdate (X : RVal)
  /-- `backprop(dY)` with the callback of the `begin_update` number `k` since the last update. -/
  | backprop (k : Nat) (dY : RVal)
  /-- `backprop(get_grad(Y))` with the output and the callback of the `begin_update` number `k` since the last update: the gradient is
  computed from what `Y` contains now, and is in new arrays. -/
  | backpropLoss (k : Nat) (getGrad : Val → Except PyErr Val)
  /-- `model.finish_update(optimizer)` and `optimizer.step_schedules()`; the user drops the callbacks. -/
  | finishUpdate

/-- What a `begin_update` was given and has returned.  `value`: what the output contained then. -/
structure Pass where
  input : RVal
  output : RVal
  value : Val
  callback : MCallback

/-- The addresses of the arrays of a value. -/
def RVal.addrs (v : RVal) : List Nat := v.refs.map ArrRef.addr

/-- The model and the optimizer, the memory, the arrays the user has got (created, or returned by a call), what the calls of `begin_update`
since the last update have returned or raised, and what each `predict` has returned (the contents at that time) or raised. -/
structure MSession (A : Type) where
  train : TrainState A
  mem : ArrMem
  mine : List Nat
  handed : List (Except PyErr Pass)
  predicted : List (Except PyErr Val)

/-- thinc/model.py:321-325 `predict`.  If the forward pass raises, the arrays it has created are garbage: the memory stays as it is. -/
def MSession.afterPredict (s : MSession A) : Except PyErr (RVal × MCallback × ArrMem) → MSession A
  | .ok (Y, _, m) => { s with mem := m, mine := s.mine ++ Y.addrs, predicted := s.predicted ++ [.ok (Y.read m)] }
  | .error e => { s with predicted := s.predicted ++ [.error e] }

/-- thinc/model.py:312-319 `begin_update` -/
def MSession.afterBegin (s : MSession A) (X : RVal) : Except PyErr (RVal × MCallback × ArrMem) → MSession A
  | .ok (Y, c, m) => { s with mem := m, mine := s.mine ++ Y.addrs, handed := s.handed ++ [.ok ⟨X, Y, Y.read m, c⟩] }
  | .error e => { s with handed := s.handed ++ [.error e] }

/-- The `begin_update` number `k`.  There is nothing if it has raised. -/
def MSession.pass (s : MSession A) (k : Nat) : Except PyErr Pass :=
  match s.handed[k]? with
  | some r => r
  | none => .error .indexError

/-- A call of a callback. -/
noncomputable def MSession.back (N : Nat) (slot : Slots) (s : MSession A) (k : Nat) (dY : RVal) : Except PyErr (MSession A) := do
  let p ← s.pass k
  let (dX, m, G) ← p.callback dY s.mem (readGrads s.train.nodes slot)
  return { s with train := ⟨writeGrads N slot G s.train.nodes, s.train.opt⟩, mem := m, mine := s.mine ++ dX.addrs }

/-- The user has got new arrays that contain `D`. -/
def MSession.got (s : MSession A) (D : Val) : MSession A :=
  { s with mem := (RVal.fresh s.mem D).2, mine := s.mine ++ (RVal.fresh s.mem D).1.addrs }

/-- The gradient of a loss, and a call of a callback with it. -/
noncomputable def MSession.backLoss (N : Nat) (slot : Slots) (s : MSession A) (k : Nat) (getGrad : Val → Except PyErr Val) :
    Except PyErr (MSession A) := do
  let p ← s.pass k
  let D ← getGrad (p.output.read s.mem)
  (s.got D).back N slot k (RVal.fresh s.mem D).1

/-- thinc/model.py:327-341 `finish_update`, thinc/optimizers.py:210-211 `step_schedules`: the parameters are overwritten. -/
noncomputable def MSession.finish (N : Nat) (slot : Slots) (cfg : OptCfg (Nat × String)) (root : Addr) (s : MSession A) :
    Except PyErr (MSession A) := do
  let t ← trainIteration noop N slot cfg root s.train []
  return { s with train := t, mem := { s.mem with params := readParams t.nodes slot }, handed := [] }

/-- One call. -/
noncomputable def MSession.call (M : MLayer) (N : Nat) (slot : Slots) (cfg : OptCfg (Nat × String)) (root : Addr) (s : MSession A) :
    MCall → Except PyErr (MSession A)
  | .new B => .ok { s with mem := (s.mem.alloc B).2, mine := s.mine ++ [(s.mem.alloc B).1] }
  | .write r B => .ok { s with mem := r.put s.mem B }
  | .predict X => .ok (s.afterPredict (M false X s.mem))
  | .beginUpdate X => .ok (s.afterBegin X (M true X s.mem))
  | .backprop k dY => s.back N slot k dY
  | .backpropLoss k getGrad => s.backLoss N slot k getGrad
  | .finishUpdate => s.finish N slot cfg root

/-- All calls, one after the other. -/
noncomputable def MSession.run (M : MLayer) (N : Nat) (slot : Slots) (cfg : OptCfg (Nat × String)) (root : Addr) (s : MSession A)
    (calls : List MCall) : Except PyErr (MSession A) :=
  calls.foldlM (MSession.call M N slot cfg root) s

end Thinc.Shared
