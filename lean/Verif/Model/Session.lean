import Verif.Model.Train
/-!
# Calls of a user in any order

`Verif.Model.Train` goes through the batches one after the other, each with its forward and its backward pass.  A user may also
predict in between, run several forward passes before the first backward pass, call the callbacks in another order, more than
once, or not at all.
-/
namespace Thinc
variable {A : Type}

/-- What a user does with a model. -/
inductive Call where
  /-- `model.predict(X)` -/
  | predict (X : Val)
  /-- `Y, backprop = model.begin_update(X)` -/
  | beginUpdate (X : Val)
  /-- `backprop(get_grad(Y))` with the output and the callback of the `begin_update` number `k` since the last update. -/
  | backprop (k : Nat) (getGrad : Val → Except PyErr Val)
  /-- `model.finish_update(optimizer)` and `optimizer.step_schedules()`; the user drops the callbacks. -/
  | finishUpdate

/-- What there is: the model and the optimizer, what the calls of `begin_update` since the last update have returned (or raised),
and what all calls of `predict` have returned (or raised). -/
structure Session (A : Type) where
  train : TrainState A
  handed : List (Except PyErr (Val × Callback))
  predicted : List (Except PyErr Val)

/-- The callback number `k`, thinc/model.py:321-328 `begin_update`.  There is none if `begin_update` has raised. -/
def Session.callback (s : Session A) (k : Nat) : Except PyErr (Val × Callback) :=
  match s.handed[k]? with
  | some r => r
  | none => .error .indexError

/-- A call of a callback. -/
noncomputable def Session.back (N : Nat) (slot : Slots) (s : Session A) (k : Nat) (getGrad : Val → Except PyErr Val) :
    Except PyErr (Session A) := do
  let (Y, callback) ← s.callback k
  let D ← getGrad Y
  let (_, G) ← callback D (readGrads s.train.nodes slot)
  return { s with train := ⟨writeGrads N slot G s.train.nodes, s.train.opt⟩ }

/-- thinc/model.py:336-350 `finish_update`, thinc/optimizers.py:210-211 `step_schedules`.  (An iteration without batches, see
`trainIteration`.) -/
noncomputable def Session.finish (L : Layer) (N : Nat) (slot : Slots) (cfg : OptCfg (Nat × String)) (root : Addr) (s : Session A) :
    Except PyErr (Session A) := do
  let t ← trainIteration L N slot cfg root s.train []
  return ⟨t, [], s.predicted⟩

/-- One call: thinc/model.py:321-350 `begin_update`, `predict` and `finish_update`.  An exception of `predict` or `begin_update` is
kept as what the call has given. -/
noncomputable def Session.call (L : Layer) (N : Nat) (slot : Slots) (cfg : OptCfg (Nat × String)) (root : Addr) (s : Session A) :
    Call → Except PyErr (Session A)
  | .predict X => .ok { s with predicted := s.predicted ++ [(L false (readParams s.train.nodes slot) X).map Prod.fst] }
  | .beginUpdate X => .ok { s with handed := s.handed ++ [L true (readParams s.train.nodes slot) X] }
  | .backprop k getGrad => s.back N slot k getGrad
  | .finishUpdate => s.finish L N slot cfg root

/-- All calls, one after the other. -/
noncomputable def Session.run (L : Layer) (N : Nat) (slot : Slots) (cfg : OptCfg (Nat × String)) (root : Addr) (s : Session A)
    (calls : List Call) : Except PyErr (Session A) :=
  calls.foldlM (Session.call L N slot cfg root) s

end Thinc
