import Verif.Model.MemSession
/-!
# The training loop, with arrays

The loop of `Verif.Model.Train` as a program that creates, passes on and overwrites arrays.
-/
namespace Thinc.Shared
variable {A : Type}

/-- `X = ...`, `Y, backprop = model.begin_update(X)`, `backprop(get_grad(Y))`: thinc/model.py:312-319.  The input is in new arrays. -/
noncomputable def MSession.batch (M : MLayer) (N : Nat) (slot : Slots) (s : MSession A) (batch : Val × (Val → Except PyErr Val)) :
    Except PyErr (MSession A) :=
  let X := (RVal.fresh s.mem batch.1).1
  let s := s.got batch.1
  (s.afterBegin X (M true X s.mem)).backLoss N slot s.handed.length batch.2

/-- The batches of an iteration, then thinc/model.py:327-341 `finish_update` and thinc/optimizers.py:210-211 `step_schedules`. -/
noncomputable def MSession.iteration (M : MLayer) (N : Nat) (slot : Slots) (cfg : OptCfg (Nat × String)) (root : Addr) (s : MSession A)
    (batches : List (Val × (Val → Except PyErr Val))) : Except PyErr (MSession A) := do
  let s ← batches.foldlM (MSession.batch M N slot) s
  s.finish N slot cfg root

/-- Several iterations. -/
noncomputable def MSession.loop (M : MLayer) (N : Nat) (slot : Slots) (cfg : OptCfg (Nat × String)) (root : Addr) (s : MSession A)
    (iterations : List (List (Val × (Val → Except PyErr Val)))) : Except PyErr (MSession A) :=
  iterations.foldlM (MSession.iteration M N slot cfg root) s

end Thinc.Shared
