import Verif.Model.MemSession
/-!
# C123: what a user who holds arrays may do, and what it amounts to
-/
namespace Thinc.Spec.Shared
open Thinc.Shared
variable {A : Type}

/-- What the user may do: use the arrays they have got, compute the gradient of a loss from an output that has not been overwritten, and
overwrite the arrays they have got, except
 * arrays that are inputs of forward passes since the last update, and
 * arrays of the outputs of these passes, unless (with `ownOut`) it is the array that the output is or has as its `data`. -/
def Allowed (ownOut : Bool) (s : MSession A) : MCall → Prop
  | .new _ => True
  | .write r _ => r.addr ∈ s.mine ∧ ∀ p : Pass, .ok p ∈ s.handed →
      r.addr ∉ p.input.addrs ∧ (r.addr ∈ p.output.addrs → ownOut = true ∧ r.addr ∈ p.output.top.map ArrRef.addr)
  | .predict X => ∀ a ∈ X.addrs, a ∈ s.mine
  | .beginUpdate X => ∀ a ∈ X.addrs, a ∈ s.mine
  | .backprop _ dY => ∀ a ∈ dY.addrs, a ∈ s.mine
  | .backpropLoss k _ => ∀ p, s.handed[k]? = some (.ok p) → p.output.read s.mem = p.value
  | .finishUpdate => True

/-- All calls are allowed when they are made. -/
def Careful (ownOut : Bool) (M : MLayer) (N : Nat) (slot : Slots) (cfg : OptCfg (Nat × String)) (root : Addr) : MSession A → List MCall → Prop
  | _, [] => True
  | s, c :: cs => Allowed ownOut s c ∧ ∀ s', s.call M N slot cfg root c = .ok s' → Careful ownOut M N slot cfg root s' cs

/-- A call on values: the arguments are what the arrays contain when the call is made. -/
def callOn (m : ArrMem) : MCall → List Call
  | .new _ => []
  | .write _ _ => []
  | .predict X => [.predict (X.read m)]
  | .beginUpdate X => [.beginUpdate (X.read m)]
  | .backprop k dY => [.backprop k fun _ => .ok (dY.read m)]
  | .backpropLoss k getGrad => [.backprop k getGrad]
  | .finishUpdate => [.finishUpdate]

/-- All calls on values. -/
noncomputable def callsOn (M : MLayer) (N : Nat) (slot : Slots) (cfg : OptCfg (Nat × String)) (root : Addr) : MSession A → List MCall → List Call
  | _, [] => []
  | s, c :: cs => callOn s.mem c ++ (s.call M N slot cfg root c).toOption.toList.flatMap fun s' => callsOn M N slot cfg root s' cs

/-- What can be seen of a session on values: the model and the optimizer, the outputs, the predictions. -/
def seen (v : Session A) : TrainState A × List (Except PyErr Val) × List (Except PyErr Val) :=
  (v.train, v.handed.map fun r => r.map Prod.fst, v.predicted)

/-- The same of a session on arrays. -/
def seenOn (s : MSession A) : TrainState A × List (Except PyErr Val) × List (Except PyErr Val) :=
  (s.train, s.handed.map fun r => r.map Pass.value, s.predicted)

end Thinc.Spec.Shared
