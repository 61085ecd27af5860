import Verif.Model.Session
import Verif.Spec.Sgd
/-!
# C121: what a sequence of calls amounts to
-/
namespace Thinc.Spec

/-- Every callback that is called comes from a `begin_update` since the last update.  (`n`: how many there have been.) -/
def Fresh : ℕ → List Call → Prop
  | _, [] => True
  | n, .predict _ :: cs => Fresh n cs
  | n, .beginUpdate _ :: cs => Fresh (n + 1) cs
  | n, .backprop k _ :: cs => k < n ∧ Fresh n cs
  | _, .finishUpdate :: cs => Fresh 0 cs

/-- The batches (input, and gradient of the loss at the output) whose callbacks are called, in the order of these calls: those of each
finished iteration, and those after the last update.  `begun` are the inputs of the forward passes since the last update, `acc` the
batches of the iteration so far. -/
def work (begun : List Val) (acc : List (Val × (Val → Except PyErr Val))) :
    List Call → List (List (Val × (Val → Except PyErr Val))) × List (Val × (Val → Except PyErr Val))
  | [] => ([], acc)
  | .predict _ :: cs => work begun acc cs
  | .beginUpdate X :: cs => work (begun ++ [X]) acc cs
  | .backprop k getGrad :: cs => work begun (acc ++ (begun[k]?.map fun X => (X, getGrad)).toList) cs
  | .finishUpdate :: cs => (acc :: (work [] [] cs).1, (work [] [] cs).2)

/-- The calls of `predict`. -/
def questions : List Call → List Val
  | [] => []
  | .predict X :: cs => X :: questions cs
  | _ :: cs => questions cs

/-- What is done in the iterations, given by batches that have a loss; nothing is left over. -/
def WorksOn {N : ℕ} {sh : Fin N → ℕ × ℕ} (calls : List Call) (its : List (List (Batch sh))) : Prop :=
  Fresh 0 calls ∧ work [] [] calls = (its.map fun bs => bs.map fun b => (b.input, b.lossGrad), [])

end Thinc.Spec
