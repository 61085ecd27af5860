import Verif.Model.Random
import Mathlib.Logic.Function.Basic
/-!
# Threads that share a model

Several threads call one model.  They share its parameters and gradients (thinc/backends/_param_server.py:12-41) and the training flag of the
modules it wraps.  A thread is a program of accesses to these; every access is one step, and the scheduler may switch between threads after
every step.  (Arrays are values here: `+=` on an array is one step, and so is the call of a wrapped module.)
-/
namespace Thinc.Conc
open Random

/-- What threads share: `ParamServer._params`, `ParamServer._grads` and the flag `training` of every wrapped module. -/
structure Shared (K V : Type) where
  params : K → V
  grads : K → Option V
  training : Nat → Bool

/-- What a thread still has to do; `R` is what it returns. -/
inductive Code (K V R : Type) where
  | ret (r : R)
  /-- `self._params[key]` -/
  | get (k : K) (next : V → Code K V R)
  /-- `self._params[key] = value` -/
  | setParam (k : K) (v : V) (next : Code K V R)
  /-- `key in self._grads` -/
  | hasGrad (k : K) (next : Bool → Code K V R)
  /-- `self._grads[key] = value.copy()` -/
  | putGrad (k : K) (v : V) (next : Code K V R)
  /-- `self._grads[key] += value`; `next false` if there is no such key -/
  | addGrad (k : K) (v : V) (next : Bool → Code K V R)
  /-- `module.train(b)` or `module.eval()` -/
  | setMode (m : Nat) (b : Bool) (next : Code K V R)
  /-- `module(...)`: the module does what its training flag says -/
  | callModule (m : Nat) (next : Bool → Code K V R)

variable {K V R : Type} [DecidableEq K]

/-- One step of a thread. -/
def Code.step (add : V → V → V) : Code K V R → Shared K V → Code K V R × Shared K V
  | .ret r, s => (.ret r, s)
  | .get k next, s => (next (s.params k), s)
  | .setParam k v next, s => (next, { s with params := Function.update s.params k v })
  | .hasGrad k next, s => (next (s.grads k).isSome, s)
  | .putGrad k v next, s => (next, { s with grads := Function.update s.grads k (some v) })
  | .addGrad k v next, s =>
    match s.grads k with
    | none => (next false, s)
    | some g => (next true, { s with grads := Function.update s.grads k (some (add g v)) })
  | .setMode m b next, s => (next, { s with training := Function.update s.training m b })
  | .callModule m next, s => (next (s.training m), s)

/-- Threads and what they share. -/
structure Conf (K V R : Type) where
  shared : Shared K V
  threads : List (Code K V R)

/-- The scheduler lets thread `i` make a step. -/
def Conf.step (add : V → V → V) (c : Conf K V R) (i : Nat) : Conf K V R :=
  match c.threads[i]? with
  | none => c
  | some t => ⟨(t.step add c.shared).2, c.threads.set i (t.step add c.shared).1⟩

/-- A schedule says which thread goes next. -/
def Conf.run (add : V → V → V) (c : Conf K V R) (schedule : List Nat) : Conf K V R := schedule.foldl (Conf.step add) c

/-! ### Gradients -/

/-- thinc/backends/_param_server.py:65-79 `ParamServer.inc_grad` without proxy; `err` follows a KeyError in line 79. -/
def incC (k : K) (v : V) (err next : Code K V R) : Code K V R :=
  .hasGrad k fun b => if b then .addGrad k v fun ok => if ok then next else err else .putGrad k v next

/-! ### Layers -/

/-- What follows the call of a layer. -/
abbrev After (R : Type) := Except PyErr (Val × Callback) → Code Nat (Mat ℝ) R

/-- A layer as a part of a thread: the accesses of its forward function, then the rest. -/
abbrev CLayer (R : Type) := Bool → Val → After R → Code Nat (Mat ℝ) R

/-- `model.get_param` for one parameter after the other (thinc/model.py:204-212). -/
def readAll : List Nat → ParamVals → (ParamVals → Code Nat (Mat ℝ) R) → Code Nat (Mat ℝ) R
  | [], P, next => next P
  | k :: ks, P, next => .get k fun v => readAll ks (Function.update P k v) next

/-- A layer with these parameters: it reads them and computes (as thinc/layers/linear.py:35-36 `forward` does). -/
def leafC (keys : List Nat) (layer : Layer) : CLayer R := fun train X next =>
  readAll keys (fun _ => Mat.zeros 0 0) fun P => next (layer train P X)

/-- thinc/shims/pytorch.py:116-117, the end of `predict`; not reached if the module raises. -/
def finishPredict (m : Nat) (next : After R) : Except PyErr (Val × Callback) → Code Nat (Mat ℝ) R
  | .error e => next (.error e)
  | .ok r => .setMode m true (next (.ok r))

/-- thinc/shims/pytorch.py:93-97 `__call__`, 107-117 `predict` and 119-130 `begin_update`: a wrapped module, that computes `M b X` if its
training flag is `b`. -/
def torchC (m : Nat) (M : Bool → Val → Except PyErr (Val × Callback)) : CLayer R := fun train X next =>
  if train then .setMode m true (.callModule m fun b => next (M b X))
  else .setMode m false (.callModule m fun b => finishPredict m next (M b X))

/-- An exception is passed on; else the thread goes on with `f`. -/
def orRaise (next : After R) (f : Val × Callback → Code Nat (Mat ℝ) R) : After R
  | .ok r => f r
  | .error e => next (.error e)

/-- What a combinator does, in a thread. -/
def treeC (call : Nat → Val → After R → Code Nat (Mat ℝ) R) : CallTree → After R → Code Nat (Mat ℝ) R
  | .done r, next => next r
  | .call i x rest, next => call i x (orRaise next fun r => treeC call (rest r) next)

/-- `model.layers[i](x, is_train)` in a thread. -/
def callLayerC (layers : List (CLayer R)) (train : Bool) (i : Nat) (x : Val) (next : After R) : Code Nat (Mat ℝ) R :=
  match layers[i]? with
  | some layer => layer train x next
  | none => next (.error .indexError)

/-- A combinator that passes the training flag on to its layers. -/
def combineC (tree : Nat → Val → CallTree) (layers : List (CLayer R)) : CLayer R := fun train X next =>
  treeC (callLayerC layers train) (tree layers.length X) next

end Thinc.Conc
