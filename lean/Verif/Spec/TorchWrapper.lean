import Verif.Model.TorchWrapper
import Verif.Spec.Recursive
/-!
# What a user expects of a wrapped PyTorch model

Specification vocabulary for C97.  Places in nested objects are the paths of `Spec/Recursive.lean`.
-/
namespace Thinc.Spec
open Thinc.Torch

/-- `o'` is `o` with every outermost matching object replaced: at each such place the new object is related to the old one
by `R`; everything else keeps its type, length, keys and place. -/
def Replaced (isMatch : Obj → Bool) (R : List ℕ → Obj → Obj → Prop) (o o' : Obj) : Prop :=
  (∀ p, Outermost isMatch o p → ∃ x x', objAt o p = some x ∧ objAt o' p = some x' ∧ R p x x') ∧
  ∀ p, (∀ q, q <+: p → ¬ Outermost isMatch o q) → (objAt o' p).map shell = (objAt o p).map shell

/-- An input without tensors, in which the keys of dicts are different, hashable and without arrays; keyword arguments
have names. -/
structure PlainInput (X : Obj) : Prop where
  arrays : KeysFine isXp X
  tensors : KeysFine isTorch X
  none : ∀ s, Occurs s X → isTorch s = false
  names : ∀ kvs, X = .dict kvs → ∀ k ∈ kvs.map Prod.fst, ∃ s, k = .str s

/-- How a module is called with an input: `ArgsKwargs` are spread, a dict gives keyword arguments, a tuple or list gives
positional arguments, and anything else is the only argument. -/
inductive CalledWith : Obj → List Obj → List (Obj × Obj) → Prop
  | argsKwargs (args : List Obj) (kwargs : List (Obj × Obj)) : CalledWith (.argsKwargs args kwargs) args kwargs
  | dict (kvs : List (Obj × Obj)) : CalledWith (.dict kvs) [] kvs
  | tup (xs : List Obj) : CalledWith (.tup xs) xs []
  | list (xs : List Obj) : CalledWith (.list xs) xs []
  | single (id : ℕ) (h : Bool) : CalledWith (.other id h) [.other id h] []
  | int (n : Int) : CalledWith (.int n) [.int n] []
  | str (s : String) : CalledWith (.str s) [.str s] []

/-- All arrays in `X` have float entries. -/
def FloatsOnly (s : Store) (X : Obj) : Prop := ∀ p id h, objAt X p = some (.other id h) → id % 4 = 0 → s.floats id = true

/-- `x` is an array, and `t` a tensor with its contents, which asks for gradients or not and has none yet. -/
def TensorOf (s s' : Store) (requiresGrad : Bool) (x t : Obj) : Prop :=
  ∃ a h k, x = .other a h ∧ a % 4 = 0 ∧ t = .other (4 * k + 1) true ∧ s.next ≤ k ∧ k < s'.next ∧
    s'.data (4 * k + 1) = s.data a ∧ s'.requiresGrad (4 * k + 1) = requiresGrad ∧ s'.hasGrad (4 * k + 1) = false

/-- `y` is a new array with the contents of the tensor `t`. -/
def ArrayOf (s s' : Store) (t y : Obj) : Prop :=
  ∃ id h k, t = .other id h ∧ isTorch t = true ∧ y = .other (4 * k) false ∧ s.next ≤ k ∧ k < s'.next ∧
    s'.data (4 * k) = s.data id

/-- `dx` is a new array with the entries of the gradient of tensor `t` in the store `s`, or `None` if there is no gradient. -/
def GradientOf (s s' : Store) (t dx : Obj) : Prop :=
  ∃ k, t = .other (4 * k + 1) true ∧
    (s.hasGrad (4 * k + 1) = true → ∃ j, dx = .other (4 * j) false ∧ s'.data (4 * j) = s.data (4 * k + 2)) ∧
    (s.hasGrad (4 * k + 1) = false → dx = pyNone)

/-- Objects that existed before are as they were. -/
def SameBefore (s s' : Store) : Prop :=
  s.next ≤ s'.next ∧ ∀ id < 4 * s.next, s'.data id = s.data id ∧ s'.requiresGrad id = s.requiresGrad id ∧
    s'.hasGrad id = s.hasGrad id

/-- What the callback of a wrapped model with a single output `Yt` does for an array `dY`: autograd is run once, for `Yt`
and a tensor with the contents of `dY`; the result is the input with every array replaced by its gradient. -/
def BackpropWorks (M : Module) (X Xt Yt : Obj) (back : Obj → Run Obj) : Prop :=
  ∀ (dY : Obj) (s : Store), isXp dY = true →
    ∃ g s', TensorOf s s' false dY g ∧ SameBefore s s' ∧
      (∀ e, M.backward [Yt] [g] s' = .error e → back dY s = .error e) ∧
      ∀ s1, M.backward [Yt] [g] s' = .ok ((), s1) →
        ∃ dX s2, back dY s = .ok (dX, s2) ∧ SameBefore s1 s2 ∧
          Replaced isXp (fun p _ dx => ∃ t, objAt Xt p = some t ∧ GradientOf s1 s2 t dx) X dX

end Thinc.Spec
