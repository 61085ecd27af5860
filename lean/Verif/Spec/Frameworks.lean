import Verif.Model.Frameworks
import Verif.Spec.TorchWrapper
/-!
# What a user expects of wrapped TensorFlow and MXNet models

Specification vocabulary for C135, in addition to that of C97 (`Spec/TorchWrapper.lean`).
-/
namespace Thinc.Spec
open Thinc.Torch Thinc.Frameworks

/-- A call of a Keras model; in training the tape watches the positional arguments. -/
def kerasCall (K : Keras) (train : Bool) (args : List Obj) (kwargs : List (Obj × Obj)) : Run Obj := fun s =>
  if train then
    match K.watch args s with
    | .error e => .error e
    | .ok (_, s') => K.call true (.argsKwargs args kwargs) s'
  else K.call false (.argsKwargs args kwargs) s

/-- What the callback of a wrapped Keras model does for an array `dY`, if the input tensor is `t` and the output `Yt`: the
gradients of `t` and of the variables are computed once, from a tensor with the contents of `dY`; those of the variables are
accumulated, and that of `t` is returned as an array (`None` if it is `None`), in the form that `form` gives it. -/
def TapeWorks (K : Keras) (t Yt : Obj) (form : Obj → Obj) (back : Obj → Run Obj) : Prop :=
  ∀ (dY : Obj) (s : Store), isXp dY = true →
    ∃ g s', TensorOf s s' false dY g ∧ SameBefore s s' ∧
      (∀ e, K.gradient Yt (t :: K.vars) g s' = .error e → back dY s = .error e) ∧
      ∀ d ds s1, K.gradient Yt (t :: K.vars) g s' = .ok (d :: ds, s1) → isTorch d = true ∨ d = pyNone →
        (∀ e, K.accumulate ds s1 = .error e → back dY s = .error e) ∧
        ∀ s2, K.accumulate ds s1 = .ok ((), s2) →
          ∃ dx s3, back dY s = .ok (form dx, s3) ∧ SameBefore s2 s3 ∧
            (isTorch d = true → ArrayOf s2 s3 d dx) ∧ (d = pyNone → dx = pyNone)

end Thinc.Spec
