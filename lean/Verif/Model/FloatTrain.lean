import Verif.Model.FloatGrad
/-!
# A training step of a classifier in floating point

`chain(Relu, ..., Relu, Softmax)` is run in training, the gradient of the loss is computed from its output, and handed to the callback.
-/
namespace Thinc
namespace FloatLib
variable (L : FloatLib)

/-- A forward pass through `Relu` layers and the affine part of the last layer, with the outputs `Y`, followed by the backward pass for `dY`, which
returns `dX` and adds `gs` and `g` to the gradients: thinc/layers/chain.py:48-64, thinc/layers/relu.py:44-56, thinc/layers/softmax.py:63-94 (for
temperature one the callback of `Softmax` does what that of `Linear` does).  Unlike in `Scores` and `Backward`, both passes use the same outputs
of the hidden layers. -/
def TrainPass (cpu : Bool) : List FlDense → FlDense → Mat Fl → Mat Fl → Mat Fl → Mat Fl → List FlGrad → FlGrad → Prop
  | [], last, X, Y, dY, dX, [], g => L.Affine X last.W last.b Y ∧ dY.rows = Y.rows ∧ dY.cols = Y.cols ∧ L.LinearBack X last.W dY dX g.dW g.db
  | l :: ls, last, X, Y, dY, dX, g₀ :: gs, g => ∃ Z dZ, L.ReluForward cpu l X Z ∧ TrainPass cpu ls last Z Y dY dZ gs g ∧ L.ReluBack cpu l X Z dZ dX g₀
  | _, _, _, _, _, _, _, _ => False

/-- The one-hot encoding of a class, thinc/util.py:253-291 `to_categorical` without label smoothing. -/
def oneHotFl (label j : ℕ) : Fl := if j = label then .fin 1 else .fin 0

/-- thinc/loss.py:144-161 `CategoricalCrossentropy.get_grad` on one number of a batch with `N` rows, after the checks. -/
noncomputable def entropyGradFl (normalize : Bool) (N : ℕ) (missing : Bool) (p t : Fl) : Fl :=
  let d := L.mul (L.sub p t) (if missing then .fin 0 else .fin 1)
  if normalize then L.div d (.fin N) else d

/-- thinc/loss.py:144-161 `CategoricalCrossentropy.get_grad` for the classes `label` of the rows.  The rows with `missing` are those whose truth is
the missing value (thinc/loss.py:91-114, 411-429, the mask).  A class that is not a column of the guesses raises an `IndexError` on NumPy (CuPy does not check indices). -/
noncomputable def entropyFl (normalize : Bool) (label : ℕ → ℕ) (missing : ℕ → Bool) (P : Mat Fl) : Except PyErr (Mat Fl) :=
  open Classical in
  if ∃ i < P.rows, P.cols ≤ label i then .error .indexError
  else if ∃ i < P.rows, ∃ j < P.cols, (Fl.fin 1).lt (P.at i j) ∨ (P.at i j).lt (.fin 0) then .error .valueError
  else .ok ⟨P.rows, P.cols, fun k => L.entropyGradFl normalize P.rows (missing (k / P.cols)) (P.val k) (oneHotFl (label (k / P.cols)) (k % P.cols))⟩

/-- What a training step on the batch `X` with the classes `label` may add to the gradients:
`guesses, callback = model.begin_update(X); callback(loss.get_grad(guesses, truths))`.  `P` are the guesses. -/
def TrainGrad (cpu normalize : Bool) (label : ℕ → ℕ) (missing : ℕ → Bool) (ls : List FlDense) (last : FlDense) (X P dX : Mat Fl) (gs : List FlGrad)
    (g : FlGrad) : Prop :=
  ∃ Y dY, P.rows = Y.rows ∧ P.cols = Y.cols ∧ (∀ i < Y.rows, L.softmaxRow (.fin 1) (flRow Y i) = .ok (flRow P i)) ∧
    L.entropyFl normalize label missing P = .ok dY ∧ L.TrainPass cpu ls last X Y dY dX gs g

end FloatLib
end Thinc
