import Verif.Model.FloatNet
/-!
# Gradients of feed-forward networks in floating point

The backward pass of the networks of `Verif.Model.FloatNet`.  As there, the order of the additions in the matrix products is not fixed.
-/
namespace Thinc

/-- What one backward pass adds to the gradients of `W` and `b` of a layer. -/
structure FlGrad where
  dW : Mat Fl
  db : ℕ → Fl

namespace FloatLib
variable (L : FloatLib)

/-- thinc/backends/ops.py:906-912 `Ops.backprop_relu` (and thinc/backends/cupy_ops.py:149-153) on one number: `dY * (Y > 0)`. -/
noncomputable def opsBackpropReluFl (dy y : Fl) : Fl := L.mul dy (open Classical in if (Fl.fin 0).lt y then .fin 1 else .fin 0)

/-- thinc/backends/numpy_ops.pyx:142-157 `NumpyOps.backprop_relu` on one number. -/
noncomputable def cpuBackpropReluFl (dy y : Fl) : Fl := open Classical in if y.le (.fin 0) then .fin 0 else dy

/-- The `backprop_relu` of the backend. -/
noncomputable def backpropReluFl (cpu : Bool) (dy y : Fl) : Fl := if cpu then cpuBackpropReluFl dy y else L.opsBackpropReluFl dy y

/-- The callback of thinc/layers/relu.py:50-54 may return `dX` for `dY` and add `g` to the gradients; `X` and `Y` are the input and output of the
forward pass. -/
def ReluBack (cpu : Bool) (l : FlDense) (X Y dY dX : Mat Fl) (g : FlGrad) : Prop :=
  dY.rows = Y.rows ∧ dY.cols = Y.cols ∧ ∃ dZ : Mat Fl, dZ.rows = dY.rows ∧ dZ.cols = dY.cols ∧
    (∀ i < dZ.rows, ∀ j < dZ.cols, dZ.at i j = L.backpropReluFl cpu (dY.at i j) (Y.at i j)) ∧ L.LinearBack X l.W dZ dX g.dW g.db

/-- `model.begin_update(X)` of `chain(Relu, ..., Relu, Linear)`, followed by the call `callback(dY)`, may return `dX` and add `gs` and `g` to the
gradients of the hidden layers and of the last layer: thinc/layers/chain.py:48-64, thinc/layers/relu.py:44-56, thinc/layers/linear.py:35-46. -/
def Backward (cpu : Bool) : List FlDense → FlDense → Mat Fl → Mat Fl → Mat Fl → List FlGrad → FlGrad → Prop
  | [], last, X, dY, dX, [], g => dY.rows = X.rows ∧ X.cols = last.W.cols ∧ L.LinearBack X last.W dY dX g.dW g.db
  | l :: ls, last, X, dY, dX, g₀ :: gs, g => ∃ Y dY', L.ReluForward cpu l X Y ∧ Backward cpu ls last Y dY dY' gs g ∧ L.ReluBack cpu l X Y dY' dX g₀
  | _, _, _, _, _, _, _ => False

end FloatLib
end Thinc
