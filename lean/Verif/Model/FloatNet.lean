import Verif.Model.FloatGemm
/-!
# Feed-forward networks in floating point

Networks of `Relu` layers that end with `Linear` or `Softmax`, with the numbers of a floating-point format.  The matrix products are those of
`Verif.Model.FloatGemm`: the order of the additions is not fixed, and may differ between layers, rows and calls.
-/
namespace Thinc
namespace FloatLib
variable (L : FloatLib)

/-- thinc/backends/ops.py:899-904 `Ops.relu` (and thinc/backends/cupy_ops.py:142-147) on one number: `X * (X > 0)`. -/
noncomputable def opsReluFl (x : Fl) : Fl := L.mul x (open Classical in if (Fl.fin 0).lt x then .fin 1 else .fin 0)

/-- thinc/backends/cpu_kernels.hh:340-352 `cpu_relu` (thinc/backends/numpy_ops.pyx:128-140) on one number. -/
noncomputable def cpuReluFl (x : Fl) : Fl := open Classical in if x.le (.fin 0) then .fin 0 else x

/-- The `relu` of the backend. -/
noncomputable def reluFl (cpu : Bool) (x : Fl) : Fl := if cpu then cpuReluFl x else L.opsReluFl x

end FloatLib

/-- The parameters `W` and `b` of a layer. -/
structure FlDense where
  W : Mat Fl
  b : ℕ → Fl

namespace FloatLib
variable (L : FloatLib)

/-- `Y` may be what thinc/layers/relu.py:44-48 `forward` returns. -/
def ReluForward (cpu : Bool) (l : FlDense) (X Y : Mat Fl) : Prop :=
  ∃ Z, L.Affine X l.W l.b Z ∧ Y.rows = Z.rows ∧ Y.cols = Z.cols ∧ ∀ i < Y.rows, ∀ j < Y.cols, Y.at i j = L.reluFl cpu (Z.at i j)

/-- `Y` may be the output of the `Relu` layers in a chain: thinc/layers/chain.py:48-56. -/
def ReluChain (cpu : Bool) : List FlDense → Mat Fl → Mat Fl → Prop
  | [], X, Y => Y = X
  | l :: ls, X, Y => ∃ Z, L.ReluForward cpu l X Z ∧ ReluChain cpu ls Z Y

/-- `Y` may be what `chain(Relu, ..., Relu, Linear)` predicts: thinc/layers/chain.py:48-56, thinc/layers/linear.py:35-39.  These are also the
numbers to which `Softmax` applies the softmax: thinc/layers/softmax.py:69-71. -/
def Scores (cpu : Bool) (ls : List FlDense) (last : FlDense) (X Y : Mat Fl) : Prop :=
  ∃ Z, L.ReluChain cpu ls X Z ∧ L.Affine Z last.W last.b Y

/-- The row of a matrix. -/
def flRow (Y : Mat Fl) (i : ℕ) : List Fl := (List.range Y.cols).map (Y.at i)

/-- `P` may be the rows that `chain(Relu, ..., Relu, Softmax)` predicts (temperature one): thinc/layers/chain.py:48-56,
thinc/layers/softmax.py:63-74. -/
def Probabilities (cpu : Bool) (ls : List FlDense) (last : FlDense) (X : Mat Fl) (P : ℕ → Except PyErr (List Fl)) : Prop :=
  ∃ Y, L.Scores cpu ls last X Y ∧ Y.rows = X.rows ∧ ∀ i < Y.rows, P i = L.softmaxRow (.fin 1) (flRow Y i)

end FloatLib
end Thinc
