import Verif.Model.FloatNet
/-!
# Networks of Relu and Maxout layers in floating point

As `Verif.Model.FloatNet`, with `Maxout` among the hidden layers.  Not modelled here: the options `normalize` and `dropout`.
-/
namespace Thinc

/-- Which implementation of the operations runs: the kernels of `NumpyOps`, the base class `Ops`, or the kernels of `CupyOps`. -/
inductive FlBackend where
  | cpu
  | ops
  | gpu

/-- Only `NumpyOps` has its own kernel for `relu`: thinc/backends/numpy_ops.pyx:128-140, thinc/backends/cupy_ops.py:142-147. -/
def FlBackend.isCpu : FlBackend → Bool
  | .cpu => true
  | .ops => false
  | .gpu => false

/-- thinc/backends/cpu_kernels.hh:36-54 `argmax` over an array, with `r` the best so far, and the loop of the kernel
thinc/backends/_custom_kernels.cu:143-166 `maxout`.  Only the value, not the index. -/
noncomputable def loopMaxFl : Fl → List Fl → Fl
  | r, [] => r
  | r, a :: as => open Classical in loopMaxFl (if r.lt a then a else r) as

/-- thinc/backends/cpu_kernels.hh:56-79 `argmax` of its arguments: the last arguments first.  Only the value, not the index. -/
noncomputable def argsMaxFl : Fl → List Fl → Fl
  | a, [] => a
  | a, b :: bs => open Classical in if a.lt (argsMaxFl b bs) then argsMaxFl b bs else a

/-- thinc/backends/cpu_kernels.hh:93-122 `cpu_maxout` for the candidates `a :: as` of one output. -/
noncomputable def cpuMaxoutFl (a : Fl) (as : List Fl) : Fl :=
  if as.length + 1 = 2 then argsMaxFl a as else if as.length + 1 = 3 then argsMaxFl a as else loopMaxFl a as

/-- thinc/backends/ops.py:888-890 `Ops.maxout` for the candidates of one output: `X.max(axis=-1)`. -/
noncomputable def opsMaxoutFl (a : Fl) (as : List Fl) : Fl := as.foldl Fl.max a

/-- The `maxout` of the backend: thinc/backends/numpy_ops.pyx:189-206, thinc/backends/ops.py:888-890, thinc/backends/cupy_ops.py:130-134. -/
noncomputable def maxoutFl : FlBackend → Fl → List Fl → Fl
  | .cpu => cpuMaxoutFl
  | .ops => opsMaxoutFl
  | .gpu => loopMaxFl

/-- A hidden layer, with its parameters: `Relu`, or `Maxout` with `nO` outputs and `n + 1` pieces, whose `W` is stored as `nO * (n + 1)` rows and
whose `b` as `nO * (n + 1)` numbers. -/
inductive FlHidden where
  | relu (d : FlDense)
  | maxout (nO n : ℕ) (d : FlDense)

namespace FloatLib
variable (L : FloatLib)

/-- `Y` may be what thinc/layers/maxout.py:45-55 `forward` returns. -/
def MaxoutForward (backend : FlBackend) (nO n : ℕ) (d : FlDense) (X Y : Mat Fl) : Prop :=
  ∃ Z, L.Affine X d.W d.b Z ∧ Z.cols = nO * (n + 1) ∧ Y.rows = Z.rows ∧ Y.cols = nO ∧ ∀ i < Y.rows, ∀ j < Y.cols,
    Y.at i j = maxoutFl backend (Z.at i (j * (n + 1))) ((List.range n).map fun p => Z.at i (j * (n + 1) + (p + 1)))

/-- `Y` may be the output of the hidden layer: thinc/layers/relu.py:44-48, thinc/layers/maxout.py:45-55. -/
def HiddenForward (backend : FlBackend) : FlHidden → Mat Fl → Mat Fl → Prop
  | .relu d => L.ReluForward backend.isCpu d
  | .maxout nO n d => L.MaxoutForward backend nO n d

/-- `Y` may be the output of the hidden layers in a chain: thinc/layers/chain.py:48-56. -/
def HiddenChain (backend : FlBackend) : List FlHidden → Mat Fl → Mat Fl → Prop
  | [], X, Y => Y = X
  | h :: hs, X, Y => ∃ Z, L.HiddenForward backend h X Z ∧ HiddenChain backend hs Z Y

/-- `Y` may be what `chain(hidden, ..., hidden, Linear)` predicts: thinc/layers/chain.py:48-56, thinc/layers/linear.py:35-39.  These are also the
numbers to which `Softmax` applies the softmax: thinc/layers/softmax.py:69-71. -/
def MixedScores (backend : FlBackend) (hs : List FlHidden) (last : FlDense) (X Y : Mat Fl) : Prop :=
  ∃ Z, L.HiddenChain backend hs X Z ∧ L.Affine Z last.W last.b Y

/-- `P` may be the rows that `chain(hidden, ..., hidden, Softmax)` predicts (temperature one): thinc/layers/chain.py:48-56,
thinc/layers/softmax.py:63-74. -/
def MixedProbabilities (backend : FlBackend) (hs : List FlHidden) (last : FlDense) (X : Mat Fl) (P : ℕ → Except PyErr (List Fl)) : Prop :=
  ∃ Y, L.MixedScores backend hs last X Y ∧ Y.rows = X.rows ∧ ∀ i < Y.rows, P i = L.softmaxRow (.fin 1) (flRow Y i)

end FloatLib
end Thinc
