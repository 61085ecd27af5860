import Verif.Spec.Training
import Verif.Spec.Graph
import Verif.Model.Train
import Mathlib.Analysis.Calculus.Deriv.Basic
import Mathlib.Analysis.SpecialFunctions.Pow.NNReal
/-!
# Stochastic gradient descent
-/
namespace Thinc.Spec
open BigOperators

variable {N : ℕ} {sh : Fin N → ℕ × ℕ}

/-- The parameters with one entry replaced. -/
def setEntry (θ : Params sh) (p : Fin N) (i : Fin (sh p).1) (j : Fin (sh p).2) (t : ℝ) : Params sh :=
  Function.update θ p (Function.update (θ p) i (Function.update (θ p i) j t))

/-- The gradient: the derivative with respect to every entry of every parameter. -/
noncomputable def gradient (loss : Params sh → ℝ) (θ : Params sh) : Params sh := fun p i j =>
  deriv (fun t => loss (setEntry θ p i j t)) (θ p i j)

/-- The euclidean norm of the entries of an array. -/
noncomputable def entryNorm {n m : ℕ} (d : Fin n → Fin m → ℝ) : ℝ := Real.sqrt (∑ i, ∑ j, d i j ^ 2)

/-- The array, scaled down to norm `c` if its norm is larger.  No clipping if `c` is zero. -/
noncomputable def clipTo {n m : ℕ} (c : ℝ) (d : Fin n → Fin m → ℝ) : Fin n → Fin m → ℝ :=
  open Classical in if c ≠ 0 ∧ c ≤ entryNorm d then (c / entryNorm d) • d else d

/-- One step against the direction `d`, with a learning rate and a clipping threshold for every parameter. -/
noncomputable def descend (lr clip : Fin N → ℝ) (θ d : Params sh) : Params sh := fun p => θ p - lr p • clipTo (clip p) (d p)

/-- The sum of the gradients of some losses. -/
noncomputable def totalGradient (losses : List (Params sh → ℝ)) (θ : Params sh) : Params sh :=
  (losses.map fun loss => gradient loss θ).sum

/-- Gradient descent: the parameters after iterations number `k`, `k + 1`, ..., each on the sum of its losses. -/
noncomputable def descent (lr clip : ℕ → Fin N → ℝ) : ℕ → Params sh → List (List (Params sh → ℝ)) → Params sh
  | _, θ, [] => θ
  | k, θ, losses :: rest => descent lr clip (k + 1) (descend (lr k) (clip k) θ (totalGradient losses θ)) rest

/-- A batch: the input, the function that gives the gradient of the loss at the prediction, and the loss as a function of the
parameters. -/
structure Batch (sh : Fin N → ℕ × ℕ) where
  input : Val
  lossGrad : Val → Except PyErr Val
  loss : Params sh → ℝ

/-- The layer with the parameters `θ` takes the batch, the loss is differentiable at `θ`, and the callback adds its gradient to
the gradients of the parameters (see `Trains`). -/
def Takes (L : Layer) (θ : Params sh) (b : Batch sh) : Prop :=
  ∀ P, IsParams P θ → ∃ Y callback D back,
    L true P b.input = .ok (Y, callback) ∧ b.lossGrad Y = .ok D ∧ IsVJP b.loss θ back ∧
    ∀ G g, IsGrads G g → ∃ dv G', callback D G = .ok (dv, G') ∧ IsGrads G' (g + back 1)

/-- The layer takes all batches with the parameters it has when they come. -/
def TakesAll (L : Layer) (lr clip : ℕ → Fin N → ℝ) : ℕ → Params sh → List (List (Batch sh)) → Prop
  | _, _, [] => True
  | k, θ, bs :: rest => (∀ b ∈ bs, Takes L θ b) ∧
      TakesAll L lr clip (k + 1) (descend (lr k) (clip k) θ (totalGradient (bs.map Batch.loss) θ)) rest

/-- The nodes below `root` hold the parameters `θ` and the gradients `g`; a gradient that is not stored counts as zero.
`key p` is what the optimizer is told: the id of the node and the name. -/
structure Wired {A : Type} (h : Heap (Mat ℝ) A) (root : Addr) (slot : Slots) (key : Fin N → Nat × String) (θ g : Params sh) :
    Prop where
  /-- Different parameters are kept in different places. -/
  distinct : ∀ p q : Fin N, slot p = slot q → p = q
  /-- All nodes exist, and what has a gradient is allocated. -/
  nodes : ∀ a, Reachable h root a → ∃ n, h[a]? = some n ∧ n.paramNames.Nodup ∧
    ∀ k ∈ n.paramNames, n.hasGrad k = true → ∃ X, n.getParam k = .ok X
  param : ∀ p : Fin N, Reachable h root (slot p).1 ∧ ∃ n X, h[(slot p).1]? = some n ∧ key p = (n.id, (slot p).2) ∧
    (slot p).2 ∈ n.paramNames ∧ n.getParam (slot p).2 = .ok X ∧ IsMat X (θ p)
  grad : ∀ (p : Fin N) n, h[(slot p).1]? = some n →
    (n.hasGrad (slot p).2 = false ∧ g p = 0) ∨ ∃ D, n.getGrad (slot p).2 = .ok D ∧ IsMat D (g p)

end Thinc.Spec
