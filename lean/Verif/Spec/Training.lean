import Verif.Spec.Layer
/-!
# Training steps
-/
namespace Thinc.Spec

variable {N : ℕ} {sh : Fin N → ℕ × ℕ} {E : Type} [NormedAddCommGroup E] [NormedSpace ℝ E] [Tensor E]

/-- A step of training with the layer: the output is passed to `lossGrad`, and what this returns to the callback.
Afterwards the gradient of `loss` with respect to the parameters has been added to the stored gradients, and the
callback returns the gradient with respect to the input.  (`back 1` is the gradient, since `loss` is a number.) -/
def Trains (L : Layer) (train : Bool) (K : Kind E) (lossGrad : Val → Except PyErr Val) (loss : Params sh × E → ℝ)
    (θ : Params sh) (x : E) : Prop :=
  ∀ P v, IsParams P θ → K.val v x → ∃ Y callback D back,
    L train P v = .ok (Y, callback) ∧ lossGrad Y = .ok D ∧ IsVJP loss (θ, x) back ∧
    ∀ G g, IsGrads G g → ∃ dv G', callback D G = .ok (dv, G') ∧ K.grad dv (back 1).2 ∧ IsGrads G' (g + (back 1).1)

end Thinc.Spec
