import Mathlib.Data.Real.Archimedean
import Mathlib.Logic.Equiv.Fin.Basic
import Mathlib.Algebra.BigOperators.Fin
/-!
# Maxout units
-/
namespace Thinc.Spec
variable {n nO nP nI : ℕ}

/-- The row of the weights that belongs to piece `p` of unit `o`: row `o * nP + p`. -/
def pieceRow (o : Fin nO) (p : Fin nP) : Fin (nO * nP) := finProdFinEquiv (o, p)

/-- What piece `p` of unit `o` computes from row `i` of the input. -/
noncomputable def pieceOut (x : Fin n → Fin nI → ℝ) (W : Fin (nO * nP) → Fin nI → ℝ) (b : Fin nO → Fin nP → ℝ) (i : Fin n)
    (o : Fin nO) (p : Fin nP) : ℝ :=
  ∑ k, x i k * W (pieceRow o p) k + b o p

/-- A maxout unit computes the largest output of its pieces. -/
noncomputable def maxoutOf (x : Fin n → Fin nI → ℝ) (W : Fin (nO * nP) → Fin nI → ℝ) (b : Fin nO → Fin nP → ℝ) :
    Fin n → Fin nO → ℝ :=
  fun i o => ⨆ p, pieceOut x W b i o p

end Thinc.Spec
