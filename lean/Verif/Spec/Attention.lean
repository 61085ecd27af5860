import Verif.Spec.Segments
import Mathlib.Analysis.SpecialFunctions.Exp
/-!
# Attention within sequences
-/
namespace Thinc.Spec
open Real

/-- The number of the sequence that row `i` belongs to, when sequences of the given lengths are stored one after the
other. -/
def memberOf : List ℕ → ℕ → ℕ
  | [], _ => 0
  | l :: ls, i => if i < l then 0 else memberOf ls (i - l) + 1

/-- The weight of row `i` within its sequence, for the given scores. -/
noncomputable def attention (ls : List ℕ) (score : Fin ls.sum → ℝ) (i : Fin ls.sum) : ℝ :=
  exp (score i) / ∑ i' : Fin ls.sum, if memberOf ls i' = memberOf ls i then exp (score i') else 0

end Thinc.Spec
