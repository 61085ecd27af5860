import Verif.Spec.Attention
import Mathlib.Logic.Equiv.Fin.Basic
/-!
# Windows around the rows of an array
-/
namespace Thinc.Spec
variable {n I : ℕ}

/-- Row `i` of the result consists of `2 * nW + 1` blocks of width `I`.  Block `k` is row `i + k - nW` of the array if there is such a
row and it belongs to the same sequence as row `i`, and zero otherwise.  `seqNo` is the number of the sequence of each row. -/
noncomputable def windowOf (seqNo : ℕ → ℕ) (nW : ℕ) (x : Fin n → Fin I → ℝ) : Fin n → Fin ((2 * nW + 1) * I) → ℝ := fun i j =>
  let k : ℕ := (finProdFinEquiv.symm j).1
  let c := (finProdFinEquiv.symm j).2
  if h : nW ≤ (i : ℕ) + k ∧ (i : ℕ) + k - nW < n ∧ seqNo (i + k - nW) = seqNo i then x ⟨i + k - nW, h.2.1⟩ c else 0

end Thinc.Spec
