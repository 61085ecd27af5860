import Verif.Model.Arrays
import Mathlib.Data.List.Perm.Basic
/-!
# What a padded batch means

Independent of how the code builds or reads one.
-/
namespace Thinc
namespace Spec
variable {α : Type}

/-- The documented invariants of a padded batch: time-major data with one column per sequence,
columns sorted by decreasing length, `size_at_t[t]` the number of sequences longer than `t`, and
`indices` the original position of each column. -/
structure ValidPadded (P : Padded α) : Prop where
  steps : P.data.data.length = P.data.d0
  cols : ∀ r ∈ P.data.data, r.length = P.data.d1
  numLengths : P.lengths.length = P.data.d1
  sorted : P.lengths.Pairwise (· ≥ ·)
  fits : ∀ l ∈ P.lengths, l ≤ P.data.d0
  perm : P.indices.Perm (List.range P.data.d1)
  sizes : P.sizeAtT = (List.range P.data.d0).map (fun t => P.lengths.countP (fun l => t < l))

/-- The rows of the sequence in column `b`. -/
def column (P : Padded α) (b : Nat) : List (List α) :=
  (List.range (P.lengths.getD b 0)).map (fun t => P.data.cell t b)

/-- The padded batch holds exactly these sequences, in this original order. -/
def Represents (P : Padded α) (seqs : List (List (List α))) : Prop :=
  seqs.length = P.data.d1 ∧
    ∀ (b i : Nat), P.indices[b]? = some i → seqs[i]? = some (column P b)

end Spec
end Thinc
