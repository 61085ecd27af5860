import Verif.Spec.Layer
import Mathlib.Algebra.BigOperators.Fin
/-!
# Rows at places

The containers for sequences hold the same rows at different places: one after the other in a list or a `Ragged`, with
blank rows between the sequences in a flattened array with padding, and column by column in a `Padded`.
-/
namespace Thinc.Spec

variable {n N m : ℕ}

/-- Row `r` is put at place `place r`; the other rows are zero. -/
noncomputable def spread {α : Type} [AddCommMonoid α] (place : Fin n → Fin N) (x : Fin n → Fin m → α) : Fin N → Fin m → α :=
  fun i j => ∑ r, if place r = i then x r j else 0

/-- The rows are taken from their places. -/
def collect {α : Type} (place : Fin n → Fin N) (y : Fin N → Fin m → α) : Fin n → Fin m → α := fun r => y (place r)

/-- The number of rows when sequences of the given lengths are written one after the other, with `pad` blank rows before
each sequence that has rows and after the last one. -/
def blankedRows (pad : ℕ) (ls : List ℕ) : ℕ :=
  if ls.sum = 0 then 0 else ls.sum + pad * (ls.countP (0 < ·) + 1)

/-- The place of row `r` (counted over all sequences) there. -/
def blankedPlace (pad : ℕ) : List ℕ → ℕ → ℕ
  | [], r => r
  | l :: ls, r =>
    if l = 0 then blankedPlace pad ls r else if r < l then pad + r else pad + l + blankedPlace pad ls (r - l)

/-- The metadata of a `Padded` for sequences of the lengths `ls`: the columns are the sequences by decreasing length, and
by decreasing number where the lengths are equal. -/
structure IsOrder (ls ix : List ℕ) : Prop where
  perm : ix.Perm (List.range ls.length)
  sorted : ix.Pairwise fun i j => ls.getD j 0 < ls.getD i 0 ∨ (ls.getD i 0 = ls.getD j 0 ∧ j < i)

/-- The number of time steps. -/
def maxLength (ls : List ℕ) : ℕ := ls.foldr max 0

/-- A `Padded` for sequences of the lengths `ls` and width `m` with the column order `ix`: all its cells, row `t * B + b` is
time step `t` of column `b`. -/
def Kind.batch (ls ix : List ℕ) (m : ℕ) : Kind (Fin (maxLength ls * ls.length) → Fin m → ℝ) :=
  Kind.padded (maxLength ls * ls.length) m (maxLength ls) ((List.range (maxLength ls)).map fun t => ls.countP (t < ·))
    (ix.map fun i => ls.getD i 0) ix

/-- The place in a `Padded` of time step `t` of sequence `i`, where `r` is its number among all rows of all sequences. -/
def IsBatchPlace (ls ix : List ℕ) (place : Fin ls.sum → Fin (maxLength ls * ls.length)) : Prop :=
  ∀ (i t : ℕ) (hi : i < ls.length) (ht : t < ls[i]) (r : Fin ls.sum), (r : ℕ) = (ls.take i).sum + t →
    (place r : ℕ) = t * ls.length + ix.idxOf i

end Thinc.Spec
