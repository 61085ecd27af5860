import Verif.Model.CMem
import Mathlib.Algebra.BigOperators.Group.Finset.Basic
/-!
# Batches of sequences stored as consecutive rows, and inner products of matrices
-/
namespace Thinc.Spec
open Finset
variable {K : Type}

/-- The first row of sequence `b` when sequences of the given lengths are stored one after the
other. -/
def seqStart (ls : List Nat) (b : Nat) : Nat := (ls.take b).sum

/-- The length of sequence `b`. -/
def seqLen (ls : List Nat) (b : Nat) : Nat := ls.getD b 0

/-- Row `t` of sequence `b`, column `o`. -/
def seqAt (X : Mat K) (ls : List Nat) (b t o : Nat) : K := X.at (seqStart ls b + t) o

/-- The inner product of two matrices with `n` rows and `m` columns. -/
def inner [Mul K] [AddCommMonoid K] (n m : Nat) (X Y : Nat → Nat → K) : K :=
  ∑ i ∈ range n, ∑ j ∈ range m, X i j * Y i j

/-- `w` is the first index below `n` at which `f` is largest. -/
def firstMax [LT K] [LE K] (f : Nat → K) (n w : Nat) : Prop :=
  w < n ∧ (∀ t < n, f t ≤ f w) ∧ ∀ t < w, f t < f w

/-- The lengths as the integer array that is passed to the code. -/
def asInts (ls : List Nat) : List Int := ls.map Int.ofNat

end Thinc.Spec
