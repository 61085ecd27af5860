import Verif.Spec.Layer
/-!
# SparseLinear: what it should compute
-/
namespace Thinc.Spec

/-- Feature number `i` belongs to example `r`: the examples are consecutive and have the given numbers of features. -/
abbrev FeatureOf (ls : List ℕ) (r i : ℕ) : Prop := (ls.take r).sum ≤ i ∧ i < (ls.take r).sum + ls.getD r 0

/-- The bucket of a hash among `nW` buckets: the remainder, or (version 1) a bitwise and. -/
def bucket (v1 : Bool) (nW : ℕ) (hash : BitVec 32) : ℕ := if v1 then hash.toNat &&& (nW - 1) else hash.toNat % nW

/-- The place of the weight of class `c` for a bucket: every class has its own `nW` weights, or (version 1) the weights of the
classes are shifted by one place. -/
def weightPlace (v1 : Bool) (nW bucket c : ℕ) : ℕ := if v1 then bucket + c else c * nW + bucket

/-- A number from a list, at a place given as a natural number. -/
noncomputable def entry {n : ℕ} (w : Fin n → ℝ) (i : ℕ) : ℝ := if h : i < n then w ⟨i, h⟩ else 0

/-- The score of class `c` for example `r`: the bias, and for every feature its value times the sum of two weights. -/
noncomputable def sparseScore (v1 : Bool) (nW : ℕ) {K nO : ℕ} (hash : Fin K → Fin 2 → BitVec 32) (vals : Fin K → ℝ) (ls : List ℕ)
    (w : Fin (nO * nW) → ℝ) (b : Fin nO → ℝ) : Fin ls.length → Fin nO → ℝ := fun r c =>
  b c + ∑ i : Fin K, if FeatureOf ls r i then
    vals i * ∑ k : Fin 2, entry w (weightPlace v1 nW (bucket v1 nW (hash i k)) c) else 0

/-- A tuple of keys, values and lengths.  There is nothing to differentiate; the layer returns the input as its gradient. -/
def Kind.features (keys : List ℤ) (vals : Fin keys.length → ℝ) (ls : List ℕ) : Kind (Fin 0 → ℝ) where
  val v _ := ∃ A, v = .tup [.ints keys, .arr A, .ints (ls.map fun l : ℕ => (l : ℤ))] ∧ IsMat A (fun (_ : Fin 1) i => vals i)
  grad v _ := ∃ A, v = .tup [.ints keys, .arr A, .ints (ls.map fun l : ℕ => (l : ℤ))] ∧ IsMat A (fun (_ : Fin 1) i => vals i)

end Thinc.Spec
