import Mathlib.Data.Real.Archimedean
import Mathlib.Algebra.BigOperators.Fin
/-!
# Pooling over sequences

Sequences of the given lengths, stored one after the other in the rows of one array.
-/
namespace Thinc.Spec
variable {m : ℕ}

theorem rowOf_lt (ls : List ℕ) (b : Fin ls.length) (t : Fin (ls.get b)) : (ls.take b).sum + t < ls.sum := by
  have h := List.sum_append (l₁ := ls.take (b + 1)) (l₂ := ls.drop (b + 1))
  rw [List.take_append_drop, List.take_add_one, List.getElem?_eq_getElem b.2, Option.toList_some, List.sum_append, List.sum_singleton] at h
  have : (t : ℕ) < ls[(b : ℕ)] := t.2
  omega

/-- The row of item `t` of sequence `b`. -/
def rowOf (ls : List ℕ) (b : Fin ls.length) (t : Fin (ls.get b)) : Fin ls.sum := ⟨(ls.take b).sum + t, rowOf_lt ls b t⟩

/-- Every sequence has an item. -/
def NoEmpty (ls : List ℕ) : Prop := ∀ b : Fin ls.length, 0 < ls.get b

/-- The sum of the items of each sequence. -/
noncomputable def poolSum (ls : List ℕ) (x : Fin ls.sum → Fin m → ℝ) : Fin ls.length → Fin m → ℝ :=
  fun b o => ∑ t, x (rowOf ls b t) o

/-- Their mean, and zero for an empty sequence. -/
noncomputable def poolMean (ls : List ℕ) (x : Fin ls.sum → Fin m → ℝ) : Fin ls.length → Fin m → ℝ :=
  fun b o => if ls.get b = 0 then 0 else (∑ t, x (rowOf ls b t) o) / ls.get b

/-- Their maximum, for sequences that are not empty. -/
noncomputable def poolMax (ls : List ℕ) (x : Fin ls.sum → Fin m → ℝ) : Fin ls.length → Fin m → ℝ :=
  fun b o => ⨆ t, x (rowOf ls b t) o

/-- The first items. -/
def poolFirst (ls : List ℕ) (h : NoEmpty ls) (x : Fin ls.sum → Fin m → ℝ) : Fin ls.length → Fin m → ℝ :=
  fun b o => x (rowOf ls b ⟨0, h b⟩) o

/-- The last items. -/
def poolLast (ls : List ℕ) (h : NoEmpty ls) (x : Fin ls.sum → Fin m → ℝ) : Fin ls.length → Fin m → ℝ :=
  fun b o => x (rowOf ls b ⟨ls.get b - 1, Nat.sub_lt (h b) Nat.one_pos⟩) o

end Thinc.Spec
