import Verif.Model.CMem
import Mathlib.Data.Real.Basic
/-! # Targets for classification, and matrices as functions -/
namespace Thinc.Spec

/-- The share of class `k` of `n` for the label `t`, with label smoothing `s`: the label gets `1 - s`, the
other classes share `s` equally. -/
noncomputable def smoothed (n : Nat) (s : ℝ) (t k : Nat) : ℝ := if k = t then 1 - s else s / ((n : ℝ) - 1)

/-- A valid amount of label smoothing for `n` classes. -/
def validSmoothing (n : Nat) (s : ℝ) : Prop := s = 0 ∧ 0 < n ∨ 0 < s ∧ 1 < n ∧ s < ((n : ℝ) - 1) / n

/-- The matrix with the given entries. -/
def toMat {r c : Nat} (x : Fin r → Fin c → ℝ) : Mat ℝ :=
  Mat.ofFn r c (fun i j => if h : i < r ∧ j < c then x ⟨i, h.1⟩ ⟨j, h.2⟩ else 0)

end Thinc.Spec
