import Verif.Spec.Float
import Mathlib.Analysis.SpecialFunctions.Exp
/-!
# How accurate a floating-point format and the numeric library are
-/
namespace Thinc.Spec

/-- Rounding changes a number by at most the fraction `u`, plus `η` for numbers that are too small for the format; sums of numbers of the
format are not affected by the latter (they are multiples of the smallest number, as in IEEE 754).  The library's `exp` is accurate up to the
fraction `v`.  There are many numbers: the largest number is at least `1 / u`. -/
structure Accurate (L : FloatLib) (u η v : ℝ) : Prop where
  uNonneg : 0 ≤ u
  uHalf : u ≤ 1 / 2
  etaNonneg : 0 ≤ η
  vNonneg : 0 ≤ v
  near : ∀ x, |L.rnd x - x| ≤ u * |x| + η
  addNear : ∀ x y, L.rnd x = x → L.rnd y = y → |L.rnd (x + y) - (x + y)| ≤ u * |x + y|
  expNear : ∀ x, |L.expR x - Real.exp x| ≤ v * Real.exp x
  wide : 1 ≤ u * L.big

/-- The softmax of a row of real numbers. -/
noncomputable def softmaxReal (xs : List ℝ) : List ℝ := xs.map fun x => Real.exp x / (xs.map Real.exp).sum

/-- The logistic function. -/
noncomputable def logistic (x : ℝ) : ℝ := 1 / (1 + Real.exp (-x))

end Thinc.Spec
