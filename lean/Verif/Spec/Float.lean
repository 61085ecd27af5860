import Verif.Model.Float
/-!
# What is assumed of a floating-point format and of the numeric library
-/
namespace Thinc.Spec

/-- `s` is the sum of the numbers, added up in some order, two at a time. -/
inductive Sums (L : FloatLib) : List Fl → Fl → Prop
  | zero : Sums L [] (.fin 0)
  | one (x : Fl) : Sums L [x] x
  | add {xs ys zs : List Fl} {a b : Fl} : Sums L xs a → Sums L ys b → zs.Perm (xs ++ ys) → Sums L zs (L.add a b)

/-- The format is symmetric; rounding keeps the order and does not change numbers of the format; 1, 1/2 and the whole numbers up to `count`
are in the format, and `1 / count` does not vanish.  `exp` is monotone, never negative, one at zero, and not too large at 20; `tanh` is between -1 and 1;
and `sum` adds in some order. -/
structure IsFloatLib (L : FloatLib) (count : ℕ) : Prop where
  mono : Monotone L.rnd
  odd : ∀ x, L.rnd (-x) = -L.rnd x
  idem : ∀ x, L.rnd (L.rnd x) = L.rnd x
  rndBig : L.rnd L.big = L.big
  nat : ∀ k : ℕ, k ≤ count → L.rnd k = k
  large : (count : ℝ) ≤ L.big
  half : L.rnd (1 / 2) = 1 / 2
  thousand : 1000 ≤ count
  fine : 0 < L.rnd (1 / count)
  expMono : Monotone L.expR
  expNonneg : ∀ x, 0 ≤ L.expR x
  expZero : L.expR 0 = 1
  expTwenty : L.rnd (L.expR 20) + 1 ≤ L.big
  tanh : ∀ x, |L.tanhR x| ≤ 1
  sum : ∀ xs, Sums L xs (L.sum xs)

/-- A finite number of the format. -/
def IsFinite (L : FloatLib) (a : Fl) : Prop := ∃ x, a = .fin x ∧ L.rnd x = x ∧ |x| ≤ L.big

/-- A finite number of the format between `lo` and `hi`. -/
def Between (L : FloatLib) (lo hi : ℝ) (a : Fl) : Prop := ∃ x, a = .fin x ∧ L.rnd x = x ∧ |x| ≤ L.big ∧ lo ≤ x ∧ x ≤ hi

end Thinc.Spec
