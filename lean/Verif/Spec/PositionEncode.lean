import Mathlib.Analysis.SpecialFunctions.Pow.Real
import Mathlib.Analysis.SpecialFunctions.Trigonometric.Basic
/-!
# What position encodings and n-grams are
-/
namespace Thinc.Spec

/-- The frequency of the pair of columns that starts at the even column `c`. -/
noncomputable def frequency (period : ℝ) (D c : Nat) : ℝ := 1 / period ^ (2 * (c : ℝ) / (D : ℝ))

/-- The first column of the pair whose frequency column `j` uses: columns `0,1` use `0`, columns
`2,3` use `2`, and so on; a last column without a partner (odd width) uses the pair before it. -/
def pairOf (D j : Nat) : Nat := if j + 1 = D ∧ D % 2 = 1 then j - 2 else j - j % 2

/-- The encoding of position `i` in column `j`: sine in the even columns, cosine in the odd ones. -/
noncomputable def encoding (period : ℝ) (D i j : Nat) : ℝ :=
  if j % 2 = 0 then Real.sin (i * frequency period D (pairOf D j))
  else Real.cos (i * frequency period D (pairOf D j))

/-- All stretches of `n` consecutive items, from left to right. -/
def windows {α : Type} (n : Nat) : List α → List (List α)
  | [] => []
  | x :: xs => if n ≤ (x :: xs).length then (x :: xs).take n :: windows n xs else []

end Thinc.Spec
