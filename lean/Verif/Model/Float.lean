import Verif.Model.Py
import Mathlib.Analysis.SpecialFunctions.Sqrt
import Mathlib.Analysis.Real.Pi.Bounds
/-!
# Floating-point arithmetic, and the activation functions on it

The other models of the numeric code work with exact real numbers.  Here the numbers are those of a floating-point format, with rounding,
overflow to infinity and NaN.  The format, the rounding and the elementary functions of numpy are parameters (`FloatLib`).
Simplification: there is one zero, so that a division of a nonzero number by zero has the sign of the dividend.
-/
namespace Thinc
open Classical

/-- A number of a floating-point format: a finite number, plus or minus infinity, or NaN. -/
inductive Fl where
  | fin (x : ℝ)
  | inf (neg : Bool)
  | nan

/-- A floating-point format and the numeric library: how a real number is rounded if there were no largest number, the largest number, what
the library's `exp`, `tanh` and `log` return before they are rounded to the format, and `sum`, which numpy computes in an order that depends
on the length and the memory layout. -/
structure FloatLib where
  rnd : ℝ → ℝ
  big : ℝ
  expR : ℝ → ℝ
  tanhR : ℝ → ℝ
  logR : ℝ → ℝ
  sum : List Fl → Fl

namespace FloatLib
variable (L : FloatLib)

/-- The result of an operation whose exact result is `x`. -/
noncomputable def round (x : ℝ) : Fl := if |L.rnd x| ≤ L.big then .fin (L.rnd x) else .inf (decide (x < 0))

/-- `a + b` (IEEE 754). -/
noncomputable def add : Fl → Fl → Fl
  | .fin x, .fin y => L.round (x + y)
  | .inf s, .fin _ => .inf s
  | .fin _, .inf s => .inf s
  | .inf s, .inf t => if s = t then .inf s else .nan
  | .nan, _ => .nan
  | _, .nan => .nan

/-- `-a`. -/
noncomputable def neg : Fl → Fl
  | .fin x => .fin (-x)
  | .inf s => .inf (!s)
  | .nan => .nan

/-- `a - b`. -/
noncomputable def sub (a b : Fl) : Fl := L.add a (neg b)

/-- `a * b`. -/
noncomputable def mul : Fl → Fl → Fl
  | .fin x, .fin y => L.round (x * y)
  | .inf s, .fin y => if y = 0 then .nan else .inf (xor s (decide (y < 0)))
  | .fin x, .inf s => if x = 0 then .nan else .inf (xor s (decide (x < 0)))
  | .inf s, .inf t => .inf (xor s t)
  | .nan, _ => .nan
  | _, .nan => .nan

/-- `a / b`. -/
noncomputable def div : Fl → Fl → Fl
  | .fin x, .fin y => if y = 0 then (if x = 0 then .nan else .inf (decide (x < 0))) else L.round (x / y)
  | .inf s, .fin y => .inf (xor s (decide (y < 0)))
  | .fin _, .inf _ => .fin 0
  | .inf _, .inf _ => .nan
  | .nan, _ => .nan
  | _, .nan => .nan

/-- `xp.sqrt(a)`. -/
noncomputable def sqrt : Fl → Fl
  | .fin x => if x < 0 then .nan else L.round (Real.sqrt x)
  | .inf false => .inf false
  | .inf true => .nan
  | .nan => .nan

/-- `xp.exp(a)`. -/
noncomputable def exp : Fl → Fl
  | .fin x => L.round (L.expR x)
  | .inf false => .inf false
  | .inf true => .fin 0
  | .nan => .nan

/-- `xp.tanh(a)`. -/
noncomputable def tanh : Fl → Fl
  | .fin x => L.round (L.tanhR x)
  | .inf s => .fin (if s then -1 else 1)
  | .nan => .nan

/-- `xp.log(a)`. -/
noncomputable def log : Fl → Fl
  | .fin x => if x < 0 then .nan else if x = 0 then .inf true else L.round (L.logR x)
  | .inf false => .inf false
  | .inf true => .nan
  | .nan => .nan

end FloatLib

/-- `a < b`: false if one of them is NaN. -/
def Fl.lt : Fl → Fl → Prop
  | .fin x, .fin y => x < y
  | .inf true, .fin _ => True
  | .fin _, .inf false => True
  | .inf true, .inf false => True
  | _, _ => False

/-- `a <= b`: false if one of them is NaN. -/
def Fl.le : Fl → Fl → Prop
  | .fin x, .fin y => x ≤ y
  | .inf true, .nan => False
  | .inf true, _ => True
  | .nan, .inf false => False
  | _, .inf false => True
  | _, _ => False

/-- `xp.maximum(a, b)`: NaN if one of them is NaN. -/
noncomputable def Fl.max (a b : Fl) : Fl := if a = .nan ∨ b = .nan then .nan else if a.le b then b else a

/-- `xp.minimum(a, b)`: NaN if one of them is NaN. -/
noncomputable def Fl.min (a b : Fl) : Fl := if a = .nan ∨ b = .nan then .nan else if a.le b then a else b

/-- `xp.clip(x, lo, hi)`. -/
noncomputable def Fl.clip (x lo hi : Fl) : Fl := Fl.min (Fl.max x lo) hi

/-- `xp.max(row)`; ValueError if there is no element. -/
noncomputable def Fl.rowMax : List Fl → Except PyErr Fl
  | [] => .error .valueError
  | x :: xs => .ok (xs.foldl Fl.max x)

namespace FloatLib
variable (L : FloatLib)

/-- The row divided by the temperature, thinc/backends/ops.py:819-820. -/
noncomputable def tempered (T : Fl) (row : List Fl) : List Fl := if T = .fin 1 then row else row.map fun x => L.div x T

/-- `Ops.softmax` on one row (axis -1), thinc/backends/ops.py:811-825. -/
noncomputable def softmaxRow (T : Fl) (row : List Fl) : Except PyErr (List Fl) := do
  let m ← Fl.rowMax (L.tempered T row)
  let e := (L.tempered T row).map fun x => L.exp (L.sub x m)
  pure (e.map fun x => L.div x (L.sum e))

/-- `Ops.sigmoid` of one number, thinc/backends/ops.py:773-783, not in place. -/
noncomputable def sigmoid (x : Fl) : Fl :=
  L.div (.fin 1) (L.add (.fin 1) (L.exp (neg (x.clip (L.round (-20)) (L.round 20)))))

/-- `Ops.dsigmoid`, thinc/backends/ops.py:795-800. -/
noncomputable def dsigmoid (y : Fl) : Fl := L.mul y (L.sub (.fin 1) y)

/-- `Ops.backprop_sigmoid`, thinc/backends/ops.py:785-793. -/
noncomputable def backpropSigmoid (dy y : Fl) : Fl := L.mul dy (L.dsigmoid y)

/-- `Ops.clipped_linear`, thinc/backends/ops.py:914-928. -/
noncomputable def clippedLinear (x slope offset lo hi : Fl) : Fl := (L.add (L.mul x slope) offset).clip lo hi

/-- `Ops.backprop_clipped_linear`, thinc/backends/ops.py:930-948.  The ends `low` and `high` of the interval are computed with Python numbers. -/
noncomputable def backpropClippedLinear (dy x slope low high : Fl) : Fl :=
  L.mul dy (if low.lt x ∧ x.lt high then slope else .fin 0)

/-- `Ops.relu_k`, thinc/backends/ops.py:950-951. -/
noncomputable def reluK (x : Fl) (n : Fl) : Fl := L.clippedLinear x (.fin 1) (.fin 0) (.fin 0) n

/-- `Ops.hard_sigmoid`, thinc/backends/ops.py:958-959. -/
noncomputable def hardSigmoid (x : Fl) : Fl := L.clippedLinear x (L.round 0.2) (L.round 0.5) (.fin 0) (.fin 1)

/-- `Ops.hard_tanh`, thinc/backends/ops.py:966-967. -/
noncomputable def hardTanh (x : Fl) : Fl := L.clippedLinear x (.fin 1) (.fin 0) (L.round (-1)) (.fin 1)

/-- `Ops.swish`, thinc/backends/ops.py:974-979. -/
noncomputable def swish (x : Fl) : Fl := L.mul x (L.sigmoid x)

/-- `Ops.hard_swish`, thinc/backends/ops.py:992-997. -/
noncomputable def hardSwish (x : Fl) : Fl := L.mul x (L.hardSigmoid x)

/-- `Ops.backprop_hard_swish`, thinc/backends/ops.py:999-1008. -/
noncomputable def backpropHardSwish (dy x : Fl) : Fl :=
  L.mul dy (if x.lt (L.round (-2.5)) then .fin 0 else if (L.round 2.5).lt x then .fin 1 else L.add (L.mul x (L.round 0.4)) (L.round 0.5))

/-- `Ops.hard_swish_mobilenet`, thinc/backends/ops.py:1011-1015. -/
noncomputable def hardSwishMobilenet (x : Fl) : Fl := L.mul x (L.div (L.reluK (L.add x (L.round 3)) (L.round 6)) (L.round 6))

/-- `Ops.dish`, thinc/backends/ops.py:1028-1039. -/
noncomputable def dish (x : Fl) : Fl :=
  L.mul x (L.mul (L.add (L.div x (L.sqrt (L.add (L.mul x x) (.fin 1)))) (.fin 1)) (L.round 0.5))

/-- `x ** 1.5`: the C library's `pow`, here for numbers that are not negative. -/
noncomputable def pow15 : Fl → Fl
  | .fin x => if x < 0 then .nan else L.round (x * Real.sqrt x)
  | .inf false => .inf false
  | .inf true => .inf false
  | .nan => .nan

/-- `Ops.backprop_dish`, thinc/backends/ops.py:1041-1055. -/
noncomputable def backpropDish (dy x : Fl) : Fl :=
  let sq := L.mul x x
  let sq1 := L.add sq (.fin 1)
  let deriv := L.div x (L.sqrt sq1)
  let second := L.div (L.mul (L.mul (L.round 0.5) x) sq) (L.pow15 sq1)
  L.mul dy (L.add (L.sub deriv second) (L.round 0.5))

/-- `xp.power(x, 3)`. -/
noncomputable def cube : Fl → Fl
  | .fin x => L.round (x ^ 3)
  | .inf s => .inf s
  | .nan => .nan

/-- `Ops.gelu_approx`, thinc/backends/ops.py:1084-1094. -/
noncomputable def geluApprox (x : Fl) : Fl :=
  L.mul x (L.mul (L.add (.fin 1) (L.tanh (L.mul (L.round (Real.sqrt (2 / Real.pi))) (L.add x (L.mul (L.round 0.044715) (L.cube x))))))
    (L.round 0.5))

/-- `Ops.mish`, thinc/backends/ops.py:1130-1139. -/
noncomputable def mish (x threshold : Fl) : Fl :=
  if threshold.le x then x else L.mul x (L.tanh (L.log (L.add (.fin 1) (L.exp x))))

/-- `Ops.backprop_mish`, thinc/backends/ops.py:1141-1170, on one number. -/
noncomputable def backpropMish (dy x threshold : Fl) : Fl :=
  if x.lt threshold then
    let omega := L.mul (L.round 4) (L.add x (.fin 1))
    let omega := L.add omega (L.mul (L.round 4) (L.exp (L.mul (L.round 2) x)))
    let omega := L.add omega (L.exp (L.mul (L.round 3) x))
    let omega := L.add omega (L.mul (L.exp x) (L.add (L.mul (L.round 4) x) (L.round 6)))
    let delta := L.add (L.exp x) (.fin 1)
    let delta := L.add (L.mul delta delta) (.fin 1)
    L.mul dy (L.div (L.mul (L.exp x) omega) (L.mul delta delta))
  else dy

/-- `xp.linalg.norm(gradient)`: the root of the sum of the squares. -/
noncomputable def norm (g : List Fl) : Fl := L.sqrt (L.sum (g.map fun x => L.mul x x))

/-- `Ops.clip_gradient`, thinc/backends/ops.py:1207-1213. -/
noncomputable def clipGradient (g : List Fl) (threshold : Fl) : List Fl :=
  if threshold.le (L.norm g) then g.map fun x => L.mul x (L.div threshold (L.norm g)) else g

end FloatLib
end Thinc
