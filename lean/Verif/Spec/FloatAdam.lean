import Verif.Model.FloatAdam
import Verif.Spec.Float
/-!
# Specification: bounds that one step of Adam does not leave
-/
namespace Thinc.Spec

/-- The constants are numbers of the format; the decay rates are between 0 and 1, `eps` is positive. -/
structure AdamConstsOk (L : FloatLib) (c : AdamConsts) : Prop where
  beta1 : 0 ≤ c.beta1 ∧ c.beta1 ≤ 1
  beta2 : 0 ≤ c.beta2 ∧ c.beta2 ≤ 1
  coBeta1 : 0 ≤ c.coBeta1 ∧ c.coBeta1 ≤ 1
  coBeta2 : 0 ≤ c.coBeta2 ∧ c.coBeta2 ≤ 1
  eps : 0 < c.eps ∧ L.rnd c.eps = c.eps
  rate : 0 ≤ c.rate

/-- A first moment of at most `M` stays at most `M` with a gradient of `G`: one step with these two numbers. -/
structure Mom1Bound (L : FloatLib) (c : AdamConsts) (G M : ℝ) : Prop where
  grad : 0 ≤ G ∧ G ≤ L.big
  moment : 0 ≤ M ∧ M ≤ L.big
  step : L.rnd (L.rnd (M * c.beta1) + L.rnd (G * c.coBeta1)) ≤ M

/-- The same for the second moment; the square of `G` does not overflow. -/
structure Mom2Bound (L : FloatLib) (c : AdamConsts) (G V : ℝ) : Prop where
  square : L.rnd (G * G) ≤ L.big
  moment : 0 ≤ V ∧ V ≤ L.big
  step : L.rnd (L.rnd (V * c.beta2) + L.rnd (L.rnd (G * G) * c.coBeta2)) ≤ V

/-- The change of a weight is at most `S`, and neither it nor the quotient overflows. -/
structure ChangeBound (L : FloatLib) (c : AdamConsts) (M S : ℝ) : Prop where
  quotient : L.rnd (M / c.eps) ≤ L.big
  change : L.rnd (c.rate * L.rnd (M / c.eps)) ≤ S
  finite : S ≤ L.big

/-- The change of a weight by RAdam is at most `S`, if the rates are at most `R`: with and without the division by the root of the second moment. -/
structure RadamBound (L : FloatLib) (c : AdamConsts) (M R S : ℝ) : Prop where
  quotient : L.rnd (M / c.eps) ≤ L.big
  change : L.rnd (R * L.rnd (M / c.eps)) ≤ S
  plain : L.rnd (R * M) ≤ S
  finite : S ≤ L.big

/-- A finite number of the format of at most this size. -/
def AtMost (L : FloatLib) (B : ℝ) (a : Fl) : Prop := ∃ x, a = .fin x ∧ L.rnd x = x ∧ |x| ≤ L.big ∧ |x| ≤ B

end Thinc.Spec
