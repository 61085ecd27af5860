import Verif.Model.Float
/-!
# Stochastic gradient descent in floating-point arithmetic
-/
namespace Thinc

/-- The hyperparameters of a step without momentum, as Python numbers: `rate` is `lr_scale * learn_rate`, `l2` is `L2`, and `shrink` is
`lr_scale * learn_rate * L2`.  `isDecay` is `L2_is_weight_decay`.  Clipping is off (`grad_clip` is zero). -/
structure SgdConsts where
  rate : ℝ
  l2 : ℝ
  shrink : ℝ
  isDecay : Bool

namespace FloatLib
variable (L : FloatLib)

/-- thinc/optimizers.py:249-250, for one entry: `gradient += L2 * weights`, unless `L2` is zero or used as weight decay.  A Python number is
rounded to the format of the array before it is used (a schedule that returns numbers of NumPy in a wider format is not modelled). -/
noncomputable def sgdGradient (c : SgdConsts) (w g : Fl) : Fl :=
  open Classical in if c.l2 ≠ 0 ∧ c.isDecay = false then L.add g (L.mul (L.round c.l2) w) else g

/-- thinc/optimizers.py:270-278, for one entry of the weights: `weights -= lr_scale * learn_rate * gradient`, then the weight decay. -/
noncomputable def sgdWeight (c : SgdConsts) (w g : Fl) : Fl :=
  open Classical in
  let w₁ := L.sub w (L.mul (L.round c.rate) (L.sgdGradient c w g))
  if c.l2 ≠ 0 ∧ c.isDecay = true then L.sub w₁ (L.mul (L.round c.shrink) w₁) else w₁

/-- thinc/optimizers.py:271, what is left in the gradient: `gradient *= 0`. -/
noncomputable def sgdLeft (c : SgdConsts) (w g : Fl) : Fl := L.mul (L.sgdGradient c w g) (.fin 0)

/-- The weight after the steps with the gradients `gs`. -/
noncomputable def sgdRun (c : SgdConsts) (w : Fl) (gs : List Fl) : Fl := gs.foldl (L.sgdWeight c) w

end FloatLib
end Thinc
