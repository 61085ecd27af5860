import Verif.Model.Float
/-!
# Adam in floating-point arithmetic
-/
namespace Thinc

/-- The constants of a step, as numbers of the format: `beta1`, `beta2`, `1.0 - beta1`, `1.0 - beta2`, `eps` and the learning rate. -/
structure AdamConsts where
  beta1 : ℝ
  beta2 : ℝ
  coBeta1 : ℝ
  coBeta2 : ℝ
  eps : ℝ
  rate : ℝ

/-- One weight and its two moments. -/
structure AdamEntry where
  weight : Fl
  mom1 : Fl
  mom2 : Fl

namespace FloatLib
variable (L : FloatLib)

/-- `mom1 *= beta1; mom1 += gradient * (1.0 - beta1)`, thinc/backends/ops.py:1198, 1200 -/
noncomputable def adamMom1 (c : AdamConsts) (m g : Fl) : Fl := L.add (L.mul m (.fin c.beta1)) (L.mul g (.fin c.coBeta1))

/-- `mom2 *= beta2; mom2 += gradient * gradient * (1.0 - beta2)`, thinc/backends/ops.py:1199, 1201 -/
noncomputable def adamMom2 (c : AdamConsts) (v g : Fl) : Fl := L.add (L.mul v (.fin c.beta2)) (L.mul (L.mul g g) (.fin c.coBeta2))

/-- `learn_rate * (mom1 / (mod_rate * self.xp.sqrt(mom2) + eps))` with `mod_rate = 1.0`, thinc/backends/ops.py:1204 -/
noncomputable def adamChange (c : AdamConsts) (m v : Fl) : Fl :=
  L.mul (.fin c.rate) (L.div m (L.add (L.mul (.fin 1) (L.sqrt v)) (.fin c.eps)))

/-- thinc/backends/ops.py:1181-1205 `Ops.adam` for one entry.  (numpy_ops.pyx and the GPU kernel compute the same formula; the rounding of
fused operations may differ there.) -/
noncomputable def adamEntry (c : AdamConsts) (s : AdamEntry) (g : Fl) : AdamEntry :=
  { weight := L.sub s.weight (L.adamChange c (L.adamMom1 c s.mom1 g) (L.adamMom2 c s.mom2 g))
    mom1 := L.adamMom1 c s.mom1 g
    mom2 := L.adamMom2 c s.mom2 g }

/-- A history of updates with constant hyperparameters. -/
noncomputable def adamRun (c : AdamConsts) (s : AdamEntry) (gs : List Fl) : AdamEntry := gs.foldl (L.adamEntry c) s

/-- thinc/optimizers.py:318-362 `Optimizer._radam` for one entry.  `rectified` is whether `N_sma >= 5`, and `rate` is `step_size * lr` as a number of
the format; both are computed by Python from the number of the step.  The hyperparameters except the learning rate are constant. -/
noncomputable def radamEntry (c : AdamConsts) (s : AdamEntry) (u : Bool × ℝ × Fl) : AdamEntry :=
  let v := L.add (L.mul s.mom2 (.fin c.beta2)) (L.mul (.fin c.coBeta2) (L.mul u.2.2 u.2.2))
  let m := L.add (L.mul s.mom1 (.fin c.beta1)) (L.mul (.fin c.coBeta1) u.2.2)
  { weight := L.add s.weight (L.mul (.fin (-u.2.1)) (if u.1 then L.div m (L.add (L.sqrt v) (.fin c.eps)) else m))
    mom1 := m
    mom2 := v }

/-- A history of updates by RAdam: for each, whether it is rectified, the rate and the gradient. -/
noncomputable def radamRun (c : AdamConsts) (s : AdamEntry) (us : List (Bool × ℝ × Fl)) : AdamEntry := us.foldl (L.radamEntry c) s

end FloatLib
end Thinc
