import Mathlib.Data.Real.Sqrt
/-!
# RAdam (Liu et al., "On the Variance of the Adaptive Learning Rate and Beyond", ICLR 2020, algorithm 2)
-/
namespace Thinc.Spec

/-- The maximum length of the approximated simple moving average. -/
noncomputable def rhoInf (β2 : ℝ) : ℝ := 2 / (1 - β2) - 1

/-- The length of the approximated simple moving average at step `t`. -/
noncomputable def rho (β2 : ℝ) (t : ℕ) : ℝ := rhoInf β2 - 2 * t * β2 ^ t / (1 - β2 ^ t)

/-- The variance rectification term at step `t`. -/
noncomputable def rectification (β2 : ℝ) (t : ℕ) : ℝ :=
  Real.sqrt (((rho β2 t - 4) * (rho β2 t - 2) * rhoInf β2) / ((rhoInf β2 - 4) * (rhoInf β2 - 2) * rho β2 t))

/-- The step of RAdam number `t`, for a learning rate of 1, with the moments `m` and `v`: the bias-corrected first moment, divided by the
bias-corrected root of the second and rectified as soon as the moving average has length 5 (as in the authors' program; the
paper has "longer than 4").  `eps` is added to the root as in the authors' program. -/
noncomputable def radamStep (β1 β2 eps : ℝ) (t : ℕ) (m v : ℝ) : ℝ :=
  let m' := m / (1 - β1 ^ t)
  open Classical in
  if 5 ≤ rho β2 t then rectification β2 t * m' * (Real.sqrt (1 - β2 ^ t) / (Real.sqrt v + eps)) else m'

end Thinc.Spec
