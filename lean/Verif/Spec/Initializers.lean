import Verif.Model.Initializers
import Verif.Spec.Containers
import Verif.Spec.Layer
import Mathlib.Probability.HasLaw
import Mathlib.Probability.Distributions.Gaussian.Real
/-!
# Random initial weights

Specification vocabulary for C103 and C104.
-/
namespace Thinc.Spec
open Thinc.Initializers Thinc.Container MeasureTheory ProbabilityTheory

variable {σ : Type}

/-- The `k`-th draw of a generator in the given state. -/
def nthDraw (next : σ → ℝ × σ) : ℕ → σ → ℝ
  | 0, s => (next s).1
  | k + 1, s => nthDraw next k (next s).2

/-- The state of a generator after `n` draws. -/
def afterDraws (next : σ → ℝ × σ) : ℕ → σ → σ
  | 0, s => s
  | n + 1, s => afterDraws next n (next s).2

/-- The initializers that take their scale from the shape. -/
inductive Scheme where
  | lecunNormal | heNormal | glorotNormal | lecunUniform | heUniform | glorotUniform

noncomputable def Scheme.run (rng : Rng σ) : Scheme → List ℕ → σ → Except PyErr (NdArray ℝ × σ)
  | .lecunNormal => lecunNormalInit rng
  | .heNormal => heNormalInit rng
  | .glorotNormal => glorotNormalInit rng
  | .lecunUniform => lecunUniformInit rng
  | .heUniform => heUniformInit rng
  | .glorotUniform => glorotUniformInit rng

/-- The variance of the weights for a layer with `nI` inputs and `nO` outputs (LeCun et al. 1998, He et al. 2015, Glorot and
Bengio 2010). -/
noncomputable def Scheme.variance : Scheme → (nO nI : ℕ) → ℝ
  | .lecunNormal, _, nI | .lecunUniform, _, nI => 1 / nI
  | .heNormal, _, nI | .heUniform, _, nI => 2 / nI
  | .glorotNormal, nO, nI | .glorotUniform, nO, nI => 2 / (nI + nO)

/-- The draws of the scheme. -/
def Scheme.next (rng : Rng σ) : Scheme → σ → ℝ × σ
  | .lecunNormal | .heNormal | .glorotNormal => rng.normal
  | .lecunUniform | .heUniform | .glorotUniform => rng.uniform

/-- The weight for a draw: the normal schemes scale standard normal draws to variance `v`, the uniform schemes map the unit interval
to `-√(3v)` to `√(3v)`. -/
noncomputable def Scheme.weight : Scheme → (v : ℝ) → ℝ → ℝ
  | .lecunNormal, v, z | .heNormal, v, z | .glorotNormal, v, z => √v * z
  | .lecunUniform, v, u | .heUniform, v, u | .glorotUniform, v, u => √(3 * v) * (2 * u - 1)

/-- The largest weight of the uniform schemes. -/
noncomputable def Scheme.limit : Scheme → (nO nI : ℕ) → ℝ
  | .lecunUniform, _, nI => √(3 / nI)
  | .heUniform, _, nI => √(6 / nI)
  | .glorotUniform, nO, nI => √(6 / (nI + nO))
  | _, _, _ => 0

variable {Ω : Type} [MeasurableSpace Ω]

/-- A generator whose state is random: its draws are independent, with the given distribution. -/
structure Independent (next : σ → ℝ × σ) (S : Ω → σ) (P : Measure Ω) (law : Measure ℝ) : Prop where
  indep : iIndepFun (fun k ω => nthDraw next k (S ω)) P
  law : ∀ k, HasLaw (fun ω => nthDraw next k (S ω)) law P

/-- A good generator: uniform draws on [0, 1), or standard normal draws. -/
structure GoodRng (rng : Rng σ) (S : Ω → σ) (P : Measure Ω) : Prop where
  uniform : Independent rng.uniform S P (volume.restrict (Set.Ico 0 1))
  normal : Independent rng.normal S P (gaussianReal 0 1)

/-- The parameters `W` and `b` of a layer. -/
def twoParams (W b : ℕ) (p : Mat ℝ × Mat ℝ) : ParamVals := fun q => if q = W then p.1 else if q = b then p.2 else ⟨0, 0, fun _ => 0⟩

end Thinc.Spec
