import Verif.Model.TensorFlow
import Verif.Spec.Containers
/-!
# What a user expects of wrapped TensorFlow and MXNet models

Specification vocabulary for C101 and C102.
-/
namespace Thinc.Spec
open Thinc.TF Thinc.Container

/-- Entry `i` of the gradient of variable `k` in a pass. -/
noncomputable def gradEntry (p : Pass) (k i : ℕ) : ℝ := (((p.gradVar k).map (·.data)).getD []).getD i 0

/-- The gradient of variable `k`, with `n` entries, summed over several passes. -/
noncomputable def summedGradient (passes : List Pass) (k n : ℕ) : List ℝ :=
  (List.range n).map fun i => (passes.map fun p => gradEntry p k i).sum

/-- A pass with one input that gives every variable a gradient of its shape. -/
def GoodPass (vars : List Arr) (p : Pass) : Prop :=
  p.nArgs = 1 ∧ ∀ k (hk : k < vars.length), ∃ g, p.gradVar k = some g ∧ g.shape = vars[k].shape ∧ WellShaped g

/-- Several passes one after the other. -/
noncomputable def backprops : List Pass → Shim → Except PyErr Shim
  | [], s => .ok s
  | p :: ps, s => do
    let r ← s.backprop p
    backprops ps r.2

/-- The weights of a model replaced by those of a dict, where there are any. -/
def withWeights (dict : String → Option Arr) (m : Keras) : Keras :=
  m.map fun l => l.map fun kv => (kv.1, (dict kv.1).getD kv.2)

/-- A dict with an array of the right shape for every weight of the model. -/
def Fits (dict : String → Option Arr) (m : Keras) : Prop :=
  ∀ l ∈ m, ∀ kv ∈ l, ∃ v, dict kv.1 = some v ∧ v.shape = kv.2.shape

/-- No two weights have the same name. -/
def DistinctNames (m : Keras) : Prop := ((m.flatten).map Prod.fst).Nodup

/-- Two models with the same weights, by name and shape, whatever their values. -/
def SameWeights (m m' : Keras) : Prop :=
  (m.map fun l => l.map fun kv => (kv.1, kv.2.shape)) = (m'.map fun l => l.map fun kv => (kv.1, kv.2.shape))

end Thinc.Spec
