import Verif.Model.Factories
import Verif.Props.LayerNorm
import Verif.Props.Dropout
import Verif.Spec.Initialize
/-!
# What a dense layer with options computes, and when it can be initialized
-/
namespace Thinc.Spec

/-- The output width `o` of a layer made with the dimension `nO` (`none`: not given) and initialized with an example of the
output of width `n` (`none`: no example). -/
def OutputWidth (nO n : Option ℕ) (o : ℕ) : Prop := nO = some o ∨ nO = none ∧ n = some o

/-- The four nodes are different. -/
def BlockIds.Distinct (ids : BlockIds) : Prop := [ids.core, ids.norm, ids.inner, ids.outer].Nodup

/-- A dense layer with parameters W and b; a Maxout layer has at least one piece, and its output has a positive width. -/
def IsCore (k : LeafKind) (o : ℕ) : Prop :=
  match k with
  | .linear => True
  | .dense _ _ _ => True
  | .maxout nP _ _ => 0 < nP ∧ 0 < o
  | _ => False

/-- The normalized rows of `y`, scaled by `G` and shifted by `b`; `y` itself without the option. -/
noncomputable def normRows {n o : ℕ} (normalize : Bool) (G b : Fin o → ℝ) (y : Fin n → Fin o → ℝ) : Fin n → Fin o → ℝ :=
  if normalize then fun r c => normalized (y r) c * G c + b c else y

/-- The factors of Dropout with the given rate: they are 1 without the option and outside training. -/
noncomputable def dropRows {n o : ℕ} (train : Bool) (rate : Option ℝ) (draws : ℕ → ℕ → ℕ → ℝ) (y : Fin n → Fin o → ℝ) :
    Fin n → Fin o → ℝ :=
  match rate, train with
  | some rate, true => fun r c => y r c * keepFactor rate (draws 0 r c)
  | _, _ => y

end Thinc.Spec
