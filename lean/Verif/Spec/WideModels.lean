import Verif.Model.WideInit
import Verif.Spec.TextShapes
/-! # Specification: models of all layers, and what initialization owes to them -/
namespace Thinc.Spec

/-- The parameters of a layer that has been initialized have the shapes that belong to its dimensions. -/
def WideReady (W : WideEnv) (s : NetState) (id : ℕ) : Prop :=
  match W.more id with
  | none => TextReady W.text s id
  | some (.embed nV _ _ _) => ∃ nO, s.nO id = some (some nO) ∧ shapeOf (s.params (2 * id)) = (nV, nO)
  | some (.sparse length _) => ∃ nO, s.nO id = some (some nO) ∧ shapeOf (s.params (2 * id)) = (1, nO * length) ∧
      shapeOf (s.params (2 * id + 1)) = (1, nO)
  | some (.multiSoftmax _) => ∃ nO nI, s.nO id = some (some nO) ∧ s.nI id = some (some nI) ∧
      shapeOf (s.params (2 * id)) = (nO, nI) ∧ shapeOf (s.params (2 * id + 1)) = (1, nO)
  | some .cauchy => ∃ nI, s.nI id = some (some nI) ∧ shapeOf (s.params (2 * id)) = (1, nI)
  | some .attentionV2 => ∃ nO, s.nO id = some (some nO) ∧ shapeOf (s.params (2 * id)) = (1, nO)

/-- This holds before the first call of `initialize`, when no layer has parameters. -/
def WideSane (W : WideEnv) (s : NetState) : Prop := ∀ id, s.ready id = true → WideReady W s id

/-- The models that are built from all these layers.  `ids` are the layers with parameters in the model, `nodes` all its
layers that have parameters or dimensions; `sia` says whether siamese may occur. -/
inductive WideModel (W : WideEnv) (sia : Bool) : Comp → List ℕ → List ℕ → Prop
  | leaf (id : ℕ) : W.more id = none → WideModel W sia (leafC W.text id) [id] [id]
  | more (id : ℕ) (k : MoreKind) : W.more id = some k → WideModel W sia (moreC W id k) [id] [id]
  | plain (L : Layer) : WideModel W sia (plainC L) [] []
  | withArray (id pad : ℕ) (c : Comp) (ids nodes : List ℕ) : WideModel W sia c ids nodes →
      WideModel W sia (withArrayC id pad c) ids (id :: nodes)
  | withList (id : ℕ) (c : Comp) (ids nodes : List ℕ) : WideModel W sia c ids nodes → WideModel W sia (withListC id c) ids (id :: nodes)
  | withRagged (c : Comp) (ids nodes : List ℕ) : WideModel W sia c ids nodes → WideModel W sia (withRaggedC c) ids nodes
  | withPadded (id : ℕ) (c : Comp) (ids nodes : List ℕ) : WideModel W sia c ids nodes →
      WideModel W sia (withPaddedC id c) ids (id :: nodes)
  | residual (id : ℕ) (c : Comp) (ids nodes : List ℕ) : WideModel W sia c ids nodes → WideModel W sia (residualC id c) ids (id :: nodes)
  | mapList (c : Comp) (ids nodes : List ℕ) : WideModel W sia c ids nodes → WideModel W sia (mapListC c) ids nodes
  | withGetitem (idx : ℤ) (c : Comp) (ids nodes : List ℕ) : WideModel W sia c ids nodes → WideModel W sia (withGetitemC idx c) ids nodes
  | uniqued (id : ℕ) (column : ℤ) (fast : Bool) (c : Comp) (ids nodes : List ℕ) : WideModel W sia c ids nodes →
      WideModel W sia (uniquedC id column fast c) ids (id :: nodes)
  | resizable (id : ℕ) (c : Comp) (ids nodes : List ℕ) : WideModel W sia c ids nodes → WideModel W sia (resizableC id c) ids (id :: nodes)
  | withCpu (id : ℕ) (c : Comp) (ids nodes : List ℕ) : WideModel W sia c ids nodes → WideModel W sia (withCpuC id c) ids (id :: nodes)
  | attentionV2 (id : ℕ) (c : Comp) (ids nodes : List ℕ) : W.more id = some .attentionV2 → WideModel W sia c ids nodes →
      WideModel W sia (attentionV2C W id c) (id :: ids) (id :: nodes)
  | bidirectional (c d : Comp) (ids nodes ids' nodes' : List ℕ) : WideModel W sia c ids nodes → WideModel W sia d ids' nodes' →
      WideModel W sia (bidirectionalC c d) (ids ++ ids') (nodes ++ nodes')
  | chain (id : ℕ) (ms : List (Comp × List ℕ × List ℕ)) : (∀ m ∈ ms, WideModel W sia m.1 m.2.1 m.2.2) →
      WideModel W sia (chainC id (ms.map Prod.fst)) (ms.flatMap fun m => m.2.1) (id :: ms.flatMap fun m => m.2.2)
  | add (id : ℕ) (ms : List (Comp × List ℕ × List ℕ)) : (∀ m ∈ ms, WideModel W sia m.1 m.2.1 m.2.2) →
      WideModel W sia (addC id (ms.map Prod.fst)) (ms.flatMap fun m => m.2.1) (id :: ms.flatMap fun m => m.2.2)
  | concatenate (id : ℕ) (ms : List (Comp × List ℕ × List ℕ)) : (∀ m ∈ ms, WideModel W sia m.1 m.2.1 m.2.2) →
      WideModel W sia (concatenateC id (ms.map Prod.fst)) (ms.flatMap fun m => m.2.1) (id :: ms.flatMap fun m => m.2.2)
  | tuplify (id : ℕ) (ms : List (Comp × List ℕ × List ℕ)) : (∀ m ∈ ms, WideModel W sia m.1 m.2.1 m.2.2) →
      WideModel W sia (tuplifyC id (ms.map Prod.fst)) (ms.flatMap fun m => m.2.1) (id :: ms.flatMap fun m => m.2.2)
  | siamese (id : ℕ) (c sim : Comp) (ids nodes ids' nodes' : List ℕ) : sia = true → WideModel W sia c ids nodes →
      WideModel W sia sim ids' nodes' → WideModel W sia (siameseC id c sim) (ids ++ ids') (id :: (nodes ++ nodes'))

/-- A dimension is `v` after initialization: it was set to `v` and an example, if there is one, has this width; or it was
unset, and there is an example of this width. -/
def DimFrom (dim : Option (Option ℕ)) (sample : Option Val) (v : ℕ) : Prop :=
  dim = some (some v) ∧ (∀ x, sample = some x → getWidth x = .ok v) ∨ dim = some none ∧ ∃ x, sample = some x ∧ getWidth x = .ok v

/-- The state with the dimension nO of a layer set. -/
def hasO (s : NetState) (id v : ℕ) : NetState := { s with nO := fun i => if i = id then some (some v) else s.nO i }

/-- The state with the dimension nI of a layer set. -/
def hasI (s : NetState) (id v : ℕ) : NetState := { s with nI := fun i => if i = id then some (some v) else s.nI i }

end Thinc.Spec
