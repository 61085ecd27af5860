import Verif.Model.Initialize
/-!
# Shapes of networks

The widths that a network maps to each other, given the dimensions of its leaves.
-/
namespace Thinc.Spec

/-- The width of the output of a leaf with the given dimensions for inputs of width `w`, if it accepts them.  LayerNorm
uses numpy's broadcasting. -/
noncomputable def leafWidth (k : LeafKind) (nO nI w : ℕ) : Option ℕ :=
  match k with
  | .linear => if w = nI then some nO else none
  | .dense _ _ _ => if w = nI then some nO else none
  | .softmax temperature => if w = nI ∧ 0 < nO ∧ 0 < temperature then some nO else none
  | .maxout nP _ _ => if w = nI ∧ 0 < nO ∧ 0 < nP then some nO else none
  | .layerNorm => if w = nI ∨ w = 1 then some nI else if nI = 1 then some w else none

/-- The leaf has its parameters, and the dimensions are set. -/
def leafDims (s : NetState) (id : ℕ) : Option (ℕ × ℕ) :=
  match s.ready id, s.nO id, s.nI id with
  | true, some (some o), some (some i) => some (o, i)
  | _, _, _ => none

/-- The width of a sum `Y += …` (numpy repeats columns of width one). -/
def sumWidth (a : ℕ) (bs : List ℕ) : Option ℕ := if ∀ b ∈ bs, b = a ∨ b = 1 then some a else none

/-- The width of `X + Y`. -/
def residualWidth (w v : ℕ) : Option ℕ := if w = v ∨ v = 1 then some w else if w = 1 then some v else none

mutual
/-- The width of the output of a network for inputs of width `w`, if it accepts them. -/
noncomputable def NetNode.width (E : NetEnv) (s : NetState) : NetNode → ℕ → Option ℕ
  | .leaf id, w => match leafDims s id with
    | some d => leafWidth (E.kind id) d.1 d.2 w
    | none => none
  | .plain _, w => some w
  | .chain _ [], _ => none
  | .chain _ (l :: ls), w => chainWidth E s (l :: ls) w
  | .add _ layers, w => match widths E s layers w with
    | some (a :: bs) => sumWidth a bs
    | some [] => some w
    | none => none
  | .concatenate _ [], _ => none
  | .concatenate _ (l :: ls), w => (widths E s (l :: ls) w).map List.sum
  | .residual _ l, w => match NetNode.width E s l w with
    | some v => residualWidth w v
    | none => none
/-- One layer after the other. -/
noncomputable def chainWidth (E : NetEnv) (s : NetState) : List NetNode → ℕ → Option ℕ
  | [], w => some w
  | l :: ls, w => match NetNode.width E s l w with
    | some v => chainWidth E s ls v
    | none => none
/-- All layers on the same input. -/
noncomputable def widths (E : NetEnv) (s : NetState) : List NetNode → ℕ → Option (List ℕ)
  | [], _ => some []
  | l :: ls, w => match NetNode.width E s l w, widths E s ls w with
    | some v, some vs => some (v :: vs)
    | _, _ => none
end

mutual
/-- The leaves of a network. -/
def NetNode.leaves : NetNode → List ℕ
  | .leaf id => [id]
  | .plain _ => []
  | .chain _ layers => leavesOf layers
  | .add _ layers => leavesOf layers
  | .concatenate _ layers => leavesOf layers
  | .residual _ l => NetNode.leaves l
def leavesOf : List NetNode → List ℕ
  | [] => []
  | l :: ls => NetNode.leaves l ++ leavesOf ls
end

mutual
/-- The nodes of a network. -/
def NetNode.ids : NetNode → List ℕ
  | .leaf id => [id]
  | .plain _ => []
  | .chain id layers => id :: idsOf layers
  | .add id layers => id :: idsOf layers
  | .concatenate id layers => id :: idsOf layers
  | .residual id l => id :: NetNode.ids l
def idsOf : List NetNode → List ℕ
  | [] => []
  | l :: ls => NetNode.ids l ++ idsOf ls
end

/-- The node has the same dimensions and parameters in both states. -/
def SameNode (s s' : NetState) (id : ℕ) : Prop :=
  s'.nO id = s.nO id ∧ s'.nI id = s.nI id ∧ s'.ready id = s.ready id ∧ s'.params (2 * id) = s.params (2 * id) ∧
    s'.params (2 * id + 1) = s.params (2 * id + 1)

/-- The layer maps a float array to a float array of the same shape. -/
def KeepsShape (L : Layer) : Prop :=
  ∀ train P X, ∃ Y callback, L train P (.arr X) = .ok (.arr Y, callback) ∧ Y.rows = X.rows ∧ Y.cols = X.cols

mutual
/-- The layers without dimensions in a network keep the shape. -/
def NetNode.PlainOk : NetNode → Prop
  | .leaf _ => True
  | .plain L => KeepsShape L
  | .chain _ layers => plainOkAll layers
  | .add _ layers => plainOkAll layers
  | .concatenate _ layers => plainOkAll layers
  | .residual _ l => NetNode.PlainOk l
def plainOkAll : List NetNode → Prop
  | [] => True
  | l :: ls => NetNode.PlainOk l ∧ plainOkAll ls
end

/-- The shapes of the two parameters of a leaf with the given dimensions. -/
def leafShapes (k : LeafKind) (nO nI : ℕ) : (ℕ × ℕ) × ℕ × ℕ :=
  match k with
  | .linear => ((nO, nI), (1, nO))
  | .dense _ _ _ => ((nO, nI), (1, nO))
  | .softmax _ => ((nO, nI), (1, nO))
  | .maxout nP _ _ => ((nO * nP, nI), (nO, nP))
  | .layerNorm => ((1, nI), (1, nI))

/-- The shape of an array. -/
def shapeOf (A : Mat ℝ) : ℕ × ℕ := (A.rows, A.cols)

/-- The leaf has its dimensions, and its parameters have the shapes that belong to them. -/
def LeafReady (E : NetEnv) (s : NetState) (id : ℕ) : Prop :=
  ∃ nO nI, s.ready id = true ∧ s.nO id = some (some nO) ∧ s.nI id = some (some nI) ∧
    shapeOf (s.params (2 * id)) = (leafShapes (E.kind id) nO nI).1 ∧
    shapeOf (s.params (2 * id + 1)) = (leafShapes (E.kind id) nO nI).2

/-- No leaf has got parameters yet, or it is ready; this holds before the first call of `initialize`. -/
def Sane (E : NetEnv) (s : NetState) : Prop := ∀ id, s.ready id = true → LeafReady E s id

/-- A dimension that is set in `s` has the same value in `s'`. -/
def KeepsDims (s s' : NetState) : Prop :=
  ∀ id v, (s.nO id = some (some v) → s'.nO id = some (some v)) ∧ (s.nI id = some (some v) → s'.nI id = some (some v))

/-- Layers whose `init` compares the width of the data with the dimensions that are set. -/
def IsDense (k : LeafKind) : Prop :=
  match k with
  | .linear => True
  | .dense _ _ _ => True
  | _ => False

/-- The width of the example of the output, if there is one. -/
def WidthOf (Y : Option Val) (n : Option ℕ) : Prop :=
  match Y with
  | none => n = none
  | some y => ∃ k, getWidth y = .ok k ∧ n = some k

/-- The dimension nO that a layer gets: the one it has, or the width `n` of the example of the output. -/
def OutputDim (old : Option (Option ℕ)) (n : Option ℕ) (o : ℕ) : Prop := old = some (some o) ∨ old = some none ∧ n = some o

/-- The dimensions of the layers of a chain agree: each layer's nI is unset or the width of the output of the layer before
it (`w` for the first layer). -/
def Consistent (s : NetState) (n : Option ℕ) : ℕ → List ℕ → Prop
  | _, [] => True
  | w, id :: ids => (s.nI id = some none ∨ s.nI id = some (some w)) ∧ ∃ o, OutputDim (s.nO id) n o ∧ Consistent s n o ids

/-- The dimensions of the layers of a chain after inference: nI is the width of the output of the layer before it, nO is as
it was before or the width `n` of the example of the output. -/
def Inferred (s s' : NetState) (n : Option ℕ) : ℕ → List ℕ → Prop
  | _, [] => True
  | w, id :: ids => s'.nI id = some (some w) ∧ ∃ o, s'.nO id = some (some o) ∧ OutputDim (s.nO id) n o ∧ Inferred s s' n o ids

/-- The width of the output of the last layer. -/
def LastWidth (s : NetState) : ℕ → List ℕ → ℕ → Prop
  | w, [], v => v = w
  | _, id :: ids, v => ∃ o, s.nO id = some (some o) ∧ LastWidth s o ids v

/-- `predict` accepts every array of width `w` and gives arrays with as many rows and of width `v`. -/
def Accepts (E : NetEnv) (s : NetState) (t : NetNode) (w v : ℕ) : Prop :=
  ∀ X : Mat ℝ, X.cols = w → ∃ Y, t.predict E s (.arr X) = .ok (.arr Y) ∧ Y.rows = X.rows ∧ Y.cols = v

mutual
/-- Networks whose initialization checks that they accept the example: dense layers, chains, and concatenations of such. -/
def NetNode.Checked (E : NetEnv) : NetNode → Prop
  | .leaf id => IsDense (E.kind id)
  | .plain _ => True
  | .chain _ _ => True
  | .add _ _ => False
  | .concatenate _ [] => False
  | .concatenate _ (l :: ls) => NetNode.Checked E l ∧ checkedAll E ls
  | .residual _ _ => False
def checkedAll (E : NetEnv) : List NetNode → Prop
  | [] => True
  | l :: ls => NetNode.Checked E l ∧ checkedAll E ls
end

end Thinc.Spec
