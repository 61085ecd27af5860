import Verif.Model.WithLayers
import Verif.Model.Containers
/-!
# The init functions of `with_flatten` and `with_reshape`

The wrapped layer's `initialize` is an arbitrary function of the example data and a state, that may raise.
-/
namespace Thinc
open Container
variable {α : Type}

/-- `layer.initialize(X, Y)` -/
abbrev InitFn (β γ σ : Type) := Option β → Option γ → σ → Except PyErr σ

/-- Two arrays side by side: `xp.concatenate([a, b], axis=1)`. -/
def npConcat1 (a b : Arr α) : Except PyErr (Arr α) :=
  match a.tail, b.tail with
  | c :: t, d :: u =>
    if a.len = b.len ∧ t = u then .ok ⟨(c + d) :: t, List.zipWith (· ++ ·) a.rows b.rows⟩ else .error .valueError
  | _, _ => .error .valueError

/-- `xp.hstack(arrays)`: joined along the first axis if the first array is one-dimensional, else along the second. -/
def npHstack : List (Arr α) → Except PyErr (Arr α)
  | [] => .error .valueError
  | a :: as => if a.tail = [] then npConcatenate (a :: as) else forM' as a npConcat1

/-- thinc/layers/with_flatten.py:47-53 `init` and thinc/layers/with_flatten_v2.py:58-66 `init` (the same; for version 2 the outputs are
lists, which `hstack` turns into arrays). -/
def withFlattenInit {β σ : Type} (init : InitFn (List β) (Arr α) σ) : InitFn (List (List β)) (List (Arr α)) σ := fun X Y s =>
  match Y with
  | none => init (X.map fun X => (flattenNested X).1) none s
  | some Y => do init (X.map fun X => (flattenNested X).1) (some (← npHstack Y)) s

/-- `ops.reshape(X, (-1, X.shape[-1]))`, thinc/layers/with_reshape.py:49, 51 -/
def reshapeRows (X : NdArray α) : Except PyErr (NdArray α) :=
  match X.shape.getLast? with
  | none => .error .indexError
  | some width => X.reshape [-1, (width : Int)]

/-- The conversion of an argument that may be `None`. -/
def reshapeRowsOpt : Option (NdArray α) → Except PyErr (Option (NdArray α))
  | none => .ok none
  | some X => do return some (← reshapeRows X)

/-- thinc/layers/with_reshape.py:44-45: without data the layer is initialized here, and again below. -/
def initWithoutData {σ : Type} (init : InitFn (NdArray α) (NdArray α) σ) (X Y : Option (NdArray α)) (s : σ) : Except PyErr σ :=
  if X.isNone && Y.isNone then init none none s else .ok s

/-- thinc/layers/with_reshape.py:40-56 `init`.  (The dimensions that are copied from the layer at the end, 53-56, are not modelled.) -/
def withReshapeInit {σ : Type} (init : InitFn (NdArray α) (NdArray α) σ) : InitFn (NdArray α) (NdArray α) σ := fun X Y s => do
  let s ← initWithoutData init X Y s
  let X2d ← reshapeRowsOpt X
  let Y2d ← reshapeRowsOpt Y
  init X2d Y2d s

end Thinc
