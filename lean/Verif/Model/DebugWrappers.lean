import Verif.Model.Py
import Mathlib.Logic.Function.Basic
/-!
# Wrappers for debugging and profiling

`with_debug`, `with_nvtx_range` and `with_signpost_interval` replace the forward and init functions of a layer by
closures that call the original ones.  Functions are represented by what they are made of (`Func`, `InitFn`), so that
it is visible which layer a closure holds on to.  What the layer itself does is arbitrary.  The state of a node (`P`)
stands for its parameters and dimensions and those of its sublayers.  What happens is recorded in a log; an exception
leaves the state as it is at that point.
-/
namespace Thinc.Wrap

/-- What an observer sees besides results: calls of the hooks of `with_debug`, and the start and end of ranges. -/
inductive Event (V : Type) where
  | onInit (tag : Nat) (model : Nat) (X Y : V)
  | onForward (tag : Nat) (model : Nat) (X : V) (isTrain : Bool)
  | onBackprop (tag : Nat) (dY : V)
  | rangePush (message : String) (color : Int)
  | rangePop
  | intervalBegin (name : String)
  | intervalEnd (name : String)

/-- The three callbacks of `with_debug`; they can raise, but change nothing in the models. -/
structure Hooks (V : Type) where
  tag : Nat
  onInit : Nat → V → V → Except PyErr Unit
  onForward : Nat → V → Bool → Except PyErr Unit
  onBackprop : V → Except PyErr Unit

/-- The forward function of a layer: from the input, `is_train` and the node's state to the output and a callback; both may
change the state of the node. -/
abbrev BaseForward (P V : Type) := V → Bool → P → Except PyErr (V × (V → P → Except PyErr V × P)) × P

/-- The init function of a layer. -/
abbrev BaseInit (P V : Type) := V → V → P → Except PyErr Unit × P

/-- `model._func`: a layer's own function, or one of the closures `forward` (thinc/layers/with_debug.py:27-35,
thinc/layers/with_nvtx_range.py:27-35, thinc/layers/with_signpost_interval.py:30-38). -/
inductive Func (P V : Type) where
  | base (f : BaseForward P V)
  | debug (layer : Nat) (hooks : Hooks V) (orig : Func P V)
  | nvtx (name : String) (forwardColor backpropColor : Int) (orig : Func P V)
  | signpost (name : String) (orig : Func P V)

/-- `model.init`: `None`, a layer's own function, or one of the closures `init` (thinc/layers/with_debug.py:37-40,
thinc/layers/with_nvtx_range.py:37-41, thinc/layers/with_signpost_interval.py:40-45). -/
inductive InitFn (P V : Type) where
  | none
  | base (g : BaseInit P V)
  | debug (layer : Nat) (hooks : Hooks V) (orig : InitFn P V)
  | nvtx (layer : Nat) (orig : InitFn P V)
  | signpost (layer : Nat) (name : String) (orig : InitFn P V)

/-- The models that exist: for each its state and functions; and the log. -/
structure World (P V : Type) where
  next : Nat
  state : Nat → P
  func : Nat → Func P V
  init : Nat → InitFn P V
  log : List (Event V)

variable {P V : Type}

/-- A computation: it may raise; the world it leaves is known in both cases. -/
abbrev Run (P V α : Type) := World P V → Except PyErr α × World P V

def World.record (w : World P V) (e : Event V) : World P V := { w with log := w.log ++ [e] }
def World.setState (w : World P V) (i : Nat) (p : P) : World P V := { w with state := Function.update w.state i p }

/-- Record an event. -/
def say (e : Event V) : Run P V Unit := fun w => (.ok (), w.record e)

/-- One computation after another. -/
def andThen {α β : Type} (m : Run P V α) (k : α → Run P V β) : Run P V β := fun w =>
  match m w with
  | (.error e, w') => (.error e, w')
  | (.ok a, w') => k a w'

/-- Something that only changes the state of node `i`. -/
def onNode {α : Type} (i : Nat) (f : P → Except PyErr α × P) : Run P V α := fun w =>
  ((f (w.state i)).1, w.setState i (f (w.state i)).2)

/-- Call a hook of `with_debug`. -/
def runHook (e : Event V) (result : Except PyErr Unit) : Run P V Unit := andThen (say e) fun _ w => (result, w)

/-- thinc/util.py:612-621 `use_nvtx_range`: without `try`, so that an exception in the body skips `RangePop`. -/
def useNvtxRange {α : Type} (hasCupy : Bool) (message : String) (color : Int) (body : Run P V α) : Run P V α :=
  if hasCupy then andThen (say (.rangePush message color)) fun _ => andThen body fun a => andThen (say .rangePop) fun _ w => (.ok a, w)
  else body

/-- `with signposter.use_interval(name)` (thinc/layers/with_signpost_interval.py:31, 35, 42).  The package `os_signpost` is
outside the repository: that the interval ends when the body raises is an assumption. -/
def useInterval {α : Type} (name : String) (body : Run P V α) : Run P V α :=
  andThen (say (.intervalBegin name)) fun _ w =>
    let r := body w
    (r.1, r.2.record (.intervalEnd name))

/-- Call a forward function with a model.  thinc/layers/with_debug.py:27-35 (`orig_forward(layer, …)`),
thinc/layers/with_nvtx_range.py:27-35 and thinc/layers/with_signpost_interval.py:30-38 (`orig_forward(model, …)`). -/
def Func.call (hasCupy : Bool) : Func P V → Nat → V → Bool → Run P V (V × (V → Run P V V))
  | .base f, model, X, isTrain =>
    andThen (onNode model (f X isTrain)) fun (Y, back) w => (.ok (Y, fun dY => onNode model (back dY)), w)
  | .debug layer hooks orig, model, X, isTrain =>
    andThen (runHook (.onForward hooks.tag model X isTrain) (hooks.onForward model X isTrain)) fun _ =>
      andThen (orig.call hasCupy layer X isTrain) fun (Y, back) w =>
        (.ok (Y, fun dY => andThen (runHook (.onBackprop hooks.tag dY) (hooks.onBackprop dY)) fun _ => back dY), w)
  | .nvtx name fc bc orig, model, X, isTrain =>
    andThen (useNvtxRange hasCupy (name ++ " forward") fc (orig.call hasCupy model X isTrain)) fun (Y, back) w =>
      (.ok (Y, fun dY => useNvtxRange hasCupy (name ++ " backprop") bc (back dY)), w)
  | .signpost name orig, model, X, isTrain =>
    andThen (useInterval (name ++ " forward") (orig.call hasCupy model X isTrain)) fun (Y, back) w =>
      (.ok (Y, fun dY => useInterval (name ++ " backprop") (back dY)), w)

/-- Call an init function with a model.  thinc/layers/with_debug.py:37-40, thinc/layers/with_nvtx_range.py:37-41 and
thinc/layers/with_signpost_interval.py:40-45: all three call `orig_init(layer, X, Y)`. -/
def InitFn.call : InitFn P V → Nat → V → V → Run P V Unit
  | .none, _, _, _ => fun w => (.ok (), w)
  | .base g, model, X, Y => onNode model (g X Y)
  | .debug layer hooks orig, model, X, Y =>
    andThen (runHook (.onInit hooks.tag model X Y) (hooks.onInit model X Y)) fun _ => orig.call layer X Y
  | .nvtx layer orig, _, X, Y => orig.call layer X Y
  | .signpost _ _ .none, _, _, _ => fun w => (.ok (), w)
  | .signpost layer name orig, _, X, Y => useInterval (name ++ " init") (orig.call layer X Y)

/-- thinc/model.py:307-310 `Model.__call__`. -/
def World.call (hasCupy : Bool) (w : World P V) (model : Nat) (X : V) (isTrain : Bool) :
    Except PyErr (V × (V → Run P V V)) × World P V :=
  (w.func model).call hasCupy model X isTrain w

/-- thinc/model.py:312-319 `Model.initialize` (without validation of the data). -/
def World.initialize (w : World P V) (model : Nat) (X Y : V) : Except PyErr Unit × World P V :=
  (w.init model).call model X Y w

/-- thinc/model.py:439-443 `replace_callbacks`. -/
def World.replaceCallbacks (w : World P V) (model : Nat) (f : Func P V) (g : InitFn P V) : World P V :=
  { w with func := Function.update w.func model f, init := Function.update w.init model g }

/-- The arguments of the three wrappers. -/
inductive Wrapper (V : Type) where
  | debug (hooks : Hooks V)
  | nvtx (name : String) (forwardColor backpropColor : Int)
  | signpost (name : String)

/-- thinc/layers/with_debug.py:10-44 `with_debug`, thinc/layers/with_nvtx_range.py:9-45 `with_nvtx_range` and
thinc/layers/with_signpost_interval.py:9-49 `with_signpost_interval` (with the package `os_signpost` installed): the layer itself
is changed and returned. -/
def World.wrap (w : World P V) (layer : Nat) : Wrapper V → World P V
  | .debug hooks => w.replaceCallbacks layer (.debug layer hooks (w.func layer)) (.debug layer hooks (w.init layer))
  | .nvtx name fc bc => w.replaceCallbacks layer (.nvtx name fc bc (w.func layer)) (.nvtx layer (w.init layer))
  | .signpost name => w.replaceCallbacks layer (.signpost name (w.func layer)) (.signpost layer name (w.init layer))

/-- One wrapper after the other. -/
def World.wrapAll (w : World P V) (layer : Nat) (ws : List (Wrapper V)) : World P V :=
  ws.foldl (fun w wr => w.wrap layer wr) w

/-- thinc/model.py:478-525 `Model.copy`: a new model (its number is `w.next`) with the same functions and a copy of the state. -/
def World.copy (w : World P V) (model : Nat) : World P V where
  next := w.next + 1
  state := Function.update w.state w.next (w.state model)
  func := Function.update w.func w.next (w.func model)
  init := Function.update w.init w.next (w.init model)
  log := w.log

end Thinc.Wrap
