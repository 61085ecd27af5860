import Verif.Model.DebugWrappers
/-!
# What it means that a wrapper changes nothing

Specification vocabulary for C98.
-/
namespace Thinc.Spec
open Thinc.Wrap

variable {P V : Type}

/-- Two callbacks do the same to the models: started in worlds with the same states of the models, they return or raise the
same and leave the same states. -/
def SameCallback (b b' : V → Run P V V) : Prop :=
  ∀ dY u u', u.state = u'.state → (b dY u).1 = (b' dY u').1 ∧ (b dY u).2.state = (b' dY u').2.state

/-- Two calls of models do the same: the states of the models are the same afterwards; they raise the same exception, or
return the same output and callbacks that do the same. -/
def SameCall (r r' : Except PyErr (V × (V → Run P V V)) × World P V) : Prop :=
  r.2.state = r'.2.state ∧
    ((∃ e, r.1 = .error e ∧ r'.1 = .error e) ∨
      ∃ Y b b', r.1 = .ok (Y, b) ∧ r'.1 = .ok (Y, b') ∧ SameCallback b b')

/-- The hooks of a wrapper do not raise. -/
def Quiet : Wrapper V → Prop
  | .debug hooks => (∀ m X Y, hooks.onInit m X Y = .ok ()) ∧ (∀ m X t, hooks.onForward m X t = .ok ()) ∧
      ∀ dY, hooks.onBackprop dY = .ok ()
  | _ => True

/-- Whether a wrapper is `with_debug`. -/
def IsDebug : Wrapper V → Prop
  | .debug _ => True
  | _ => False

/-- What a wrapper records before the layer runs. -/
def forwardOpens (hasCupy : Bool) (layer : Nat) (X : V) (isTrain : Bool) : Wrapper V → List (Event V)
  | .debug hooks => [.onForward hooks.tag layer X isTrain]
  | .nvtx name fc _ => if hasCupy then [.rangePush (name ++ " forward") fc] else []
  | .signpost name => [.intervalBegin (name ++ " forward")]

/-- What a wrapper records after the layer has run. -/
def forwardCloses (hasCupy : Bool) : Wrapper V → List (Event V)
  | .debug _ => []
  | .nvtx _ _ _ => if hasCupy then [.rangePop] else []
  | .signpost name => [.intervalEnd (name ++ " forward")]

/-- The same for the backward pass. -/
def backpropOpens (hasCupy : Bool) (dY : V) : Wrapper V → List (Event V)
  | .debug hooks => [.onBackprop hooks.tag dY]
  | .nvtx name _ bc => if hasCupy then [.rangePush (name ++ " backprop") bc] else []
  | .signpost name => [.intervalBegin (name ++ " backprop")]

def backpropCloses (hasCupy : Bool) : Wrapper V → List (Event V)
  | .debug _ => []
  | .nvtx _ _ _ => if hasCupy then [.rangePop] else []
  | .signpost name => [.intervalEnd (name ++ " backprop")]

/-- What is recorded of a pass through a layer with wrappers (in the order in which they were put around it): the
last one is outermost. -/
def nested (opens closes : Wrapper V → List (Event V)) (inner : List (Event V)) : List (Wrapper V) → List (Event V)
  | [] => inner
  | wr :: ws => nested opens closes (opens wr ++ inner ++ closes wr) ws

/-- The number of open NVTX ranges. -/
def openRanges (log : List (Event V)) : Int :=
  (log.map fun e => match e with
    | .rangePush _ _ => (1 : Int)
    | .rangePop => -1
    | _ => 0).sum

end Thinc.Spec
