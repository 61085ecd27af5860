import Verif.Model.Dropout
import Verif.Model.Embed
/-!
# The random number generator

The layers of `Verif.Model.Layer` are given their random draws.  Here they take them from the generator, as in the code: numpy has one global
generator, `source` are the numbers it gives one after the other, and its state is the number of draws so far.  A layer is run in a state
and leaves the generator in another state, also if it raises.

A combinator calls its layers one after the other, in an order and with inputs that may depend on the outputs so far.  `CallTree` says
which layers are called with what; the tree is run with layers that use the generator.
-/
namespace Thinc.Random
open Classical

/-- A layer that uses the generator: like `Layer`, with the number of draws before and after the call. -/
abbrev RLayer := Bool → ParamVals → Val → Nat → Except PyErr (Val × Callback) × Nat

/-- The numbers drawn by thinc/backends/ops.py:485-497 `Ops.get_dropout_mask` for a mask of shape `(rows, cols)`, and the state of the
generator afterwards: `xp.random.uniform` is called only if the rate is between 0 and 1. -/
noncomputable def drawMask (source : Nat → ℝ) (drop : Option ℝ) (rows cols : Nat) (k : Nat) : (Nat → Nat → ℝ) × Nat :=
  match drop with
  | none => (fun _ _ => 0, k)
  | some drop =>
    if drop ≤ 0 then (fun _ _ => 0, k)
    else if drop ≥ 1.0 then (fun _ _ => 0, k)
    else (fun i j => source (k + i * cols + j), k + rows * cols)

/-- The draws for several masks, thinc/layers/dropout.py:80 `[ops.get_dropout_mask(X.shape, rate) for X in Xs]`. -/
noncomputable def drawMasks (source : Nat → ℝ) (drop : Option ℝ) : List (Nat × Nat) → Nat → List (Nat → Nat → ℝ) × Nat
  | [], k => ([], k)
  | (rows, cols) :: shapes, k =>
    let (flips, k) := drawMask source drop rows cols k
    let (rest, k) := drawMasks source drop shapes k
    (flips :: rest, k)

/-- The shapes of the arrays in a list.  (If one of the members is no array, the code raises after some draws; here before.) -/
def arrayShapes (vs : List Val) : List (Nat × Nat) :=
  match vs.mapM Val.asArr with
  | .ok As => As.map fun A => (A.rows, A.cols)
  | .error _ => []

/-- The shapes of the masks for an input, thinc/layers/dropout.py:41, 53, 66, 80. -/
def maskShapes : Val → List (Nat × Nat)
  | .arr A => [(A.rows, A.cols)]
  | .ragged A _ => [(A.rows, A.cols)]
  | .padded A _ _ _ _ => [(A.rows, A.cols)]
  | .list vs => arrayShapes vs
  | .tup vs => arrayShapes vs
  | .ints _ => []
  | .intMat _ => []

/-- thinc/layers/dropout.py:19-35 `forward`: without dropout the input is returned at once, else the masks are drawn. -/
noncomputable def dropoutR (rate : ℝ) (isEnabled : Bool) (source : Nat → ℝ) : RLayer := fun train P X k =>
  if rate = 0 ∨ (isEnabled && train) = false then (dropout rate isEnabled (fun _ _ _ => 0) train P X, k)
  else
    let (flips, k) := drawMasks source (some rate) (maskShapes X) k
    (dropout rate isEnabled (fun m => flips.getD m fun _ _ => 0) train P X, k)

/-- thinc/layers/embed.py:48-71 `forward`: the mask is drawn after the rows have been taken, and only in training.  (Whether the rows can be
taken does not depend on the mask, so the layer is first run without one.) -/
noncomputable def embedR (E : Nat) (rate : Option ℝ) (fast : Bool) (source : Nat → ℝ) : RLayer := fun train P X k =>
  match embed E rate (fun _ _ => 0) fast train P X with
  | .error e => (.error e, k)
  | .ok r =>
    if train then
      let (flips, k) := drawMask source rate 1 (P E).cols k
      (embed E rate flips fast train P X, k)
    else (.ok r, k)

/-- thinc/layers/hashembed.py:59-91 `forward`: likewise; nothing is drawn for an empty array of ids (67-76). -/
noncomputable def hashEmbedR (E : Nat) (seed : BitVec 32) (rate : Option ℝ) (fast : Bool) (source : Nat → ℝ) : RLayer := fun train P X k =>
  match hashEmbed E seed rate (fun _ _ => 0) fast train P X, X.asInts with
  | .error e, _ => (.error e, k)
  | .ok r, .ok (_ :: _) =>
    if train then
      let (flips, k) := drawMask source rate 1 (P E).cols k
      (hashEmbed E seed rate flips fast train P X, k)
    else (.ok r, k)
  | .ok r, _ => (.ok r, k)

/-- A layer that draws nothing. -/
def plainR (layer : Layer) : RLayer := fun train P X k => (layer train P X, k)

/-! ### Combinators -/

/-- What a combinator does with a given input: `call i x next` calls its `i`-th layer with `x` and goes on with the output and the callback,
`done r` returns or raises. -/
inductive CallTree where
  | done (r : Except PyErr (Val × Callback))
  | call (i : Nat) (x : Val) (next : Val × Callback → CallTree)

/-- The tree is run with layers that draw nothing; an exception ends it. -/
def CallTree.run (call : Nat → Val → Except PyErr (Val × Callback)) : CallTree → Except PyErr (Val × Callback)
  | .done r => r
  | .call i x next =>
    match call i x with
    | .ok r => (next r).run call
    | .error e => .error e

/-- The tree is run with layers that use the generator. -/
def CallTree.runR (call : Nat → Val → Nat → Except PyErr (Val × Callback) × Nat) : CallTree → Nat → Except PyErr (Val × Callback) × Nat
  | .done r, k => (r, k)
  | .call i x next, k =>
    match call i x k with
    | (.ok r, k) => (next r).runR call k
    | (.error e, k) => (.error e, k)

/-- The `i`-th layer of a model is called, `model.layers[i](x, is_train)`. -/
def callLayer (layers : List Layer) (train : Bool) (P : ParamVals) (i : Nat) (x : Val) : Except PyErr (Val × Callback) :=
  match layers[i]? with
  | some layer => layer train P x
  | none => .error .indexError

/-- The same for layers that use the generator. -/
def callLayerR (layers : List RLayer) (train : Bool) (P : ParamVals) (i : Nat) (x : Val) (k : Nat) : Except PyErr (Val × Callback) × Nat :=
  match layers[i]? with
  | some layer => layer train P x k
  | none => (.error .indexError, k)

/-- A combinator that passes the training flag on to its layers. -/
def combineR (tree : Nat → Val → CallTree) (layers : List RLayer) : RLayer := fun train P X k =>
  (tree layers.length X).runR (callLayerR layers train P) k

/-- thinc/layers/with_cpu.py:24-32 `forward` on the CPU: the layer is run by `begin_update`, whatever `is_train` is. -/
def withCpuR (layer : RLayer) : RLayer := fun _ P X k => layer true P X k

/-- The layers from the `i`-th on, each called with the output of the one before: the loop in thinc/layers/chain.py:53-56. -/
def chainCalls : Nat → Nat → Val → List Callback → CallTree
  | 0, _, X, callbacks => .done (.ok (X, fun dY G => forM' callbacks.reverse (dY, G) (fun (dY, G) callback => callback dY G)))
  | n + 1, i, X, callbacks => .call i X fun r => chainCalls n (i + 1) r.1 (callbacks ++ [r.2])

/-- thinc/layers/chain.py:48-66 `forward` -/
def chainTree (n : Nat) (X : Val) : CallTree :=
  if n = 0 then .done (.error .unboundLocalError) else chainCalls n 0 X []

/-- The loop in thinc/layers/add.py:37-40: the next layer is called only after the outputs so far have been added. -/
noncomputable def addCalls (X : Val) (first : Callback) : Nat → Nat → Val → List Callback → CallTree
  | 0, _, Y, callbacks => .done (.ok (Y, fun dY G => do
      let (dX, G) ← first dY G
      forM' callbacks (dX, G) (addBackwardStep dY)))
  | n + 1, i, Y, callbacks => .call i X fun r =>
    match Y.iadd r.1 with
    | .ok Y => addCalls X first n (i + 1) Y (callbacks ++ [r.2])
    | .error e => .done (.error e)

/-- thinc/layers/add.py:32-49 `forward` -/
noncomputable def addTree (n : Nat) (X : Val) : CallTree :=
  match n with
  | 0 => .done (.ok (X, fun dY G => .ok (dY, G)))
  | n + 1 => .call 0 X fun r => addCalls X r.2 n 1 r.1 []

/-- Some layers are called with given inputs, then `next` goes on with all the results. -/
def callAll (next : List (Val × Callback) → CallTree) : List (Nat × Val) → List (Val × Callback) → CallTree
  | [], results => next results
  | (i, x) :: calls, results => .call i x fun r => callAll next calls (results ++ [r])

/-- thinc/layers/concatenate.py:56-66 `forward` -/
noncomputable def concatenateTree (n : Nat) (X : Val) : CallTree :=
  callAll (fun outs => .done (concatOutputs X (outs.map Prod.fst) (outs.map Prod.snd))) ((List.range n).map fun i => (i, X)) []

/-- thinc/layers/tuplify.py:32-47 `tuplify_forward` -/
noncomputable def tuplifyTree (n : Nat) (X : Val) : CallTree :=
  callAll (fun outs => .done (tuplify (outs.map fun r _ _ _ => .ok r) true (fun _ => Mat.zeros 0 0) X)) ((List.range n).map fun i => (i, X)) []

/-- thinc/layers/map_list.py:14-29 `forward`: one layer is called for every member of the list. -/
def mapListTree (_ : Nat) (Xs : Val) : CallTree :=
  match Xs.items with
  | .error e => .done (.error e)
  | .ok Xs => callAll (fun outs => .done (.ok (.list (outs.map Prod.fst), fun dYs G => do
      let (dXs, G) ← runCallbacks (outs.map Prod.snd) (← dYs.items) G
      return (.list dXs, G)))) (Xs.map fun X => (0, X)) []

/-- thinc/layers/siamese.py:27-42 `forward`: the first layer is called twice. -/
def siameseTree (_ : Nat) (X1X2 : Val) : CallTree :=
  match X1X2.unpack2 with
  | .error e => .done (.error e)
  | .ok (X1, X2) => .call 0 X1 fun r1 => .call 0 X2 fun r2 => .call 1 (.tup [r1.1, r2.1]) fun r =>
    .done (.ok (r.1, fun dOutput G => do
      let (dVecs, G) ← r.2 dOutput G
      let (dVec1, dVec2) ← dVecs.unpack2
      let (dInput1, G) ← r1.2 dVec1 G
      let (dInput2, G) ← r2.2 dVec2 G
      return (.tup [dInput1, dInput2], G)))

/-- A wrapper that converts its input by `arg` and calls its layer once: what it does with the output is what `wrap` does with a layer
that returns this output. -/
def wrapperTree (arg : Val → Except PyErr Val) (wrap : Layer → Layer) (_ : Nat) (X : Val) : CallTree :=
  match arg X with
  | .error e => .done (.error e)
  | .ok x => .call 0 x fun r => .done (wrap (fun _ _ _ => .ok r) true (fun _ => Mat.zeros 0 0) X)

/-! ### Predicting and training -/

/-- What a user does with a model while training it. -/
inductive RCall where
  /-- `model.predict(X)`, thinc/model.py:323-328 -/
  | predict (X : Val)
  /-- `Y, backprop = model.begin_update(X)`, thinc/model.py:312-321 -/
  | beginUpdate (X : Val)
  /-- `backprop(dY)` for the `i`-th callback since the last update -/
  | backprop (i : Nat) (dY : Val)
  /-- `model.finish_update(optimizer)`, thinc/model.py:330-349 -/
  | finishUpdate

/-- Is this a prediction? -/
def RCall.isPredict : RCall → Bool
  | .predict _ => true
  | _ => false

/-- The model, its optimizer (whose state is a `σ`) and the generator. -/
structure RState (σ : Type) where
  optimizer : σ
  params : ParamVals
  grads : GradStore
  /-- the callbacks returned since the last update -/
  callbacks : List Callback
  drawn : Nat

/-- One call: the new state and what the user gets, if it is a value or an exception.  The optimizer is any function of its state, the
parameters and the gradients.  (A raised exception leaves the gradients as they were before the call.) -/
def RState.step {σ : Type} (update : σ → ParamVals → GradStore → σ × ParamVals × GradStore) (model : RLayer) (s : RState σ) :
    RCall → RState σ × Except PyErr (Option Val)
  | .predict X =>
    let (r, k) := model false s.params X s.drawn
    ({ s with drawn := k }, r.map fun p => some p.1)
  | .beginUpdate X =>
    let (r, k) := model true s.params X s.drawn
    match r with
    | .ok (Y, callback) => ({ s with callbacks := s.callbacks ++ [callback], drawn := k }, .ok (some Y))
    | .error e => ({ s with drawn := k }, .error e)
  | .backprop i dY =>
    match s.callbacks[i]? with
    | none => (s, .error .indexError)
    | some callback =>
      match callback dY s.grads with
      | .ok (dX, G) => ({ s with grads := G }, .ok (some dX))
      | .error e => (s, .error e)
  | .finishUpdate =>
    let (o, P, G) := update s.optimizer s.params s.grads
    ({ s with optimizer := o, params := P, grads := G, callbacks := [] }, .ok none)

/-- A history: the final state and, for every call, the call and what the user got. -/
def RState.run {σ : Type} (update : σ → ParamVals → GradStore → σ × ParamVals × GradStore) (model : RLayer) :
    RState σ → List RCall → RState σ × List (RCall × Except PyErr (Option Val))
  | s, [] => (s, [])
  | s, c :: cs =>
    let (s', r) := s.step update model c
    let (s'', rs) := RState.run update model s' cs
    (s'', (c, r) :: rs)

end Thinc.Random
