import Verif.Model.TorchShim
/-!
# What a user expects of a wrapped PyTorch model
-/
namespace Thinc.Torch

/-- A tensor whose entries are all finite. -/
def fin (g : List ℝ) : Tensor := g.map some

/-- Entrywise sum and multiple. -/
noncomputable def addV (a b : List ℝ) : List ℝ := List.zipWith (· + ·) a b
noncomputable def scaleV (r : ℝ) (a : List ℝ) : List ℝ := a.map (r * ·)

/-- One batch: the backward pass torch recorded for it, the gradient of its output, and the true
gradients with respect to the parameters (by position) and the inputs. -/
structure Batch where
  auto : Autograd
  dY : ScaleArg
  grad : Nat → List ℝ
  dX : List (List ℝ)

/-- The factor the scaler puts on gradients. -/
noncomputable def Scaler.factor (s : Scaler) : ℝ := if s.enabled then s.scale else 1

/-- Torch computes, without overflow, `factor` times the true gradients from `factor` times the
gradient of the output. -/
def Batch.Exact (b : Batch) (s : Scaler) (hasAmp : Bool) (n : Nat) : Prop :=
  ∃ ts, s.scaleUp hasAmp b.dY = .ok ts ∧
    b.auto ts = ((List.range n).map (fun i => some (fin (scaleV s.factor (b.grad i)))),
      b.dX.map (fun g => some (fin (scaleV s.factor g))))

/-- The backward passes of several batches, one after the other, without an update in between. -/
noncomputable def backprops (hasAmp : Bool) : List Batch → Shim → Except PyErr Shim
  | [], sh => .ok sh
  | b :: bs, sh => do
    let r ← sh.backprop hasAmp b.auto b.dY
    backprops hasAmp bs r.1

/-- The sum of the gradients of the batches for parameter `i`, which has `len` entries. -/
noncomputable def totalGrad (bs : List Batch) (i len : Nat) : List ℝ :=
  bs.foldl (fun acc b => addV acc (b.grad i)) (List.replicate len 0)

/-- An optimizer applied once to every parameter, in order. -/
def stepAll {σ : Type} (opt : OptStep σ) (id : Nat) : σ → List (Nat × Tensor × Tensor) → σ × List Tensor
  | st, [] => (st, [])
  | st, (name, data, g) :: rest =>
    let r := opt st (id, name) data g
    let r' := stepAll opt id r.1 rest
    (r'.1, r.2 :: r'.2)

/-- The shim between two updates: gradients absent or zero, no overflow on record. -/
def Shim.Clean (sh : Shim) (len : Nat → Nat) : Prop :=
  sh.scaler.foundInf = false ∧ 0 < sh.scaler.scale ∧
    ∀ i (hi : i < sh.params.length), sh.params[i].grad = none ∨
      sh.params[i].grad = some (fin (List.replicate (len i) 0))

/-- What happens to a scaler: gradients to unscale and check, or the end of an update. -/
inductive ScalerEvent where
  | unscale (ts : List Tensor)
  | update

noncomputable def Scaler.event (s : Scaler) : ScalerEvent → Scaler
  | .unscale ts => (s.unscale ts).1
  | .update => s.update

noncomputable def Scaler.run (s : Scaler) (es : List ScalerEvent) : Scaler := es.foldl Scaler.event s

/-- For every update of a history, whether a gradient that was not finite came in since the update
before it (`seen`: whether one is outstanding at the start). -/
def overflows (seen : Bool) : List ScalerEvent → List Bool
  | [] => []
  | .unscale ts :: es => overflows (seen || !(ts.all allFinite)) es
  | .update :: es => seen :: overflows false es

/-- The backward pass of the batch can be started, every gradient torch adds has the shape of its parameter (`len i` entries), and there is one entry for each parameter. -/
def Batch.Fits (b : Batch) (s : Scaler) (hasAmp : Bool) (n : Nat) (len : Nat → Nat) : Prop :=
  ∃ ts, s.scaleUp hasAmp b.dY = .ok ts ∧ (b.auto ts).1.length = n ∧ ∀ (i : Nat) t, (b.auto ts).1[i]? = some (some t) → t.length = len i

/-- In the backward pass of this batch torch gets a gradient that is not finite, of a parameter or of an input. -/
def Batch.Overflows (b : Batch) (s : Scaler) (hasAmp : Bool) : Prop :=
  ∃ ts, s.scaleUp hasAmp b.dY = .ok ts ∧ ∃ t, (some t ∈ (b.auto ts).1 ∨ some t ∈ (b.auto ts).2) ∧ allFinite t = false

/-- The gradients that are there have the shape of their parameter. -/
def Shim.Shaped (sh : Shim) (len : Nat → Nat) : Prop :=
  ∀ i (hi : i < sh.params.length) g, sh.params[i].grad = some g → g.length = len i

end Thinc.Torch
