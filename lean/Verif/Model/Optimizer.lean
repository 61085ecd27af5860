import Mathlib.Analysis.SpecialFunctions.Pow.Real
import Verif.Model.Py
/-!
# Model of `thinc/optimizers.py: Optimizer` and of the array operations it uses

Arrays are flat lists of reals (`ravel` order).  Weights and gradient of one call are assumed to
have the same shape, so that the elementwise operations do not broadcast.  The in-place updates of
the two argument arrays are modelled by returning their final contents, also when the call raises.
-/
namespace Thinc

/-- A float array, flattened. -/
abbrev Vec := List ℝ

/-- `xp.linalg.norm(a)` (of the flattened array). -/
noncomputable def Vec.norm (v : Vec) : ℝ := Real.sqrt ((v.map fun x => x ^ 2).sum)

/-- thinc/backends/ops.py:1207-1213 `Ops.clip_gradient`. -/
noncomputable def clipGradient (g : Vec) (threshold : ℝ) : Vec :=
  if g.norm ≥ threshold then g.map fun x => x * (threshold / g.norm) else g

/-- thinc/backends/ops.py:1172-1179 `Ops.update_averages` with the default `max_decay = 0.9999`:
the decay at update number `t`. -/
noncomputable def avgDecay (t : Nat) : ℝ :=
  let decay := (1 + (t : ℝ)) / (10 + (t : ℝ))
  if decay > 0.9999 then 0.9999 else decay

/-- thinc/backends/ops.py:1172-1179 `Ops.update_averages`: the new contents of `ema`. -/
noncomputable def updateAverages (ema weights : Vec) (t : Nat) : Vec :=
  List.zipWith (fun e w => e - (1 - avgDecay t) * (e - w)) ema weights

/-- thinc/backends/ops.py:1181-1205 `Ops.adam` with the default `mod_rate = 1`.  Returns the new
weights, mom1 and mom2; the shape checks raise ValueError.  (The gradient is left unchanged here;
`NumpyOps.adam` zeroes it, see `numpyAdam`, and the caller zeroes it in any case.) -/
noncomputable def adam (w g m1 m2 : Vec) (b1 b2 eps lr : ℝ) : Except PyErr (Vec × Vec × Vec) :=
  if w.length ≠ g.length ∨ w.length ≠ m1.length ∨ w.length ≠ m2.length then .error .valueError
  else
    let m1 := List.zipWith (fun m x => m * b1 + x * (1 - b1)) m1 g
    let m2 := List.zipWith (fun m x => m * b2 + x * x * (1 - b2)) m2 g
    .ok (List.zipWith (fun x d => x - lr * d) w
      (List.zipWith (fun a b => a / (1 * Real.sqrt b + eps)) m1 m2), m1, m2)

/-! ### The optimizer -/

/-- The hyperparameters of an `Optimizer` (thinc/optimizers.py:142-194).  A schedule is modelled by
its value at `(step, key, last_score)`; that schedules which keep state have such values too is
what C22 and C27 are about. -/
structure OptCfg (κ : Type) where
  learnRate : Nat → κ → Option (Nat × ℝ) → ℝ
  b1 : Nat → κ → Option (Nat × ℝ) → ℝ
  b2 : Nat → κ → Option (Nat × ℝ) → ℝ
  eps : Nat → κ → Option (Nat × ℝ) → ℝ
  L2 : Nat → κ → Option (Nat × ℝ) → ℝ
  gradClip : Nat → κ → Option (Nat × ℝ) → ℝ
  useRadam : Bool
  L2IsWeightDecay : Bool

/-- The mutable state of an `Optimizer` (thinc/optimizers.py:172-194).  `radamBuffer i` is slot `i`
of `_radam_buffer`: `(step, N_sma, step_size)`, `none` while the slot is `[None, None, None]`. -/
structure OptState (κ : Type) where
  step : Nat
  lastScore : Option (Nat × ℝ)
  mom1 : PyDict κ Vec
  mom2 : PyDict κ Vec
  averages : Option (PyDict κ Vec)
  nrUpdate : PyDict κ Nat
  radamBuffer : Nat → Option (Nat × ℝ × ℝ)

/-- thinc/optimizers.py:172-194 `Optimizer.__init__`: the initial state. -/
def OptState.init {κ : Type} (useAverages : Bool) : OptState κ :=
  ⟨0, none, [], [], if useAverages then some [] else none, [], fun _ => none⟩

/-- What a call leaves in the two arrays, and the exception it raised, if any. -/
structure CallRes where
  weights : Vec
  gradient : Vec
  exc : Option PyErr

section
variable {κ : Type} [DecidableEq κ]

/-- `if key not in d: d[key] = ops.alloc1f(n)`, then `d[key]`. -/
def allocMissing (d : PyDict κ Vec) (key : κ) (n : Nat) : PyDict κ Vec × Vec :=
  match d.get? key with
  | some v => (d, v)
  | none => (d.set key (List.replicate n 0), List.replicate n 0)

/-- thinc/optimizers.py:325-333: `N_sma` at a step. -/
noncomputable def radamNsma (beta2 : ℝ) (step : Nat) : ℝ :=
  let nMax := 2 / (1 - beta2) - 1
  nMax - 2 * (step : ℝ) * beta2 ^ step / (1 - beta2 ^ step)

/-- thinc/optimizers.py:335-349: the step size at a step (`degenerated_to_sgd` is always True).
`math.sqrt` of a negative number and division by zero are not modelled. -/
noncomputable def radamStepSize (beta1 beta2 : ℝ) (step : Nat) : ℝ :=
  let nMax := 2 / (1 - beta2) - 1
  let n := radamNsma beta2 step
  if n ≥ 5 then
    Real.sqrt ((1 - beta2 ^ step) * (n - 4) / (nMax - 4) * (n - 2) / n * nMax / (nMax - 2))
      / (1 - beta1 ^ step)
  else 1 / (1 - beta1 ^ step)

/-- thinc/optimizers.py:319-350: read slot `step % 10` of the buffer, or compute and store. -/
noncomputable def radamBuffered (buf : Nat → Option (Nat × ℝ × ℝ)) (beta1 beta2 : ℝ) (step : Nat) :
    (Nat → Option (Nat × ℝ × ℝ)) × ℝ × ℝ :=
  let compute := (Function.update buf (step % 10)
      (some (step, radamNsma beta2 step, radamStepSize beta1 beta2 step)),
    radamNsma beta2 step, radamStepSize beta1 beta2 step)
  match buf (step % 10) with
  | some (s, n, z) => if step = s then (buf, n, z) else compute
  | none => compute

/-- thinc/optimizers.py:285-366 `Optimizer._radam` (`weight_decay` is always 0 here; the moments
are updated in place).  Returns the new state and weights. -/
noncomputable def radam (cfg : OptCfg κ) (st : OptState κ) (key : κ) (w g : Vec) : OptState κ × Vec :=
  let (mom1, expAvg) := allocMissing st.mom1 key w.length
  let (mom2, expAvgSq) := allocMissing st.mom2 key w.length
  let lr := cfg.learnRate st.step key st.lastScore
  let beta1 := cfg.b1 st.step key st.lastScore
  let beta2 := cfg.b2 st.step key st.lastScore
  let eps := cfg.eps st.step key st.lastScore
  let expAvgSq := List.zipWith (fun m x => m * beta2 + (1 - beta2) * x ^ 2) expAvgSq g
  let expAvg := List.zipWith (fun m x => m * beta1 + (1 - beta1) * x) expAvg g
  let step := (st.nrUpdate.get? key).getD 0 + 1
  let (buf, nsma, stepSize) := radamBuffered st.radamBuffer beta1 beta2 step
  let w' :=
    if nsma ≥ 5 then
      List.zipWith (fun x d => x + -stepSize * lr * d) w
        (List.zipWith (fun a b => a / (Real.sqrt b + eps)) expAvg expAvgSq)
    else if stepSize > 0 then
      List.zipWith (fun x d => x + -stepSize * lr * d) w expAvg
    else w
  (⟨st.step, st.lastScore, mom1.set key expAvg, mom2.set key expAvgSq, st.averages, st.nrUpdate,
    buf⟩, w')

/-- thinc/optimizers.py:368-396 `Optimizer._adam`. -/
noncomputable def adamUpdate (cfg : OptCfg κ) (st : OptState κ) (key : κ) (w g : Vec)
    (lrScale : ℝ) (nrUpd : Nat) : OptState κ × Except PyErr Vec :=
  let (mom1, m1) := allocMissing st.mom1 key w.length
  let (mom2, m2) := allocMissing st.mom2 key w.length
  let b1 := cfg.b1 st.step key st.lastScore
  let b2 := cfg.b2 st.step key st.lastScore
  let fix1 := 1 - b1 ^ nrUpd
  let fix2 := 1 - b2 ^ nrUpd
  let lr := cfg.learnRate st.step key st.lastScore * Real.sqrt fix2 / fix1
  let eps := cfg.eps st.step key st.lastScore
  match adam w g m1 m2 b1 b2 eps (lr * lrScale) with
  | .error e => ({ st with mom1 := mom1, mom2 := mom2 }, .error e)
  | .ok (w', m1', m2') =>
    ({ st with mom1 := mom1.set key m1', mom2 := mom2.set key m2' }, .ok w')

/-- thinc/optimizers.py:250-256: the gradient after L2 regularisation and clipping. -/
noncomputable def regularised (cfg : OptCfg κ) (st : OptState κ) (key : κ) (w g : Vec) : Vec :=
  let l2 := cfg.L2 st.step key st.lastScore
  let clip := cfg.gradClip st.step key st.lastScore
  let g := if l2 ≠ 0 ∧ ¬ cfg.L2IsWeightDecay then List.zipWith (fun x y => x + l2 * y) g w else g
  if clip ≠ 0 then clipGradient g clip else g

/-- thinc/optimizers.py:272-284: zero the gradient, decay the weights, update the averages. -/
noncomputable def finishCall (cfg : OptCfg κ) (st : OptState κ) (key : κ) (w g : Vec)
    (lrScale : ℝ) (nrUpd : Nat) : OptState κ × CallRes :=
  let g := g.map fun x => x * 0
  let l2 := cfg.L2 st.step key st.lastScore
  let lr := cfg.learnRate st.step key st.lastScore
  let w := if l2 ≠ 0 ∧ cfg.L2IsWeightDecay then w.map fun x => x - lrScale * lr * l2 * x else w
  match st.averages with
  | none => (st, ⟨w, g, none⟩)
  | some avgs =>
    let (avgs, ema) := allocMissing avgs key w.length
    ({ st with averages := some (avgs.set key (updateAverages ema w nrUpd)) }, ⟨w, g, none⟩)

/-- thinc/optimizers.py:250-284: the part of `Optimizer.__call__` after counting the update. -/
noncomputable def callBody (cfg : OptCfg κ) (st : OptState κ) (key : κ) (w g : Vec)
    (lrScale : ℝ) (nrUpd : Nat) : OptState κ × CallRes :=
  let g := regularised cfg st key w g
  if cfg.useRadam then
    let (st, w') := radam cfg st key w g
    finishCall cfg st key w' g lrScale nrUpd
  else if cfg.b1 st.step key st.lastScore > 0 ∧ cfg.b2 st.step key st.lastScore > 0 then
    match adamUpdate cfg st key w g lrScale nrUpd with
    | (st, .error e) => (st, ⟨w, g, some e⟩)
    | (st, .ok w') => finishCall cfg st key w' g lrScale nrUpd
  else if cfg.b2 st.step key st.lastScore > 0 then (st, ⟨w, g, some .notImplementedError⟩)
  else
    let lr := cfg.learnRate st.step key st.lastScore
    finishCall cfg st key (List.zipWith (fun x y => x - lrScale * lr * y) w g) g lrScale nrUpd

/-- thinc/optimizers.py:230-284 `Optimizer.__call__`.  `rows` is `len(gradient)`. -/
noncomputable def OptState.call (cfg : OptCfg κ) (st : OptState κ) (key : κ) (rows : Nat)
    (w g : Vec) (lrScale : ℝ) : OptState κ × CallRes :=
  if rows < 1 then (st, ⟨w, g, none⟩)
  else
    let nrUpd := (st.nrUpdate.get? key).getD 0 + 1
    callBody cfg { st with nrUpdate := st.nrUpdate.set key nrUpd } key w g lrScale nrUpd

/-- What a user does with an optimizer. -/
inductive OptEvent (κ : Type) where
  /-- `optimizer(key, weights, gradient, lr_scale=...)` -/
  | call (key : κ) (rows : Nat) (w g : Vec) (lrScale : ℝ)
  /-- `optimizer.step_schedules()` (thinc/optimizers.py:210-211) -/
  | stepSchedules
  /-- `optimizer.last_score = x` (thinc/optimizers.py:217-219) -/
  | setScore (x : ℝ)

/-- The record of one call: where the schedules were, its arguments and its result. -/
structure CallRec (κ : Type) where
  step : Nat
  lastScore : Option (Nat × ℝ)
  key : κ
  rows : Nat
  w : Vec
  g : Vec
  lrScale : ℝ
  res : CallRes

/-- One event: the new state, and the record if it was a call. -/
noncomputable def OptState.event (cfg : OptCfg κ) (st : OptState κ) :
    OptEvent κ → OptState κ × Option (CallRec κ)
  | .call key rows w g lrScale =>
    let (st', res) := st.call cfg key rows w g lrScale
    (st', some ⟨st.step, st.lastScore, key, rows, w, g, lrScale, res⟩)
  | .stepSchedules => ({ st with step := st.step + 1 }, none)
  | .setScore x => ({ st with lastScore := some (st.step, x) }, none)

/-- A history of events: the final state and the records of the calls. -/
noncomputable def OptState.run (cfg : OptCfg κ) : OptState κ → List (OptEvent κ) →
    OptState κ × List (CallRec κ)
  | st, [] => (st, [])
  | st, e :: es =>
    let (st', r) := st.event cfg e
    let (st'', rs) := OptState.run cfg st' es
    (st'', r.toList ++ rs)

end

/-! ### The fused CPU kernel -/

/-- Three float buffers, addressed by index. -/
structure AdamMem where
  grad : Nat → ℝ
  mom1 : Nat → ℝ
  mom2 : Nat → ℝ

/-- thinc/backends/numpy_ops.pyx:617-632: one block of `_adam_momentum`, starting at offset `off`
(the pointers have been advanced by `off`), of `size` elements.  The C loops over the block are
modelled as one simultaneous update, since every iteration only touches its own index. -/
noncomputable def adamBlock (b1 b2 eps : ℝ) (off size : Nat) (m : AdamMem) : AdamMem :=
  let inBlock (i : Nat) : Prop := off ≤ i ∧ i < off + size
  let m1 i := (open Classical in if inBlock i then b1 * m.mom1 i + (1 - b1) * m.grad i else m.mom1 i)
  let m2 i := (open Classical in if inBlock i then b2 * m.mom2 i + (1 - b2) * m.grad i ^ 2 else m.mom2 i)
  ⟨fun i => (open Classical in if inBlock i then m1 i / (Real.sqrt (m2 i) + eps) else m.grad i), m1, m2⟩

/-- thinc/backends/numpy_ops.pyx:616-635: the loop over blocks; `idx` is the running offset. -/
noncomputable def adamBlocks (b1 b2 eps : ℝ) (n : Nat) : Nat → Nat → AdamMem → AdamMem
  | 0, _, m => m
  | steps + 1, idx, m =>
    let size := min 64 (n - idx)
    adamBlocks b1 b2 eps n steps (idx + size) (adamBlock b1 b2 eps idx size m)

/-- thinc/backends/numpy_ops.pyx:599-635 `_adam_momentum`. -/
noncomputable def adamMomentum (b1 b2 eps : ℝ) (n : Nat) (m : AdamMem) : AdamMem :=
  let steps := n / 64
  let steps := if steps * 64 < n then steps + 1 else steps
  adamBlocks b1 b2 eps n steps 0 m

/-- thinc/backends/numpy_ops.pyx:521-536 `NumpyOps.adam` on buffers of `n` elements: the kernel,
then `weights -= learn_rate * gradient` (saxpy), then the gradient is cleared. -/
noncomputable def numpyAdam (b1 b2 eps lr : ℝ) (n : Nat) (w : Nat → ℝ) (m : AdamMem) :
    (Nat → ℝ) × AdamMem :=
  let m' := adamMomentum b1 b2 eps n m
  (fun i => if i < n then w i + -lr * m'.grad i else w i,
   { m' with grad := fun i => if i < n then 0 else m'.grad i })

end Thinc
