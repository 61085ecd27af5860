import Mathlib.Analysis.SpecialFunctions.Pow.Real
import Mathlib.Algebra.Order.Floor.Ring
import Verif.Model.Py
/-!
# Model of `thinc/schedules.py` and of the generator-backed schedules in `thinc/optimizers.py`

Floating point numbers are modelled by an ordered field `K` (the reals or the rationals): rounding,
infinities and NaN are not modelled.  Division by zero is an explicit exception.
-/
namespace Thinc

/-- Python float division: `a / b`, raising ZeroDivisionError. -/
def pyDiv {K : Type} [Div K] [Zero K] [DecidableEq K] (a b : K) : Except PyErr K :=
  if b = 0 then .error .zeroDivisionError else .ok (a / b)

/-- thinc/schedules.py:13-33 `class Schedule`: a wrapped function of the step and of the extra
keyword arguments (`key`, `last_score`; here one value of type `E`).  `attrs` are the closed-over
arguments of the constructors below.  Schedules that keep mutable state in `attrs` (plateau and
wrapped generators) are modelled separately as state machines. -/
structure Schedule (E α : Type) where
  run : Int → E → Except PyErr α

namespace Schedule
variable {E α : Type}

/-- thinc/schedules.py:34-40 `Schedule.__call__`. -/
def call (s : Schedule E α) (step : Int) (extra : E) : Except PyErr α :=
  if step < 0 then .error .valueError else s.run step extra

/-- The state of a generator made by `to_generator` (thinc/schedules.py:62-66): the next value of
`itertools.count(start, step_size)`, or `none` once the generator has been closed by an
exception that escaped from its body. -/
structure Gen (E α : Type) where
  sched : Schedule E α
  extra : E
  stepSize : Int
  next : Option Int

/-- thinc/schedules.py:47-66 `Schedule.to_generator`. -/
def toGenerator (s : Schedule E α) (start stepSize : Int) (extra : E) : Except PyErr (Gen E α) :=
  if start < 0 then .error .valueError
  else if stepSize < 0 then .error .valueError
  else .ok ⟨s, extra, stepSize, some start⟩

/-- thinc/schedules.py:62-64: one `next()` of the generator. An exception raised by the schedule
propagates and closes the generator. -/
def Gen.step (g : Gen E α) : Except PyErr α × Gen E α :=
  match g.next with
  | none => (.error .stopIteration, g)
  | some n => match g.sched.call n g.extra with
    | .ok v => (.ok v, { g with next := some (n + g.stepSize) })
    | .error e => (.error e, { g with next := none })

/-- `k` calls of `next()`, then one more: its result. -/
def Gen.nth (g : Gen E α) : Nat → Except PyErr α
  | 0 => g.step.1
  | k + 1 => g.step.2.nth k

end Schedule

section
variable {E α : Type}

/-- thinc/schedules.py:90-98 `constant`, `_constant_schedule`. -/
def constant (rate : α) : Schedule E α := ⟨fun _ _ => .ok rate⟩

/-- thinc/schedules.py:69-87 `constant_then`, `_constant_then_schedule`: the inner schedule is
called with the same step. -/
def constantThen (rate : α) (steps : Int) (inner : Schedule E α) : Schedule E α :=
  ⟨fun step extra => if step < steps then .ok rate else inner.call step extra⟩

end

section
variable {E K : Type} [Field K] [LinearOrder K] [FloorRing K]

/-- thinc/schedules.py:101-124 `decaying`, `_decaying_schedule`. -/
def decaying (baseRate decay t : K) : Schedule E K :=
  ⟨fun step _ => do
    let q ← pyDiv 1 (1 + decay * ((step : K) + t))
    return baseRate * q⟩

/-- thinc/schedules.py:156-157 `_clip`. -/
def clipTo (value start stop : K) : K :=
  if start > stop then max value stop else min value stop

/-- thinc/schedules.py:263-301 `slanted_triangular`, `_slanted_triangular_schedule`.
`int(num_steps * cut_frac)` truncates; for the non-negative arguments meant here it is the floor,
and negative arguments are not modelled faithfully. -/
def slantedTriangular (maxRate : K) (numSteps : Int) (cutFrac : K) (ratio : Int) (t : K) :
    Schedule E K :=
  let cut : Int := ⌊(numSteps : K) * cutFrac⌋
  ⟨fun step _ => do
    let tStep : K := (step : K) + t + 1
    let p ← (if tStep < (cut : K) then pyDiv tStep (cut : K)
      else do
        let c ← pyDiv 1 cutFrac
        let q ← pyDiv (tStep - (cut : K)) ((cut : K) * (c - 1))
        return 1 - q)
    let r ← pyDiv 1 (ratio : K)
    return maxRate * (1 + p * ((ratio : K) - 1)) * r⟩

/-- thinc/schedules.py:304-331 `warmup_linear`, `_warmup_linear_schedule`. -/
def warmupLinear (initialRate : K) (warmupSteps totalSteps : Int) : Schedule E K :=
  ⟨fun step _ => do
    let factor ← (if step < warmupSteps then pyDiv (step : K) ((max 1 warmupSteps : Int) : K)
      else do
        let q ← pyDiv (((totalSteps - step : Int)) : K) (max 1 ((totalSteps - warmupSteps : Int) : K))
        return max 0 q)
    return factor * initialRate⟩

/-- thinc/schedules.py:334-354 `cyclic_triangular`, `_cyclic_triangular_schedule`. -/
def cyclicTriangular (minLr maxLr : K) (period : Int) : Schedule E K :=
  ⟨fun step _ => do
    let it : Int := step + 1
    let q ← pyDiv (it : K) ((2 * period : Int) : K)
    let cycle : Int := ⌊1 + q⌋
    let r ← pyDiv (it : K) (period : K)
    let x := |r - 2 * (cycle : K) + 1|
    let relative := max 0 (1 - x)
    return minLr + (maxLr - minLr) * relative⟩

end

/-- thinc/schedules.py:127-153 `compounding`, `_compounding_schedule`. `**` is the real power,
which is Python's float power for a positive base (other bases are not modelled). -/
noncomputable def compounding {E : Type} (start stop compound t : ℝ) : Schedule E ℝ :=
  ⟨fun step _ => .ok (clipTo (start * compound ^ ((step : ℝ) + t)) start stop)⟩

/-! ### plateau -/

section
variable {K : Type} [Field K] [LinearOrder K]

/-- thinc/schedules.py:240-260 `_PlateauState`. -/
structure PlateauState (K : Type) where
  bestScore : Option K
  lastScoreStep : Option Int
  patience : Int
  nPlateaus : Nat

/-- thinc/schedules.py:178-188: the state in a new plateau schedule. -/
def PlateauState.init : PlateauState K := ⟨none, none, 0, 0⟩

/-- thinc/schedules.py:209-233: the state update of `_plateau_schedule` for a given score. -/
def plateauUpdate (maxPatience : Int) (st : PlateauState K) (lastScoreStep : Int) (lastScore : K) :
    Except PyErr (PlateauState K) :=
  match st.bestScore, st.lastScoreStep with
  | none, _ | _, none => .ok ⟨some lastScore, some lastScoreStep, 0, st.nPlateaus⟩
  | some best, some lastStep =>
    if lastScore > best then .ok ⟨some lastScore, some lastScoreStep, 0, st.nPlateaus⟩
    else if lastScoreStep < lastStep then .error .valueError
    else if lastScoreStep > lastStep then
      if st.patience + 1 = maxPatience then
        .ok ⟨some best, some lastScoreStep, 0, st.nPlateaus + 1⟩
      else .ok ⟨some best, some lastScoreStep, st.patience + 1, st.nPlateaus⟩
    else .ok ⟨some best, some lastScoreStep, st.patience, st.nPlateaus⟩

/-- thinc/schedules.py:34-40 and 192-237: one call `schedule(step, last_score=...)` of a plateau
schedule.  The state changes even when the inner schedule then raises. -/
def plateauCall (maxPatience : Int) (scale : K) (inner : Schedule (Option (Int × K)) K)
    (st : PlateauState K) (step : Int) (lastScore : Option (Int × K)) :
    PlateauState K × Except PyErr K :=
  if step < 0 then (st, .error .valueError)
  else match lastScore with
  | none => (st, do return scale ^ st.nPlateaus * (← inner.call step none))
  | some (s, x) => match plateauUpdate maxPatience st s x with
    | .error e => (st, .error e)
    | .ok st' => (st', do return scale ^ st'.nPlateaus * (← inner.call step (some (s, x))))

/-- A history of calls of one plateau schedule: the final state and the results. -/
def plateauRun (maxPatience : Int) (scale : K) (inner : Schedule (Option (Int × K)) K) :
    PlateauState K → List (Int × Option (Int × K)) → PlateauState K × List (Except PyErr K)
  | st, [] => (st, [])
  | st, (step, sc) :: qs =>
    let (st', r) := plateauCall maxPatience scale inner st step sc
    let (st'', rs) := plateauRun maxPatience scale inner st' qs
    (st'', r :: rs)

end

/-! ### Schedules wrapped around generators -/

section
variable {α : Type}

/-- A Python generator (or list iterator): the sequence of values that it will still produce.
`next?` is `none` when the next `next()` raises StopIteration.  An infinite generator is one whose
`next?` is never `none`. -/
structure PyGen (α : Type) where
  val : Nat → Option α
  pos : Nat

/-- `next(generator)`. -/
def PyGen.next (g : PyGen α) : Option α × PyGen α :=
  match g.val g.pos with
  | some v => (some v, { g with pos := g.pos + 1 })
  | none => (none, g)

/-- The mutable `attrs` of a wrapped generator schedule (thinc/optimizers.py:398-413). -/
structure WrapState (α : Type) where
  lastStep : Int
  lastValue : α
  gen : PyGen α

/-- thinc/optimizers.py:398-413 `_wrap_generator`.  `itertools.chain([peek], generator)` puts the
peeked value back in front, that is, rewinds the generator by the one value taken. -/
def wrapGenerator (g : PyGen α) : Except PyErr (WrapState α) :=
  match g.next with
  | (none, _) => .error .valueError
  | (some peek, _) => .ok ⟨-1, peek, g⟩

/-- thinc/optimizers.py:429-436: `for i in range(n)`: advance, stopping when exhausted. -/
def advance : Nat → α → PyGen α → α × PyGen α
  | 0, value, g => (value, g)
  | n + 1, value, g => match g.next with
    | (some v, g') => advance n v g'
    | (none, g') => (value, g')

/-- thinc/schedules.py:34-40 and thinc/optimizers.py:416-442 `_wrap_generator_schedule`: one call
of the schedule. -/
def wrapCall (w : WrapState α) (step : Int) : WrapState α × Except PyErr α :=
  if step < 0 then (w, .error .valueError)
  else if step < w.lastStep then (w, .error .valueError)
  else
    let (v, g) := advance (step - w.lastStep).toNat w.lastValue w.gen
    (⟨step, v, g⟩, .ok v)

/-- A history of calls of one wrapped generator. -/
def wrapRun : WrapState α → List Int → WrapState α × List (Except PyErr α)
  | w, [] => (w, [])
  | w, s :: ss =>
    let (w', r) := wrapCall w s
    let (w'', rs) := wrapRun w' ss
    (w'', r :: rs)

/-- thinc/optimizers.py:196-208 `Optimizer._set_attr_or_schedule`: the accepted kinds of value. -/
inductive HyperArg (E α : Type) where
  | number (v : α)
  | list (vs : List α)
  | generator (g : PyGen α)
  | schedule (s : Schedule E α)
  | other

/-- The schedule stored on the optimizer: stateless, or wrapping a generator. -/
inductive Hyper (E α : Type) where
  | plain (s : Schedule E α)
  | wrapped (w : WrapState α)

/-- `iter(list)`. -/
def PyGen.ofList (vs : List α) : PyGen α := ⟨fun n => vs[n]?, 0⟩

/-- thinc/optimizers.py:196-208 `Optimizer._set_attr_or_schedule`. -/
def setAttrOrSchedule {E : Type} : HyperArg E α → Except PyErr (Hyper E α)
  | .number v => .ok (.plain (constant v))
  | .list vs => do return .wrapped (← wrapGenerator (PyGen.ofList vs))
  | .generator g => do return .wrapped (← wrapGenerator g)
  | .schedule s => .ok (.plain s)
  | .other => .error .valueError

/-- Calling a stored schedule. -/
def Hyper.call {E : Type} (h : Hyper E α) (step : Int) (extra : E) : Hyper E α × Except PyErr α :=
  match h with
  | .plain s => (.plain s, s.call step extra)
  | .wrapped w => let (w', r) := wrapCall w step; (.wrapped w', r)

end
end Thinc
