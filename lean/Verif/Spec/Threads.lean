import Verif.Model.Threads
/-!
# What a thread or task sees if it is alone in the process
-/
namespace Thinc.Spec
variable {O F : Type}

/-- Everything the code sees, the context variables at the end, and the exception it ends with, if any: the code runs from
beginning to end, nothing else runs, and starting threads and tasks has no effect. -/
def alone (getOps : String → Except PyErr O) : Prog O F → Vars O F → List (Seen O F) × Vars O F × Except PyErr Unit
  | .pass, v => ([], v, .ok ())
  | .seq a b, v =>
    match alone getOps a v with
    | (l, v, .error e) => (l, v, .error e)
    | (l, v, .ok ()) => (l ++ (alone getOps b v).1, (alone getOps b v).2)
  | .raise e, v => ([], v, .error e)
  | .tryExcept a b, v =>
    match alone getOps a v with
    | (l, v, .error _) => (l ++ (alone getOps b v).1, (alone getOps b v).2)
    | (l, v, .ok ()) => (l, v, .ok ())
  | .seeOps, v =>
    match v.ops, getOps "cpu" with
    | some o, _ => ([.ops o], v, .ok ())
    | none, .ok o => ([.ops o], { v with ops := some o }, .ok ())
    | none, .error e => ([], v, .error e)
  | .seeValidation, v => ([.validation v.validation], v, .ok ())
  | .useOperator s, v =>
    match v.operators.get? s with
    | none => ([], v, .error .typeError)
    | some f => ([.operator s f], v, .ok ())
  | .setOps o, v => ([], { v with ops := some o }, .ok ())
  | .useOps name body, v =>
    match v.ops, getOps "cpu", getOps name with
    | none, .error e, _ => ([], v, .error e)
    | none, .ok o, .error e => ([], { v with ops := some o }, .error e)
    | some _, _, .error e => ([], v, .error e)
    | none, .ok o, .ok new =>
      let (l, v, r) := alone getOps body { v with ops := some new }
      (l, { v with ops := some o }, r)
    | some o, _, .ok new =>
      let (l, v, r) := alone getOps body { v with ops := some new }
      (l, { v with ops := some o }, r)
  | .dataValidation b body, v =>
    match alone getOps body { v with validation := b } with
    | (l, v', .error e) => (l, v', .error e)
    | (l, v', .ok ()) => (l, { v' with validation := v.validation }, .ok ())
  | .defineOperators ops body, v =>
    match alone getOps body { v with operators := ops } with
    | (l, v', .error e) => (l, v', .error e)
    | (l, v', .ok ()) => (l, { v' with operators := v.operators }, .ok ())
  | .startThread _, v => ([], v, .ok ())
  | .createTask _, v => ([], v, .ok ())

/-- The processes a program can get into, under any schedule. -/
def ReachableWorld (getOps : String → Except PyErr O) (w : World O F) : Prop :=
  ∃ (p : Prog O F) (schedule : List Nat), w = (World.start p).run getOps schedule

/-- Task `i` is about to start with code `p` and these values of the context variables. -/
def Starts (w : World O F) (i : Nat) (p : Prog O F) (v : Vars O F) : Prop :=
  ∃ t, w.tasks[i]? = some t ∧ t.stack = [.code p] ∧ t.raised = none ∧ t.log = [] ∧ w.vars t = v

/-- How a task ended, or the exception that is being raised. -/
def outcome : Option PyErr → Except PyErr Unit
  | none => .ok ()
  | some e => .error e

/-- A bound for the number of steps. -/
def size : Prog O F → Nat
  | .seq a b => size a + size b + 1
  | .tryExcept a b => size a + size b + 2
  | .useOps _ b | .dataValidation _ b | .defineOperators _ b => size b + 2
  | _ => 1

/-- The code (and code in threads it starts) creates no tasks. -/
def NoTasks : Prog O F → Prop
  | .seq a b | .tryExcept a b => NoTasks a ∧ NoTasks b
  | .useOps _ b | .dataValidation _ b | .defineOperators _ b | .startThread b => NoTasks b
  | .createTask _ => False
  | _ => True

end Thinc.Spec
