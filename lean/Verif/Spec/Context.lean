import Verif.Model.Context
/-!
# What code should see: every block gives its value to exactly the code inside it

A value is passed down into blocks and never comes back out, so there is nothing to restore.
-/
namespace Thinc.Spec
variable {O F : Type}

/-- The values in force at some point of the program. -/
structure Env (O F : Type) where
  ops : O
  validation : Bool
  operators : PyDict String F

/-- Everything the code sees, and the exception it ends with, if any. -/
def run (getOps : String → Except PyErr O) : Code F → Env O F → List (Seen O F) × Except PyErr Unit
  | .pass, _ => ([], .ok ())
  | .seq a b, env =>
    match run getOps a env with
    | (l, .error e) => (l, .error e)
    | (l, .ok ()) => (l ++ (run getOps b env).1, (run getOps b env).2)
  | .raise e, _ => ([], .error e)
  | .tryExcept a b, env =>
    match run getOps a env with
    | (l, .error _) => (l ++ (run getOps b env).1, (run getOps b env).2)
    | (l, .ok ()) => (l, .ok ())
  | .seeOps, env => ([.ops env.ops], .ok ())
  | .seeValidation, env => ([.validation env.validation], .ok ())
  | .useOperator s, env =>
    match env.operators.get? s with
    | none => ([], .error .typeError)
    | some f => ([.operator s f], .ok ())
  | .useOps name body, env =>
    match getOps name with
    | .error e => ([], .error e)
    | .ok o => run getOps body { env with ops := o }
  | .dataValidation v body, env => run getOps body { env with validation := v }
  | .defineOperators ops body, env => run getOps body { env with operators := ops }

/-- No exception leaves a `data_validation` or `define_operators` block while the code runs. -/
def NoEscape (getOps : String → Except PyErr O) : Code F → Env O F → Prop
  | .seq a b, env => NoEscape getOps a env ∧ ((run getOps a env).2 = .ok () → NoEscape getOps b env)
  | .tryExcept a b, env => NoEscape getOps a env ∧ ((run getOps a env).2 ≠ .ok () → NoEscape getOps b env)
  | .useOps name body, env => ∀ o, getOps name = .ok o → NoEscape getOps body { env with ops := o }
  | .dataValidation v body, env =>
    NoEscape getOps body { env with validation := v } ∧ (run getOps body { env with validation := v }).2 = .ok ()
  | .defineOperators ops body, env =>
    NoEscape getOps body { env with operators := ops } ∧ (run getOps body { env with operators := ops }).2 = .ok ()
  | _, _ => True

end Thinc.Spec
