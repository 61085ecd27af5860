import Verif.Model.Py
/-!
# Model of the context managers `use_ops`, `data_validation` and `Model.define_operators`

thinc/backends/__init__.py:124-156, thinc/util.py:205-212 and 602-609, thinc/model.py:161-174.  One thread (context
variables are per thread).  `with` blocks follow `contextlib.contextmanager`: an exception in the block is raised at the
`yield`, so code after a bare `yield` is skipped, and `finally` runs.  (`return`, `break` and `continue` out of a block are
normal exits.)  The lock in `data_validation` is a new one in every call, so it is always free.
-/
namespace Thinc

/-- What a program sees. -/
inductive Seen (O F : Type) where
  | ops (o : O)
  | validation (b : Bool)
  | operator (symbol : String) (f : F)

/-- The state: `context_ops` and the thread-local copy (backends/__init__.py:27, 35), `DATA_VALIDATION` (util.py:59) and
`context_operators` (model.py:42).  `O` are backend objects, `F` the functions bound to operators.  `log` is
everything the program has seen so far (not in the code). -/
structure Ctx (O F : Type) where
  ops : Option O
  threadOps : Option O
  validation : Bool
  operators : PyDict String F
  log : List (Seen O F) := []

variable {O F : Type}

/-- A computation that changes the state and may raise. -/
abbrev CtxM (O F α : Type) := Ctx O F → Ctx O F × Except PyErr α

/-- backends/__init__.py:145-148 `set_current_ops`. -/
def setCurrentOps (o : O) : CtxM O F Unit := fun c => ({ c with ops := some o, threadOps := some o }, .ok ())

/-- backends/__init__.py:138-142 `get_current_ops`, with util.py:205-212 `require_cpu`.  `getOps` is `get_ops`
(backends/__init__.py:98-117), which raises for names it does not know; here it always gives the same object for the same name. -/
def getCurrentOps (getOps : String → Except PyErr O) : CtxM O F O := fun c =>
  match c.ops with
  | some o => (c, .ok o)
  | none =>
    match getOps "cpu" with
    | .error e => (c, .error e)
    | .ok o => ((setCurrentOps o c).1, .ok o)

/-- backends/__init__.py:127-135 `with use_ops(name): body`. -/
def useOps (getOps : String → Except PyErr O) (name : String) {α : Type} (body : CtxM O F α) : CtxM O F α := fun c =>
  match getCurrentOps getOps c with
  | (c, .error e) => (c, .error e)
  | (c, .ok current) =>
    match getOps name with
    | .error e => (c, .error e)
    | .ok new =>
      let (c, _) := setCurrentOps new c
      let (c, r) := body c
      let (c, _) := setCurrentOps current c
      (c, r)

/-- util.py:602-609 `with data_validation(validation): body`. -/
def dataValidation (validation : Bool) {α : Type} (body : CtxM O F α) : CtxM O F α := fun c =>
  let prev := c.validation
  let c := { c with validation := validation }
  match body c with
  | (c, .error e) => (c, .error e)
  | (c, .ok a) => ({ c with validation := prev }, .ok a)

/-- model.py:161-174 `with Model.define_operators(operators): body`.  `reset(token)` restores the value the variable had
when the token was made. -/
def defineOperators (operators : PyDict String F) {α : Type} (body : CtxM O F α) : CtxM O F α := fun c =>
  let token := c.operators
  let c := { c with operators := operators }
  match body c with
  | (c, .error e) => (c, .error e)
  | (c, .ok a) => ({ c with operators := token }, .ok a)

/-- model.py:749-846 `a + b` and so on: the function bound to the operator, or TypeError. -/
def operator [DecidableEq String] (symbol : String) : CtxM O F F := fun c =>
  match c.operators.get? symbol with
  | none => (c, .error .typeError)
  | some f => (c, .ok f)

/-- User code: any nesting of the three kinds of blocks with statements, exceptions and handlers. -/
inductive Code (F : Type) where
  | pass
  | seq (a b : Code F)
  | raise (e : PyErr)
  /-- `try: a` / `except Exception: b` -/
  | tryExcept (a b : Code F)
  /-- `get_current_ops()` -/
  | seeOps
  /-- reading `DATA_VALIDATION`, as `Model.initialize` does -/
  | seeValidation
  /-- using an operator on models -/
  | useOperator (symbol : String)
  | useOps (name : String) (body : Code F)
  | dataValidation (validation : Bool) (body : Code F)
  | defineOperators (operators : PyDict String F) (body : Code F)

/-- Note what was seen. -/
def see (x : Seen O F) : CtxM O F Unit := fun c => ({ c with log := c.log ++ [x] }, .ok ())

/-- Run user code. -/
def Code.exec (getOps : String → Except PyErr O) : Code F → CtxM O F Unit
  | .pass, c => (c, .ok ())
  | .seq a b, c =>
    match a.exec getOps c with
    | (c, .error e) => (c, .error e)
    | (c, .ok ()) => b.exec getOps c
  | .raise e, c => (c, .error e)
  | .tryExcept a b, c =>
    match a.exec getOps c with
    | (c, .error _) => b.exec getOps c
    | (c, .ok ()) => (c, .ok ())
  | .seeOps, c =>
    match getCurrentOps getOps c with
    | (c, .error e) => (c, .error e)
    | (c, .ok o) => see (.ops o) c
  | .seeValidation, c => see (.validation c.validation) c
  | .useOperator s, c =>
    match Thinc.operator s c with
    | (c, .error e) => (c, .error e)
    | (c, .ok f) => see (.operator s f) c
  | .useOps name body, c => Thinc.useOps getOps name (body.exec getOps) c
  | .dataValidation v body, c => Thinc.dataValidation v (body.exec getOps) c
  | .defineOperators ops body, c => Thinc.defineOperators ops (body.exec getOps) c

end Thinc
