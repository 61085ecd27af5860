import Verif.Model.Context
/-!
# Model of backends, data validation and operators in threads and asynchronous tasks

thinc/backends/__init__.py:27-35 and 127-166, thinc/util.py:59, 205-212 and 602-609, thinc/model.py:42 and 161-174.

`context_ops`, `DATA_VALIDATION` and `context_operators` are context variables: their values belong to a context
(`contextvars.Context`).  A new thread starts with an empty context, and an asynchronous task with a copy of the context of
the code that creates it.  `_LOCAL_STATE` belongs to a thread, and is shared by all the tasks of the thread.

A task executes one statement at a time, and the scheduler picks the task that goes next in any way it likes.  (Entering a
block, leaving a block, `get_current_ops` and `set_current_ops` are one statement each: they only read and write the
context of the task and the state of its thread.)  Tasks of one thread can only switch where they `await`: schedules that
switch elsewhere are more than can happen.
-/
namespace Thinc

/-- What a thread or task does: any nesting of blocks, with statements, exceptions and handlers. -/
inductive Prog (O F : Type) where
  | pass
  | seq (a b : Prog O F)
  | raise (e : PyErr)
  /-- `try: a` / `except Exception: b` -/
  | tryExcept (a b : Prog O F)
  /-- `get_current_ops()` -/
  | seeOps
  /-- reading `DATA_VALIDATION`, as `Model.initialize` does -/
  | seeValidation
  /-- using an operator on models -/
  | useOperator (symbol : String)
  /-- `set_current_ops(o)` (as in `require_gpu`) -/
  | setOps (o : O)
  | useOps (name : String) (body : Prog O F)
  | dataValidation (validation : Bool) (body : Prog O F)
  | defineOperators (operators : PyDict String F) (body : Prog O F)
  /-- `threading.Thread(target=body).start()` -/
  | startThread (body : Prog O F)
  /-- `asyncio.create_task(body())` -/
  | createTask (body : Prog O F)

/-- What a task still has to do: code, and the ends of the blocks and `try` statements it is in.  The local variables
`current_ops`, `prev` and `token` of the context managers are in their frames. -/
inductive TaskFrame (O F : Type) where
  | code (p : Prog O F)
  | restoreOps (o : O)
  | restoreValidation (v : Bool)
  | resetOperators (operators : PyDict String F)
  | handler (p : Prog O F)

/-- A `contextvars.Context`; the defaults are those of the variables (backends/__init__.py:27, util.py:59, model.py:42). -/
structure Vars (O F : Type) where
  ops : Option O := none
  validation : Bool := false
  operators : PyDict String F := []

/-- A thread's main function or an asynchronous task: its thread and its context (numbers of them), what it still has to do
(the innermost frame first), the exception that is being raised, and everything it has seen (not in the code). -/
structure Task (O F : Type) where
  thread : Nat
  context : Nat
  stack : List (TaskFrame O F)
  raised : Option PyErr := none
  log : List (Seen O F) := []

/-- The process: contexts, thread states (`_LOCAL_STATE.ops`, which starts as `None`: backends/__init__.py:30-35, 159-166)
and tasks. -/
structure World (O F : Type) where
  contexts : List (Vars O F)
  threads : List (Option O)
  tasks : List (Task O F)

variable {O F : Type}

/-- The process when a program starts. -/
def World.start (p : Prog O F) : World O F :=
  { contexts := [{}], threads := [none], tasks := [{ thread := 0, context := 0, stack := [.code p] }] }

/-- The context variables of a task. -/
def World.vars (w : World O F) (t : Task O F) : Vars O F := (w.contexts[t.context]?).getD {}

/-- `ContextVar.set` in a task. -/
def World.setVars (w : World O F) (t : Task O F) (v : Vars O F) : World O F :=
  { w with contexts := w.contexts.set t.context v }

/-- Task `i` goes on. -/
def World.setTask (w : World O F) (i : Nat) (t : Task O F) : World O F := { w with tasks := w.tasks.set i t }

/-- backends/__init__.py:145-148 `set_current_ops` in a task. -/
def World.setOps (w : World O F) (t : Task O F) (o : O) : World O F :=
  let w := w.setVars t { w.vars t with ops := some o }
  { w with threads := w.threads.set t.thread (some o) }

/-- backends/__init__.py:138-142 `get_current_ops` in a task, with util.py:205-212 `require_cpu`. -/
def World.currentOps (getOps : String → Except PyErr O) (w : World O F) (t : Task O F) : World O F × Except PyErr O :=
  match (w.vars t).ops with
  | some o => (w, .ok o)
  | none =>
    match getOps "cpu" with
    | .error e => (w, .error e)
    | .ok o => (w.setOps t o, .ok o)

/-- backends/__init__.py:151-156 `contextvars_eq_thread_ops` in a task: are the current backend and the one in the thread's
state of the same type?  (`None` has a type of its own.) -/
def World.contextEqThread {T : Type} [DecidableEq T] (type : O → T) (w : World O F) (t : Task O F) : Bool :=
  ((w.vars t).ops.map type) = (((w.threads[t.thread]?).getD none).map type)

/-- A new thread with an empty context. -/
def World.startThread (w : World O F) (body : Prog O F) : World O F :=
  { contexts := w.contexts ++ [{}], threads := w.threads ++ [none],
    tasks := w.tasks ++ [{ thread := w.threads.length, context := w.contexts.length, stack := [.code body] }] }

/-- A new task on the same thread, with a copy of the context. -/
def World.createTask (w : World O F) (t : Task O F) (body : Prog O F) : World O F :=
  { contexts := w.contexts ++ [w.vars t], threads := w.threads,
    tasks := w.tasks ++ [{ thread := t.thread, context := w.contexts.length, stack := [.code body] }] }

/-- Enter `with use_ops(name)` (backends/__init__.py:127-131). -/
def World.enterUseOps (getOps : String → Except PyErr O) (w : World O F) (i : Nat) (t : Task O F) (name : String)
    (body : Prog O F) (rest : List (TaskFrame O F)) : World O F :=
  match w.currentOps getOps t with
  | (w, .error e) => w.setTask i { t with stack := rest, raised := some e }
  | (w, .ok current) =>
    match getOps name with
    | .error e => w.setTask i { t with stack := rest, raised := some e }
    | .ok new => (w.setOps t new).setTask i { t with stack := .code body :: .restoreOps current :: rest }

/-- Task `i` executes the statement `p`. -/
def World.exec (getOps : String → Except PyErr O) (w : World O F) (i : Nat) (t : Task O F) (rest : List (TaskFrame O F)) :
    Prog O F → World O F
  | .pass => w.setTask i { t with stack := rest }
  | .seq a b => w.setTask i { t with stack := .code a :: .code b :: rest }
  | .raise e => w.setTask i { t with stack := rest, raised := some e }
  | .tryExcept a b => w.setTask i { t with stack := .code a :: .handler b :: rest }
  | .seeOps =>
    match w.currentOps getOps t with
    | (w, .error e) => w.setTask i { t with stack := rest, raised := some e }
    | (w, .ok o) => w.setTask i { t with stack := rest, log := t.log ++ [.ops o] }
  | .seeValidation => w.setTask i { t with stack := rest, log := t.log ++ [.validation (w.vars t).validation] }
  | .useOperator s =>
    match (w.vars t).operators.get? s with
    | none => w.setTask i { t with stack := rest, raised := some .typeError }
    | some f => w.setTask i { t with stack := rest, log := t.log ++ [.operator s f] }
  | .setOps o => (w.setOps t o).setTask i { t with stack := rest }
  | .useOps name body => w.enterUseOps getOps i t name body rest
  | .dataValidation v body =>
    (w.setVars t { w.vars t with validation := v }).setTask i
      { t with stack := .code body :: .restoreValidation (w.vars t).validation :: rest }
  | .defineOperators ops body =>
    (w.setVars t { w.vars t with operators := ops }).setTask i
      { t with stack := .code body :: .resetOperators (w.vars t).operators :: rest }
  | .startThread body => (w.startThread body).setTask i { t with stack := rest }
  | .createTask body => (w.createTask t body).setTask i { t with stack := rest }

/-- The end of a block or of a `try` statement, or code, is reached without an exception. -/
def World.forward (getOps : String → Except PyErr O) (w : World O F) (i : Nat) (t : Task O F) (rest : List (TaskFrame O F)) :
    TaskFrame O F → World O F
  | .code p => w.exec getOps i t rest p
  | .restoreOps o => (w.setOps t o).setTask i { t with stack := rest }
  | .restoreValidation v => (w.setVars t { w.vars t with validation := v }).setTask i { t with stack := rest }
  | .resetOperators ops => (w.setVars t { w.vars t with operators := ops }).setTask i { t with stack := rest }
  | .handler _ => w.setTask i { t with stack := rest }

/-- The same with an exception: only `use_ops` has a `finally` (backends/__init__.py:132-135); `data_validation`
(util.py:602-609) and `define_operators` (model.py:161-174) have none. -/
def World.unwind (w : World O F) (i : Nat) (t : Task O F) (rest : List (TaskFrame O F)) : TaskFrame O F → World O F
  | .restoreOps o => (w.setOps t o).setTask i { t with stack := rest }
  | .handler p => w.setTask i { t with stack := .code p :: rest, raised := none }
  | .code _ | .restoreValidation _ | .resetOperators _ => w.setTask i { t with stack := rest }

/-- Task `i` makes a step; a task that is finished or does not exist does nothing. -/
def World.step (getOps : String → Except PyErr O) (w : World O F) (i : Nat) : World O F :=
  match w.tasks[i]? with
  | none => w
  | some t =>
    match t.stack, t.raised with
    | [], _ => w
    | f :: rest, none => w.forward getOps i t rest f
    | f :: rest, some _ => w.unwind i t rest f

/-- The process after a schedule: the tasks that make a step, in order. -/
def World.run (getOps : String → Except PyErr O) (w : World O F) (schedule : List Nat) : World O F :=
  schedule.foldl (World.step getOps) w

end Thinc
