import Verif.Spec.Threads
import Mathlib.Tactic.Common
import Mathlib.Logic.Function.Iterate
/-!
# Steps of a task depend on the task only
-/
namespace Thinc
open Spec
namespace ThreadLemmas
variable {O F : Type}

/-- What concerns one task: its context variables, what it has to do, the exception, what it has seen. -/
structure Local (O F : Type) where
  vars : Vars O F
  stack : List (TaskFrame O F)
  raised : Option PyErr
  log : List (Seen O F)

def loc (w : World O F) (t : Task O F) : Local O F := ⟨w.vars t, t.stack, t.raised, t.log⟩

/-- `get_current_ops` on the variables of one task. -/
def lcur (getOps : String → Except PyErr O) (v : Vars O F) : Vars O F × Except PyErr O :=
  match v.ops with
  | some o => (v, .ok o)
  | none =>
    match getOps "cpu" with
    | .error e => (v, .error e)
    | .ok o => ({ v with ops := some o }, .ok o)

def lexec (getOps : String → Except PyErr O) (x : Local O F) (rest : List (TaskFrame O F)) : Prog O F → Local O F
  | .pass => { x with stack := rest }
  | .seq a b => { x with stack := .code a :: .code b :: rest }
  | .raise e => { x with stack := rest, raised := some e }
  | .tryExcept a b => { x with stack := .code a :: .handler b :: rest }
  | .seeOps =>
    match lcur getOps x.vars with
    | (v, .error e) => { x with vars := v, stack := rest, raised := some e }
    | (v, .ok o) => { x with vars := v, stack := rest, log := x.log ++ [.ops o] }
  | .seeValidation => { x with stack := rest, log := x.log ++ [.validation x.vars.validation] }
  | .useOperator s =>
    match x.vars.operators.get? s with
    | none => { x with stack := rest, raised := some .typeError }
    | some f => { x with stack := rest, log := x.log ++ [.operator s f] }
  | .setOps o => { x with vars := { x.vars with ops := some o }, stack := rest }
  | .useOps name body =>
    match lcur getOps x.vars with
    | (v, .error e) => { x with vars := v, stack := rest, raised := some e }
    | (v, .ok current) =>
      match getOps name with
      | .error e => { x with vars := v, stack := rest, raised := some e }
      | .ok new => { x with vars := { v with ops := some new }, stack := .code body :: .restoreOps current :: rest }
  | .dataValidation b body =>
    { x with vars := { x.vars with validation := b }, stack := .code body :: .restoreValidation x.vars.validation :: rest }
  | .defineOperators ops body =>
    { x with vars := { x.vars with operators := ops }, stack := .code body :: .resetOperators x.vars.operators :: rest }
  | .startThread _ => { x with stack := rest }
  | .createTask _ => { x with stack := rest }

def lforward (getOps : String → Except PyErr O) (x : Local O F) (rest : List (TaskFrame O F)) : TaskFrame O F → Local O F
  | .code p => lexec getOps x rest p
  | .restoreOps o => { x with vars := { x.vars with ops := some o }, stack := rest }
  | .restoreValidation b => { x with vars := { x.vars with validation := b }, stack := rest }
  | .resetOperators ops => { x with vars := { x.vars with operators := ops }, stack := rest }
  | .handler _ => { x with stack := rest }

def lunwind (x : Local O F) (rest : List (TaskFrame O F)) : TaskFrame O F → Local O F
  | .restoreOps o => { x with vars := { x.vars with ops := some o }, stack := rest }
  | .handler p => { x with stack := .code p :: rest, raised := none }
  | .code _ | .restoreValidation _ | .resetOperators _ => { x with stack := rest }

/-- A step of one task. -/
def lstep (getOps : String → Except PyErr O) (x : Local O F) : Local O F :=
  match x.stack, x.raised with
  | [], _ => x
  | f :: rest, none => lforward getOps x rest f
  | f :: rest, some _ => lunwind x rest f

/-- Every task has a context of its own and a thread. -/
structure Sound (w : World O F) : Prop where
  context : ∀ (i : Nat) (t : Task O F), w.tasks[i]? = some t → t.context < w.contexts.length
  thread : ∀ (i : Nat) (t : Task O F), w.tasks[i]? = some t → t.thread < w.threads.length
  own : ∀ (i j : Nat) (t u : Task O F), w.tasks[i]? = some t → w.tasks[j]? = some u → t.context = u.context → i = j

/-- The form of the process after a step of task `i`. -/
def Shape (w : World O F) (i : Nat) (t : Task O F) (x : Local O F) (w' : World O F) : Prop :=
  ∃ (t' : Task O F) (th : List (Option O)) (ec : List (Vars O F)) (et : List (Task O F)),
    w' = ⟨w.contexts.set t.context x.vars ++ ec, th, w.tasks.set i t' ++ et⟩ ∧
    t'.thread = t.thread ∧ t'.context = t.context ∧ t'.stack = x.stack ∧ t'.raised = x.raised ∧ t'.log = x.log ∧
    w.threads.length ≤ th.length ∧
    ((ec = [] ∧ et = []) ∨
      ∃ v u, ec = [v] ∧ et = [u] ∧ u.context = w.contexts.length ∧ u.thread < th.length ∧
        ((∃ body, u.stack = [.code body] ∧ u.thread = w.threads.length ∧ v.ops = none ∧ th[u.thread]? = some none ∧
          t.stack.head? = some (.code (.startThread body))) ∨
        ∃ body, t.stack.head? = some (.code (.createTask body)))) ∧
    (∀ k, k ≠ t.thread → k < w.threads.length → th[k]? = w.threads[k]?) ∧
    ((x.vars.ops = (w.vars t).ops ∧ th[t.thread]? = w.threads[t.thread]?) ∨ th[t.thread]? = some x.vars.ops)

theorem set_vars {w : World O F} {t : Task O F} (hc : t.context < w.contexts.length) :
    w.contexts.set t.context (w.vars t) = w.contexts := by
  simp [World.vars, List.getElem?_eq_getElem hc]

/-- A step that changes the task and its variables. -/
theorem shape_set {w : World O F} {i : Nat} {t t' : Task O F} {v : Vars O F} {th : List (Option O)} {x : Local O F}
    (h1 : t'.thread = t.thread) (h2 : t'.context = t.context) (h3 : t'.stack = x.stack) (h4 : t'.raised = x.raised)
    (h5 : t'.log = x.log) (h6 : v = x.vars) (h7 : w.threads.length ≤ th.length)
    (h8 : ∀ k, k ≠ t.thread → k < w.threads.length → th[k]? = w.threads[k]?)
    (h9 : (x.vars.ops = (w.vars t).ops ∧ th[t.thread]? = w.threads[t.thread]?) ∨ th[t.thread]? = some x.vars.ops) :
    Shape w i t x ⟨w.contexts.set t.context v, th, w.tasks.set i t'⟩ :=
  ⟨t', th, [], [], by simp [h6], h1, h2, h3, h4, h5, h7, .inl ⟨rfl, rfl⟩, h8, h9⟩

/-- A step that changes the task only. -/
theorem shape_task {w : World O F} {i : Nat} {t t' : Task O F} {x : Local O F} (hc : t.context < w.contexts.length)
    (h1 : t'.thread = t.thread) (h2 : t'.context = t.context) (h3 : t'.stack = x.stack) (h4 : t'.raised = x.raised)
    (h5 : t'.log = x.log) (h6 : w.vars t = x.vars) : Shape w i t x (w.setTask i t') := by
  have := shape_set (w := w) (i := i) (t := t) (th := w.threads) h1 h2 h3 h4 h5 h6 (Nat.le_refl _)
    (fun _ _ _ => rfl) (.inl ⟨by rw [h6], rfl⟩)
  rwa [set_vars hc] at this

theorem vars_setOps {w : World O F} {t : Task O F} {o : O} (hc : t.context < w.contexts.length) :
    (w.setOps t o).vars t = { w.vars t with ops := some o } := by
  simp [World.setOps, World.setVars, World.vars, hc]

theorem setOps_setOps {w : World O F} {t : Task O F} {o o' : O} (hc : t.context < w.contexts.length) :
    (w.setOps t o).setOps t o' = w.setOps t o' := by
  simp [World.setOps, World.setVars, World.vars, hc]

theorem shape_ops {w : World O F} {i : Nat} {t t' : Task O F} {o : O} {x : Local O F}
    (h1 : t'.thread = t.thread) (h2 : t'.context = t.context) (h3 : t'.stack = x.stack) (h4 : t'.raised = x.raised)
    (h5 : t'.log = x.log) (h6 : { w.vars t with ops := some o } = x.vars) (ht : t.thread < w.threads.length) :
    Shape w i t x ((w.setOps t o).setTask i t') :=
  shape_set (th := w.threads.set t.thread (some o)) h1 h2 h3 h4 h5 h6 (by simp)
    (fun k hk _ => by simp [List.getElem?_set, hk.symm]) (.inr (by simp [ht, ← h6]))

theorem shape_vars {w : World O F} {i : Nat} {t t' : Task O F} {v : Vars O F} {x : Local O F}
    (h1 : t'.thread = t.thread) (h2 : t'.context = t.context) (h3 : t'.stack = x.stack) (h4 : t'.raised = x.raised)
    (h5 : t'.log = x.log) (h6 : v = x.vars) (h7 : v.ops = (w.vars t).ops) :
    Shape w i t x ((w.setVars t v).setTask i t') :=
  shape_set h1 h2 h3 h4 h5 h6 (Nat.le_refl _) (fun _ _ _ => rfl) (.inl ⟨by rw [← h6, h7], rfl⟩)

theorem step_shape (getOps : String → Except PyErr O) {w : World O F} {i : Nat} {t : Task O F}
    (h : w.tasks[i]? = some t) (hc : t.context < w.contexts.length) (ht : t.thread < w.threads.length) :
    Shape w i t (lstep getOps (loc w t)) (w.step getOps i) := by
  have hi : i < w.tasks.length := (List.getElem?_eq_some_iff.1 h).1
  have hself : Shape w i t (loc w t) w := by
    have := shape_task (w := w) (i := i) (t := t) (t' := t) (x := loc w t) hc rfl rfl rfl rfl rfl rfl
    have e : w.setTask i t = w := by
      obtain ⟨_, e⟩ := List.getElem?_eq_some_iff.1 h
      simp [World.setTask, ← e]
    rwa [e] at this
  simp only [World.step, h, lstep, loc]
  rcases hs : t.stack with _ | ⟨f, rest⟩
  · simpa [loc, hs] using hself
  · rcases hr : t.raised with _ | e
    · simp only
      cases f with
      | restoreOps o => exact shape_ops rfl rfl rfl hr rfl rfl ht
      | restoreValidation v => exact shape_vars rfl rfl rfl hr rfl rfl rfl
      | resetOperators v => exact shape_vars rfl rfl rfl hr rfl rfl rfl
      | handler v => exact shape_task hc rfl rfl rfl hr rfl rfl
      | code p =>
        simp only [World.forward, lforward]
        cases p with
        | pass => exact shape_task hc rfl rfl rfl hr rfl rfl
        | seq a b => exact shape_task hc rfl rfl rfl hr rfl rfl
        | raise e => exact shape_task hc rfl rfl rfl rfl rfl rfl
        | tryExcept a b => exact shape_task hc rfl rfl rfl hr rfl rfl
        | seeOps =>
          simp only [World.exec, lexec, World.currentOps, lcur]
          cases ho : (w.vars t).ops with
          | some o => exact shape_task hc rfl rfl rfl hr rfl rfl
          | none =>
            cases hg : getOps "cpu" with
            | error e => exact shape_task hc rfl rfl rfl rfl rfl rfl
            | ok o => exact shape_ops rfl rfl rfl hr rfl rfl ht
        | seeValidation => exact shape_task hc rfl rfl rfl hr rfl rfl
        | useOperator s =>
          simp only [World.exec, lexec]
          cases ho : (w.vars t).operators.get? s with
          | none => exact shape_task hc rfl rfl rfl rfl rfl rfl
          | some f => exact shape_task hc rfl rfl rfl hr rfl rfl
        | setOps o => exact shape_ops rfl rfl rfl hr rfl rfl ht
        | useOps name body =>
          simp only [World.exec, World.enterUseOps, lexec, World.currentOps, lcur]
          cases ho : (w.vars t).ops with
          | some o =>
            simp only
            cases hg : getOps name with
            | error e => exact shape_task hc rfl rfl rfl rfl rfl rfl
            | ok new => exact shape_ops rfl rfl rfl hr rfl rfl ht
          | none =>
            cases hg : getOps "cpu" with
            | error e => exact shape_task hc rfl rfl rfl rfl rfl rfl
            | ok o =>
              simp only
              cases hn : getOps name with
              | error e => exact shape_ops rfl rfl rfl rfl rfl rfl ht
              | ok new =>
                simp only [setOps_setOps hc]
                exact shape_ops rfl rfl rfl hr rfl rfl ht
        | dataValidation v body => exact shape_vars rfl rfl rfl hr rfl rfl rfl
        | defineOperators v body => exact shape_vars rfl rfl rfl hr rfl rfl rfl
        | startThread body =>
          refine ⟨{ t with stack := rest }, w.threads ++ [none], [{}],
            [{ thread := w.threads.length, context := w.contexts.length, stack := [.code body] }], ?_, rfl, rfl, rfl, hr, rfl, by simp,
            .inr ⟨_, _, rfl, rfl, rfl, ?_, .inl ⟨body, rfl, rfl, rfl, by simp, by simp [hs]⟩⟩,
            fun k _ hk => by simp [List.getElem?_append, hk], .inl ⟨rfl, by simp [List.getElem?_append, ht]⟩⟩
          · simp only [World.exec, World.startThread, World.setTask, lexec, set_vars hc, List.set_append_left _ _ hi]
          · simp
        | createTask body =>
          refine ⟨{ t with stack := rest }, w.threads, [w.vars t],
            [{ thread := t.thread, context := w.contexts.length, stack := [.code body] }], ?_, rfl, rfl, rfl, hr, rfl, (Nat.le_refl _),
            .inr ⟨_, _, rfl, rfl, rfl, ?_, .inr ⟨body, by simp [hs]⟩⟩, fun _ _ _ => rfl, .inl ⟨rfl, rfl⟩⟩
          · simp only [World.exec, World.createTask, World.setTask, lexec, set_vars hc, List.set_append_left _ _ hi]
          · exact ht
    · simp only
      cases f with
      | code p => exact shape_task hc rfl rfl rfl hr rfl rfl
      | restoreOps o => exact shape_ops rfl rfl rfl hr rfl rfl ht
      | restoreValidation v => exact shape_task hc rfl rfl rfl hr rfl rfl
      | resetOperators v => exact shape_task hc rfl rfl rfl hr rfl rfl
      | handler v => exact shape_task hc rfl rfl rfl rfl rfl rfl

theorem vars_ext {w w' : World O F} {t u : Task O F} (h : w'.contexts[u.context]? = w.contexts[t.context]?) :
    w'.vars u = w.vars t := by
  simp [World.vars, h]

/-- What a step of the form does to the task itself. -/
theorem Shape.self {w w' : World O F} {i : Nat} {t : Task O F} {x : Local O F} (h : Shape w i t x w')
    (ht : w.tasks[i]? = some t) (hc : t.context < w.contexts.length) :
    ∃ t', w'.tasks[i]? = some t' ∧ t'.thread = t.thread ∧ loc w' t' = x := by
  obtain ⟨t', th, ec, et, rfl, h1, h2, h3, h4, h5, -, -, -, -⟩ := h
  have hi : i < w.tasks.length := (List.getElem?_eq_some_iff.1 ht).1
  refine ⟨t', ?_, h1, ?_⟩
  · simp [List.getElem?_append, hi]
  · simp [loc, World.vars, h2, h3, h4, h5, List.getElem?_append, hc]

/-- What it does to other tasks: nothing. -/
theorem Shape.other {w w' : World O F} {i j : Nat} {t u : Task O F} {x : Local O F} (h : Shape w i t x w')
    (hs : Sound w) (ht : w.tasks[i]? = some t) (hu : w.tasks[j]? = some u) (hne : j ≠ i) :
    w'.tasks[j]? = some u ∧ loc w' u = loc w u := by
  obtain ⟨t', th, ec, et, rfl, h1, h2, h3, h4, h5, -, -, -, -⟩ := h
  have hj : j < w.tasks.length := (List.getElem?_eq_some_iff.1 hu).1
  have huc := hs.context j u hu
  have hcc : t.context ≠ u.context := fun e => hne (hs.own _ _ _ _ hu ht e.symm)
  constructor
  · simpa [List.getElem?_append, hj, List.getElem?_set, hne.symm] using (List.getElem?_eq_some_iff.1 hu).2
  · simp [loc, World.vars, List.getElem?_append, huc, List.getElem?_set, hcc]

/-- The tasks after a step. -/
theorem Shape.sound {w w' : World O F} {i : Nat} {t : Task O F} {x : Local O F} (h : Shape w i t x w')
    (hs : Sound w) (ht : w.tasks[i]? = some t) : Sound w' := by
  obtain ⟨t', th, ec, et, rfl, h1, h2, h3, h4, h5, h6, h7, -, -⟩ := h
  have hi : i < w.tasks.length := (List.getElem?_eq_some_iff.1 ht).1
  have hc := hs.context i t ht
  -- the tasks that existed before have the thread and context they had
  have hold : ∀ (j : Nat) (u : Task O F), (w.tasks.set i t')[j]? = some u →
      ∃ u', w.tasks[j]? = some u' ∧ u.context = u'.context ∧ u.thread = u'.thread := by
    intro j u hu
    rw [List.getElem?_set] at hu
    by_cases hij : i = j
    · subst hij
      simp [hi] at hu
      exact ⟨t, ht, by rw [← hu, h2], by rw [← hu, h1]⟩
    · rw [if_neg hij] at hu
      exact ⟨u, hu, rfl, rfl⟩
  have hold' : ∀ (j : Nat) (u : Task O F), (w.tasks.set i t')[j]? = some u → u.context < w.contexts.length ∧
      u.thread < th.length := by
    intro j u hu
    obtain ⟨u', hu', e1, e2⟩ := hold j u hu
    exact ⟨e1 ▸ hs.context j u' hu', Nat.lt_of_lt_of_le (e2 ▸ hs.thread j u' hu') h6⟩
  rcases h7 with ⟨rfl, rfl⟩ | ⟨v, n, rfl, rfl, h8, h9, -⟩
  · simp only [List.append_nil]
    refine ⟨fun j u hu => ?_, fun j u hu => ?_, fun j k u u' hu hu' e => ?_⟩
    · simpa using (hold' j u hu).1
    · exact (hold' j u hu).2
    · obtain ⟨a, ha, e1, -⟩ := hold j u hu
      obtain ⟨b, hb, e2, -⟩ := hold k u' hu'
      exact hs.own _ _ _ _ ha hb (by rw [← e1, ← e2, e])
  · have hcase : ∀ (j : Nat) (u : Task O F), (w.tasks.set i t' ++ [n])[j]? = some u →
        (w.tasks.set i t')[j]? = some u ∨ (u = n ∧ j = w.tasks.length) := by
      intro j u hu
      rw [List.getElem?_append] at hu
      split at hu
      · exact .inl hu
      · next hlt =>
        obtain ⟨hl, e⟩ := List.getElem?_eq_some_iff.1 hu
        simp only [List.length_set, List.length_cons, List.length_nil] at hl hlt
        refine .inr ⟨?_, by omega⟩
        simp only [List.getElem_singleton] at e
        exact e.symm
    refine ⟨fun j u hu => ?_, fun j u hu => ?_, fun j k u u' hu hu' e => ?_⟩
    · rcases hcase j u hu with h | ⟨rfl, -⟩
      · have := (hold' j u h).1
        simp; omega
      · simp [h8]
    · rcases hcase j u hu with h | ⟨rfl, -⟩
      · exact (hold' j u h).2
      · exact h9
    · rcases hcase j u hu with h | ⟨rfl, hj⟩ <;> rcases hcase k u' hu' with h' | ⟨rfl, hk⟩
      · obtain ⟨a, ha, e1, -⟩ := hold j u h
        obtain ⟨b, hb, e2, -⟩ := hold k u' h'
        exact hs.own _ _ _ _ ha hb (by rw [← e1, ← e2, e])
      · have := (hold' j u h).1
        omega
      · have := (hold' k u' h').1
        omega
      · omega

theorem step_none (getOps : String → Except PyErr O) {w : World O F} {i : Nat} (h : w.tasks[i]? = none) :
    w.step getOps i = w := by
  simp [World.step, h]

theorem sound_step (getOps : String → Except PyErr O) {w : World O F} (h : Sound w) (i : Nat) :
    Sound (w.step getOps i) := by
  cases ht : w.tasks[i]? with
  | none => rwa [step_none getOps ht]
  | some t => exact (step_shape getOps ht (h.context i t ht) (h.thread i t ht)).sound h ht

theorem sound_run (getOps : String → Except PyErr O) (s : List Nat) :
    ∀ {w : World O F}, Sound w → Sound (w.run getOps s) := by
  induction s with
  | nil => exact fun h => h
  | cons i s ih => exact fun h => ih (sound_step getOps h i)

theorem sound_start (p : Prog O F) : Sound (World.start p) := by
  have h : ∀ (i : Nat) (t : Task O F), (World.start p).tasks[i]? = some t → i = 0 ∧ t.context = 0 ∧ t.thread = 0 := by
    intro i t ht
    cases i with
    | zero =>
      simp only [World.start, List.getElem?_cons_zero, Option.some.injEq] at ht
      exact ⟨rfl, by rw [← ht], by rw [← ht]⟩
    | succ i => simp [World.start] at ht
  refine ⟨fun i t ht => ?_, fun i t ht => ?_, fun i j t u ht hu _ => ?_⟩
  · rw [(h i t ht).2.1]; exact Nat.one_pos
  · rw [(h i t ht).2.2]; exact Nat.one_pos
  · rw [(h i t ht).1, (h j u hu).1]

theorem sound_reachable {getOps : String → Except PyErr O} {w : World O F} (h : ReachableWorld getOps w) : Sound w := by
  obtain ⟨p, s, rfl⟩ := h
  exact sound_run getOps s (sound_start p)

/-- A task after any schedule: it has made its own steps and nothing else has happened to it. -/
theorem run_local (getOps : String → Except PyErr O) (i : Nat) (s : List Nat) :
    ∀ {w : World O F} {t : Task O F}, Sound w → w.tasks[i]? = some t →
      ∃ t', (w.run getOps s).tasks[i]? = some t' ∧ t'.thread = t.thread ∧
        loc (w.run getOps s) t' = (lstep getOps)^[s.count i] (loc w t) := by
  induction s with
  | nil => exact fun {w t} _ ht => ⟨t, ht, rfl, rfl⟩
  | cons j s ih =>
    intro w t hs ht
    by_cases hij : j = i
    · subst hij
      have hsh := step_shape getOps ht (hs.context j t ht) (hs.thread j t ht)
      obtain ⟨t1, h1, h2, h3⟩ := hsh.self ht (hs.context j t ht)
      obtain ⟨t2, h4, h5, h6⟩ := ih (sound_step getOps hs j) h1
      refine ⟨t2, h4, h5.trans h2, ?_⟩
      rw [List.count_cons_self, Function.iterate_succ_apply, ← h3]
      exact h6
    · have hstep : (w.step getOps j).tasks[i]? = some t ∧ loc (w.step getOps j) t = loc w t := by
        cases hj : w.tasks[j]? with
        | none => rw [step_none getOps hj]; exact ⟨ht, rfl⟩
        | some u =>
          exact (step_shape getOps hj (hs.context j u hj) (hs.thread j u hj)).other hs hj ht (fun e => hij e.symm)
      obtain ⟨t2, h4, h5, h6⟩ := ih (sound_step getOps hs j) hstep.1
      refine ⟨t2, h4, h5, ?_⟩
      rw [List.count_cons_of_ne hij, ← hstep.2]
      exact h6

/-! ### The meaning of what is still to do -/

/-- What the rest of the frames will see and leave. -/
def fin (getOps : String → Except PyErr O) :
    List (TaskFrame O F) → Except PyErr Unit → Vars O F → List (Seen O F) × Vars O F × Except PyErr Unit
  | [], r, v => ([], v, r)
  | .code p :: rest, .ok (), v =>
    let a := alone getOps p v
    let b := fin getOps rest a.2.2 a.2.1
    (a.1 ++ b.1, b.2)
  | .code _ :: rest, .error e, v => fin getOps rest (.error e) v
  | .restoreOps o :: rest, r, v => fin getOps rest r { v with ops := some o }
  | .restoreValidation b :: rest, .ok (), v => fin getOps rest (.ok ()) { v with validation := b }
  | .restoreValidation _ :: rest, .error e, v => fin getOps rest (.error e) v
  | .resetOperators ops :: rest, .ok (), v => fin getOps rest (.ok ()) { v with operators := ops }
  | .resetOperators _ :: rest, .error e, v => fin getOps rest (.error e) v
  | .handler p :: rest, .error _, v =>
    let a := alone getOps p v
    let b := fin getOps rest a.2.2 a.2.1
    (a.1 ++ b.1, b.2)
  | .handler _ :: rest, .ok (), v => fin getOps rest (.ok ()) v

/-- Everything the task will have seen and left in the end. -/
def total (getOps : String → Except PyErr O) (x : Local O F) : List (Seen O F) × Vars O F × Except PyErr Unit :=
  (x.log ++ (fin getOps x.stack (outcome x.raised) x.vars).1, (fin getOps x.stack (outcome x.raised) x.vars).2)

theorem total_step (getOps : String → Except PyErr O) (x : Local O F) :
    total getOps (lstep getOps x) = total getOps x := by
  obtain ⟨v, s, r, l⟩ := x
  rcases s with _ | ⟨f, rest⟩
  · rfl
  · cases r with
    | none =>
      cases f with
      | restoreOps o => rfl
      | restoreValidation b => rfl
      | resetOperators b => rfl
      | handler b => rfl
      | code p =>
        cases p with
        | pass => simp [total, lstep, lforward, lexec, fin, outcome, alone]
        | seq a b =>
          simp only [total, lstep, lforward, lexec, fin, outcome, alone]
          rcases ha : alone getOps a v with ⟨la, va, _ | _⟩
          · simp [fin]
          · simp [fin]
        | raise e => simp [total, lstep, lforward, lexec, fin, outcome, alone]
        | tryExcept a b =>
          simp only [total, lstep, lforward, lexec, fin, outcome, alone]
          rcases ha : alone getOps a v with ⟨la, va, _ | _⟩
          · simp [fin]
          · simp [fin]
        | seeOps =>
          simp only [total, lstep, lforward, lexec, fin, outcome, alone, lcur]
          cases ho : v.ops with
          | some o => simp [outcome]
          | none =>
            cases hg : getOps "cpu" with
            | error e => simp [outcome]
            | ok o => simp [outcome]
        | seeValidation => simp [total, lstep, lforward, lexec, fin, outcome, alone]
        | useOperator s =>
          simp only [total, lstep, lforward, lexec, fin, outcome, alone]
          cases ho : v.operators.get? s with
          | none => simp [outcome]
          | some f => simp [outcome]
        | setOps o => simp [total, lstep, lforward, lexec, fin, outcome, alone]
        | useOps name body =>
          simp only [total, lstep, lforward, lexec, fin, outcome, alone, lcur]
          cases ho : v.ops with
          | some o =>
            cases hn : getOps name with
            | error e => simp [outcome]
            | ok new =>
              simp only [outcome, fin]
          | none =>
            cases hg : getOps "cpu" with
            | error e => simp [outcome]
            | ok o =>
              cases hn : getOps name with
              | error e => simp [outcome]
              | ok new => simp only [outcome, fin]
        | dataValidation b body =>
          simp only [total, lstep, lforward, lexec, fin, outcome, alone]
          rcases ha : alone getOps body { v with validation := b } with ⟨la, va, _ | _⟩
          · simp [fin]
          · simp [fin]
        | defineOperators b body =>
          simp only [total, lstep, lforward, lexec, fin, outcome, alone]
          rcases ha : alone getOps body { v with operators := b } with ⟨la, va, _ | _⟩
          · simp [fin]
          · simp [fin]
        | startThread b => simp [total, lstep, lforward, lexec, fin, outcome, alone]
        | createTask b => simp [total, lstep, lforward, lexec, fin, outcome, alone]
    | some e =>
      cases f with
      | code p => rfl
      | restoreOps o => rfl
      | restoreValidation b => rfl
      | resetOperators b => rfl
      | handler b => rfl

theorem total_iter (getOps : String → Except PyErr O) (n : Nat) (x : Local O F) :
    total getOps ((lstep getOps)^[n] x) = total getOps x := by
  induction n generalizing x with
  | zero => rfl
  | succ n ih => rw [Function.iterate_succ_apply, ih, total_step]

/-! ### Steps end -/

def frameSize : TaskFrame O F → Nat
  | .code p => size p
  | .handler p => size p + 1
  | _ => 1

def stackSize (s : List (TaskFrame O F)) : Nat := (s.map frameSize).sum

theorem size_pos (p : Prog O F) : 0 < size p := by
  cases p <;> simp [size]

theorem stack_step (getOps : String → Except PyErr O) (x : Local O F) :
    stackSize (lstep getOps x).stack ≤ stackSize x.stack - 1 := by
  obtain ⟨v, s, r, l⟩ := x
  rcases s with _ | ⟨f, rest⟩
  · simp [lstep, stackSize]
  · cases r with
    | none =>
      cases f with
      | restoreOps o => simp [lstep, lforward, stackSize, frameSize]
      | restoreValidation b => simp [lstep, lforward, stackSize, frameSize]
      | resetOperators b => simp [lstep, lforward, stackSize, frameSize]
      | handler b => simp [lstep, lforward, stackSize, frameSize]
      | code p =>
        cases p with
        | seeOps =>
          simp only [lstep, lforward, lexec, lcur]
          cases ho : v.ops with
          | some o => simp [stackSize, frameSize, size]
          | none => cases hg : getOps "cpu" <;> simp [stackSize, frameSize, size]
        | useOperator s =>
          simp only [lstep, lforward, lexec]
          cases ho : v.operators.get? s <;> simp [stackSize, frameSize, size]
        | useOps name body =>
          simp only [lstep, lforward, lexec, lcur]
          cases ho : v.ops with
          | some o => cases hn : getOps name <;> simp [stackSize, frameSize, size] <;> omega
          | none =>
            cases hg : getOps "cpu" with
            | error e => simp [stackSize, frameSize, size]
            | ok o => cases hn : getOps name <;> simp [stackSize, frameSize, size] <;> omega
        | _ => simp [lstep, lforward, lexec, stackSize, frameSize, size] <;> omega
    | some e =>
      cases f with
      | code p => have := size_pos p; simp [lstep, lunwind, stackSize, frameSize]; omega
      | restoreOps o => simp [lstep, lunwind, stackSize, frameSize]
      | restoreValidation b => simp [lstep, lunwind, stackSize, frameSize]
      | resetOperators b => simp [lstep, lunwind, stackSize, frameSize]
      | handler b => simp [lstep, lunwind, stackSize, frameSize]

theorem stack_iter (getOps : String → Except PyErr O) (n : Nat) (x : Local O F) :
    stackSize ((lstep getOps)^[n] x).stack ≤ stackSize x.stack - n := by
  induction n generalizing x with
  | zero => simp
  | succ n ih =>
    rw [Function.iterate_succ_apply]
    have h1 := ih (lstep getOps x)
    have h2 := stack_step getOps x
    omega

theorem stack_nil {s : List (TaskFrame O F)} (h : stackSize s = 0) : s = [] := by
  rcases s with _ | ⟨f, rest⟩
  · rfl
  · have : 0 < frameSize f := by
      cases f with
      | code p => exact size_pos p
      | _ => simp [frameSize]
    simp [stackSize] at h
    omega

end ThreadLemmas
end Thinc
