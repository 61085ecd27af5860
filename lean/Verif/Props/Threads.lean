import Verif.Lemmas.Threads
import Verif.Props.Context
/-!
# C105: backends, data validation and operators in threads and asynchronous tasks
-/
namespace Thinc
open Spec ThreadLemmas
variable {O F : Type} (getOps : String → Except PyErr O)

/-- Whatever other threads and tasks do, and however they are scheduled: a task sees what it would see if it were alone, in
the same order.  When it ends it has seen all of it, and it leaves the context variables and ends with the exception it
would if it were alone.  It ends when it has had enough turns. -/
theorem C105_alone {w : World O F} (hw : ReachableWorld getOps w) {i : Nat} {p : Prog O F} {v : Vars O F} (hi : Starts w i p v)
    (schedule : List Nat) :
    ∃ t, (w.run getOps schedule).tasks[i]? = some t ∧ t.log <+: (alone getOps p v).1 ∧
      (t.stack = [] → t.log = (alone getOps p v).1 ∧ (w.run getOps schedule).vars t = (alone getOps p v).2.1 ∧
        outcome t.raised = (alone getOps p v).2.2) ∧
      (size p ≤ schedule.count i → t.stack = []) := by
  obtain ⟨t, ht, h1, h2, h3, h4⟩ := hi
  obtain ⟨t', ht', -, hl⟩ := run_local getOps i schedule (sound_reachable hw) ht
  have htot : total getOps (loc (w.run getOps schedule) t') = alone getOps p v := by
    rw [hl, total_iter]
    simp [total, loc, h1, h2, h3, h4, fin, outcome]
  have hlog : t'.log ++ (fin getOps t'.stack (outcome t'.raised) ((w.run getOps schedule).vars t')).1
      = (alone getOps p v).1 := congrArg Prod.fst htot
  refine ⟨t', ht', ⟨_, hlog⟩, fun hs => ?_, fun hn => ?_⟩
  · have hrest : (fin getOps t'.stack (outcome t'.raised) ((w.run getOps schedule).vars t')).2
        = (alone getOps p v).2 := by rw [← htot]; rfl
    rw [hs] at hlog hrest
    refine ⟨by simpa [fin] using hlog, ?_, ?_⟩
    · simpa [fin] using congrArg Prod.fst hrest
    · simpa [fin] using congrArg Prod.snd hrest
  · apply stack_nil
    have := stack_iter getOps (schedule.count i) (loc w t)
    rw [← hl] at this
    simp only [loc, h1, stackSize, List.map_cons, frameSize, List.map_nil, List.sum_cons, List.sum_nil] at this
    simp only [stackSize]
    omega

/-- The program itself starts with the default values: no backend chosen yet, no data validation, no operators. -/
theorem C105_main (p : Prog O F) : ReachableWorld getOps (World.start p) ∧ Starts (World.start p) 0 p {} :=
  ⟨⟨p, [], rfl⟩, _, rfl, rfl, rfl, rfl, rfl⟩

theorem reachable_step {w : World O F} (hw : ReachableWorld getOps w) (i : Nat) : ReachableWorld getOps (w.step getOps i) := by
  obtain ⟨p, s, rfl⟩ := hw
  exact ⟨p, s ++ [i], by simp [World.run]⟩

/-- A new thread starts with the default values, whatever the code that starts it has set. -/
theorem C105_new_thread {w : World O F} (hw : ReachableWorld getOps w) {i : Nat} {t : Task O F} {body : Prog O F}
    {rest : List (TaskFrame O F)} (ht : w.tasks[i]? = some t) (hs : t.stack = .code (.startThread body) :: rest)
    (hr : t.raised = none) :
    ReachableWorld getOps (w.step getOps i) ∧ Starts (w.step getOps i) w.tasks.length body {} := by
  have hi : i < w.tasks.length := (List.getElem?_eq_some_iff.1 ht).1
  refine ⟨reachable_step getOps hw i, { thread := w.threads.length, context := w.contexts.length, stack := [.code body] },
    ?_, rfl, rfl, rfl, ?_⟩
  · simp [World.step, ht, hs, hr, World.forward, World.exec, World.startThread, World.setTask, List.set_append_left _ _ hi]
  · simp [World.step, ht, hs, hr, World.forward, World.exec, World.startThread, World.setTask, World.vars]

/-- A new task starts with the values its creator has at that moment; what the creator sets later does not reach it
(`C105_alone`). -/
theorem C105_new_task {w : World O F} (hw : ReachableWorld getOps w) {i : Nat} {t : Task O F} {body : Prog O F}
    {rest : List (TaskFrame O F)} (ht : w.tasks[i]? = some t) (hs : t.stack = .code (.createTask body) :: rest)
    (hr : t.raised = none) :
    ReachableWorld getOps (w.step getOps i) ∧ Starts (w.step getOps i) w.tasks.length body (w.vars t) := by
  have hi : i < w.tasks.length := (List.getElem?_eq_some_iff.1 ht).1
  refine ⟨reachable_step getOps hw i, { thread := t.thread, context := w.contexts.length, stack := [.code body] },
    ?_, rfl, rfl, rfl, ?_⟩
  · simp [World.step, ht, hs, hr, World.forward, World.exec, World.createTask, World.setTask, List.set_append_left _ _ hi]
  · simp [World.step, ht, hs, hr, World.forward, World.exec, World.createTask, World.setTask, World.vars]

/-! ### With lexical blocks (C66) -/

/-- Code of C66 as the code of a task. -/
def Prog.ofCode : Code F → Prog O F
  | .pass => .pass
  | .seq a b => .seq (ofCode a) (ofCode b)
  | .raise e => .raise e
  | .tryExcept a b => .tryExcept (ofCode a) (ofCode b)
  | .seeOps => .seeOps
  | .seeValidation => .seeValidation
  | .useOperator s => .useOperator s
  | .useOps name b => .useOps name (ofCode b)
  | .dataValidation v b => .dataValidation v (ofCode b)
  | .defineOperators ops b => .defineOperators ops (ofCode b)

theorem exec_alone (code : Code F) : ∀ (c : Ctx O F),
    let a := alone getOps (Prog.ofCode code) ⟨c.ops, c.validation, c.operators⟩
    let b := code.exec getOps c
    b.1.log = c.log ++ a.1 ∧ b.1.ops = a.2.1.ops ∧ b.1.validation = a.2.1.validation ∧
      b.1.operators = a.2.1.operators ∧ b.2 = a.2.2 := by
  have vext : ∀ (x : Ctx O F) (v : Vars O F), x.ops = v.ops → x.validation = v.validation → x.operators = v.operators →
      (⟨x.ops, x.validation, x.operators⟩ : Vars O F) = v := by
    rintro x ⟨_, _, _⟩ h1 h2 h3; simp_all
  induction code with
  | pass => intro c; simp [Prog.ofCode, alone, Code.exec]
  | raise e => intro c; simp [Prog.ofCode, alone, Code.exec]
  | seeOps =>
    intro c
    simp only [Prog.ofCode, alone, Code.exec, getCurrentOps]
    cases ho : c.ops with
    | some o => simp [see, ho]
    | none => cases hg : getOps "cpu" <;> simp [see, setCurrentOps, ho]
  | seeValidation => intro c; simp [Prog.ofCode, alone, Code.exec, see]
  | useOperator s =>
    intro c
    simp only [Prog.ofCode, alone, Code.exec, operator]
    cases ho : c.operators.get? s <;> simp [see]
  | seq a b iha ihb =>
    intro c
    obtain ⟨h1, h2, h3, h4, h5⟩ := iha c
    simp only [Prog.ofCode, alone, Code.exec]
    rcases ha : alone getOps (Prog.ofCode a) ⟨c.ops, c.validation, c.operators⟩ with ⟨l, v, r⟩
    rcases hb : a.exec getOps c with ⟨c', r'⟩
    simp only [ha, hb] at h1 h2 h3 h4 h5
    subst h5
    cases r' with
    | error e => exact ⟨h1, h2, h3, h4, rfl⟩
    | ok u =>
      have := ihb c'
      rw [vext c' v h2 h3 h4] at this
      obtain ⟨g1, g2, g3, g4, g5⟩ := this
      exact ⟨by rw [g1, h1, List.append_assoc], g2, g3, g4, g5⟩
  | tryExcept a b iha ihb =>
    intro c
    obtain ⟨h1, h2, h3, h4, h5⟩ := iha c
    simp only [Prog.ofCode, alone, Code.exec]
    rcases ha : alone getOps (Prog.ofCode a) ⟨c.ops, c.validation, c.operators⟩ with ⟨l, v, r⟩
    rcases hb : a.exec getOps c with ⟨c', r'⟩
    simp only [ha, hb] at h1 h2 h3 h4 h5
    subst h5
    cases r' with
    | ok u => exact ⟨h1, h2, h3, h4, rfl⟩
    | error e =>
      have := ihb c'
      rw [vext c' v h2 h3 h4] at this
      obtain ⟨g1, g2, g3, g4, g5⟩ := this
      exact ⟨by rw [g1, h1, List.append_assoc], g2, g3, g4, g5⟩
  | useOps name body ih =>
    intro c
    simp only [Prog.ofCode, alone, Code.exec, Thinc.useOps, getCurrentOps]
    cases ho : c.ops with
    | some o =>
      cases hn : getOps name with
      | error e => simp [ho]
      | ok new =>
        have := ih { c with ops := some new, threadOps := some new }
        simp only at this
        obtain ⟨g1, g2, g3, g4, g5⟩ := this
        exact ⟨g1, rfl, g3, g4, g5⟩
    | none =>
      cases hg : getOps "cpu" with
      | error e => simp [ho]
      | ok o =>
        cases hn : getOps name with
        | error e => simp [setCurrentOps]
        | ok new =>
          have := ih { c with ops := some new, threadOps := some new }
          simp only at this
          obtain ⟨g1, g2, g3, g4, g5⟩ := this
          exact ⟨g1, rfl, g3, g4, g5⟩
  | dataValidation b body ih =>
    intro c
    simp only [Prog.ofCode, alone, Code.exec, Thinc.dataValidation]
    obtain ⟨h1, h2, h3, h4, h5⟩ := ih { c with validation := b }
    rcases ha : alone getOps (Prog.ofCode body) ⟨c.ops, b, c.operators⟩ with ⟨l, v, r⟩
    rcases hb : body.exec getOps { c with validation := b } with ⟨c', r'⟩
    simp only [ha, hb] at h1 h2 h3 h4 h5
    subst h5
    cases r' with
    | error e => exact ⟨h1, h2, h3, h4, rfl⟩
    | ok u => exact ⟨h1, h2, rfl, h4, rfl⟩
  | defineOperators ops body ih =>
    intro c
    simp only [Prog.ofCode, alone, Code.exec, Thinc.defineOperators]
    obtain ⟨h1, h2, h3, h4, h5⟩ := ih { c with operators := ops }
    rcases ha : alone getOps (Prog.ofCode body) ⟨c.ops, c.validation, ops⟩ with ⟨l, v, r⟩
    rcases hb : body.exec getOps { c with operators := ops } with ⟨c', r'⟩
    simp only [ha, hb] at h1 h2 h3 h4 h5
    subst h5
    cases r' with
    | error e => exact ⟨h1, h2, h3, h4, rfl⟩
    | ok u => exact ⟨h1, h2, h3, rfl, rfl⟩

/-- Blocks are lexical also among other threads and tasks: a task that consists of nested blocks sees what it should if each
block gave its value to the code inside it and nothing else, up to the point it has reached, under every schedule (as
long as no exception leaves a `data_validation` or `define_operators` block: C66). -/
theorem C105_blocks_partial {cpu : O} (hcpu : getOps "cpu" = .ok cpu) {w : World O F} (hw : ReachableWorld getOps w) {i : Nat}
    {code : Code F} {v : Vars O F} (hi : Starts w i (Prog.ofCode code) v)
    (hn : NoEscape getOps code ⟨v.ops.getD cpu, v.validation, v.operators⟩) (schedule : List Nat) :
    ∃ t, (w.run getOps schedule).tasks[i]? = some t ∧
      t.log <+: (run getOps code ⟨v.ops.getD cpu, v.validation, v.operators⟩).1 ∧
      (t.stack = [] → t.log = (run getOps code ⟨v.ops.getD cpu, v.validation, v.operators⟩).1) := by
  obtain ⟨t, h1, h2, h3, -⟩ := C105_alone getOps hw hi schedule
  obtain ⟨after, e1, e2, -⟩ := C66_nested_partial getOps code hcpu ⟨v.ops, none, v.validation, v.operators, []⟩
    ⟨v.ops.getD cpu, v.validation, v.operators⟩ ⟨rfl, rfl, rfl⟩ hn
  have h := exec_alone getOps code ⟨v.ops, none, v.validation, v.operators, []⟩
  simp only [e1, e2, List.nil_append] at h
  rw [h.1]
  exact ⟨t, h1, h2, fun hs => (h3 hs).1⟩

/-! ### The state of the thread -/

def frameNoTasks : TaskFrame O F → Prop
  | .code p | .handler p => NoTasks p
  | _ => True

theorem noTasks_step (x : Local O F) (h : ∀ f ∈ x.stack, frameNoTasks f) :
    ∀ f ∈ (lstep getOps x).stack, frameNoTasks f := by
  obtain ⟨v, s, r, l⟩ := x
  rcases s with _ | ⟨f, rest⟩
  · exact h
  · simp only [List.mem_cons, forall_eq_or_imp] at h
    obtain ⟨h0, h⟩ := h
    cases r with
    | none =>
      cases f with
      | restoreOps o => exact h
      | restoreValidation b => exact h
      | resetOperators b => exact h
      | handler b => exact h
      | code p =>
        cases p with
        | seeOps =>
          simp only [lstep, lforward, lexec, lcur]
          cases ho : v.ops with
          | some o => exact h
          | none => cases hg : getOps "cpu" <;> exact h
        | useOperator s =>
          simp only [lstep, lforward, lexec]
          cases ho : v.operators.get? s <;> exact h
        | useOps name body =>
          simp only [lstep, lforward, lexec, lcur]
          cases ho : v.ops with
          | some o =>
            cases hn : getOps name with
            | error e => exact h
            | ok new => simp only [List.mem_cons, forall_eq_or_imp]; exact ⟨h0, trivial, h⟩
          | none =>
            cases hg : getOps "cpu" with
            | error e => exact h
            | ok o =>
              cases hn : getOps name with
              | error e => exact h
              | ok new => simp only [List.mem_cons, forall_eq_or_imp]; exact ⟨h0, trivial, h⟩
        | seq a b =>
          simp only [lstep, lforward, lexec, List.mem_cons, forall_eq_or_imp]; exact ⟨h0.1, h0.2, h⟩
        | tryExcept a b =>
          simp only [lstep, lforward, lexec, List.mem_cons, forall_eq_or_imp]; exact ⟨h0.1, h0.2, h⟩
        | dataValidation b body =>
          simp only [lstep, lforward, lexec, List.mem_cons, forall_eq_or_imp]; exact ⟨h0, trivial, h⟩
        | defineOperators b body =>
          simp only [lstep, lforward, lexec, List.mem_cons, forall_eq_or_imp]; exact ⟨h0, trivial, h⟩
        | _ => exact h
    | some e =>
      cases f with
      | handler b => simp only [lstep, lunwind, List.mem_cons, forall_eq_or_imp]; exact ⟨h0, h⟩
      | _ => exact h

/-- Every task has a thread of its own, whose state agrees with its context. -/
structure OwnThread (w : World O F) : Prop where
  sound : Sound w
  own : ∀ (i j : Nat) (t u : Task O F), w.tasks[i]? = some t → w.tasks[j]? = some u → t.thread = u.thread → i = j
  agrees : ∀ (i : Nat) (t : Task O F), w.tasks[i]? = some t → w.threads[t.thread]? = some (w.vars t).ops
  noTasks : ∀ (i : Nat) (t : Task O F), w.tasks[i]? = some t → ∀ f ∈ t.stack, frameNoTasks f

theorem ownThread_step {w : World O F} (h : OwnThread w) (i : Nat) : OwnThread (w.step getOps i) := by
  cases ht : w.tasks[i]? with
  | none => rwa [step_none getOps ht]
  | some t =>
    have hc := h.sound.context i t ht
    have hth := h.sound.thread i t ht
    have hsh := step_shape getOps ht hc hth
    have hsound := hsh.sound h.sound ht
    have hnt := noTasks_step getOps (loc w t) (h.noTasks i t ht)
    have hi : i < w.tasks.length := (List.getElem?_eq_some_iff.1 ht).1
    have hag := h.agrees i t ht
    generalize hx : lstep getOps (loc w t) = x at hsh hnt
    -- which tasks there are afterwards
    have key : ∀ (j : Nat) (u : Task O F), (w.step getOps i).tasks[j]? = some u →
        (w.step getOps i).threads[u.thread]? = some ((w.step getOps i).vars u).ops ∧ (∀ f ∈ u.stack, frameNoTasks f) ∧
        ((∃ u', w.tasks[j]? = some u' ∧ u.thread = u'.thread) ∨ (j = w.tasks.length ∧ u.thread = w.threads.length)) := by
      intro j u hu
      by_cases hj : j < w.tasks.length
      · obtain ⟨u', hu'⟩ : ∃ u', w.tasks[j]? = some u' := ⟨_, List.getElem?_eq_getElem hj⟩
        by_cases hij : j = i
        · subst hij
          obtain ⟨t', e1, e2, e3⟩ := hsh.self ht hc
          rw [hu] at e1
          obtain rfl : u = t' := Option.some.inj e1
          have ev : (w.step getOps j).vars u = x.vars := congrArg Local.vars e3
          have es : u.stack = x.stack := congrArg Local.stack e3
          refine ⟨?_, es ▸ hnt, .inl ⟨t, ht, e2⟩⟩
          obtain ⟨t'', th, ec, et, e4, -, -, -, -, -, -, -, -, h9⟩ := hsh
          rw [ev, e2]
          have e5 : (w.step getOps j).threads = th := by rw [e4]
          rw [e5]
          rcases h9 with ⟨a, b⟩ | b
          · rw [a, b, hag]
          · exact b
        · obtain ⟨e1, e2⟩ := hsh.other h.sound ht hu' hij
          rw [hu] at e1
          obtain rfl : u = u' := Option.some.inj e1
          have ev : (w.step getOps i).vars u = w.vars u := congrArg Local.vars e2
          refine ⟨?_, h.noTasks j u hu', .inl ⟨u, hu', rfl⟩⟩
          obtain ⟨t'', th, ec, et, e4, -, -, -, -, -, -, -, h8, -⟩ := hsh
          have e5 : (w.step getOps i).threads = th := by rw [e4]
          rw [ev, e5, h8 u.thread (fun e => hij (h.own _ _ _ _ hu' ht e)) (h.sound.thread j u hu'), h.agrees j u hu']
      · obtain ⟨t'', th, ec, et, e4, -, -, -, -, -, -, h7, -, -⟩ := hsh
        rw [e4] at hu ⊢
        simp only [List.getElem?_append, List.length_set, if_neg hj] at hu
        rcases h7 with ⟨rfl, rfl⟩ | ⟨v, n, rfl, rfl, g1, g2, ⟨body, g3, g4, g5, g6, g7⟩ | ⟨body, g3⟩⟩
        · simp at hu
        · obtain ⟨hl, e⟩ := List.getElem?_eq_some_iff.1 hu
          simp only [List.length_cons, List.length_nil] at hl
          simp only [List.getElem_singleton] at e
          subst e
          refine ⟨?_, ?_, .inr ⟨by omega, g4⟩⟩
          · simp [World.vars, g1, g5, g6]
          · rw [g3]
            simp only [List.mem_singleton, forall_eq]
            have : TaskFrame.code (.startThread body) ∈ t.stack := List.mem_of_mem_head? g7
            have hb : frameNoTasks (TaskFrame.code (.startThread body)) := h.noTasks i t ht _ this
            exact hb
        · exact absurd (h.noTasks i t ht _ (List.mem_of_mem_head? g3)) id
    refine ⟨hsound, fun j k u u' hu hu' e => ?_, fun j u hu => (key j u hu).1, fun j u hu => (key j u hu).2.1⟩
    rcases (key j u hu).2.2 with ⟨a, ha, e1⟩ | ⟨e1, e2⟩ <;> rcases (key k u' hu').2.2 with ⟨b, hb, e3⟩ | ⟨e3, e4⟩
    · exact h.own _ _ _ _ ha hb (by rw [← e1, ← e3, e])
    · have := h.sound.thread j a ha
      omega
    · have := h.sound.thread k b hb
      omega
    · omega

/-- In a program with any number of threads but without asynchronous tasks, `contextvars_eq_thread_ops` is true in every
thread at every moment. -/
theorem C105_thread_state_partial {T : Type} [DecidableEq T] (type : O → T) {p : Prog O F} (hp : NoTasks p)
    (schedule : List Nat) {i : Nat} {t : Task O F} (ht : ((World.start p).run getOps schedule).tasks[i]? = some t) :
    ((World.start p).run getOps schedule).contextEqThread type t = true := by
  have h0 : OwnThread (World.start p) := by
    have h : ∀ (i : Nat) (t : Task O F), (World.start p).tasks[i]? = some t →
        i = 0 ∧ t = { thread := 0, context := 0, stack := [.code p] } := by
      intro i t ht
      cases i with
      | zero =>
        simp only [World.start, List.getElem?_cons_zero, Option.some.injEq] at ht
        exact ⟨rfl, ht.symm⟩
      | succ i => simp [World.start] at ht
    refine ⟨sound_start p, fun i j t u ht hu _ => ?_, fun i t ht => ?_, fun i t ht => ?_⟩
    · rw [(h i t ht).1, (h j u hu).1]
    · rw [(h i t ht).2]; rfl
    · rw [(h i t ht).2]; simpa [frameNoTasks] using hp
  have hrun : ∀ (s : List Nat) (w : World O F), OwnThread w → OwnThread (w.run getOps s) := by
    intro s
    induction s with
    | nil => exact fun _ h => h
    | cons j s ih => exact fun w h => ih _ (ownThread_step getOps h j)
  have := (hrun schedule _ h0).agrees i t ht
  simp [World.contextEqThread, this]

/-- With asynchronous tasks it can be false, although every task has the right backend: one task is inside `use_ops` when
another one of the same thread asks. -/
theorem C105_thread_state_violated {type : O → Nat} {cpu gpu : O} (hcpu : getOps "cpu" = .ok cpu)
    (hgpu : getOps "cupy" = .ok gpu) (hne : type cpu ≠ type gpu) :
    ∃ (p : Prog O F) (schedule : List Nat) (t : Task O F),
      ((World.start p).run getOps schedule).tasks[0]? = some t ∧ t.log = [.ops cpu] ∧
      ((World.start p).run getOps schedule).contextEqThread type t = false := by
  refine ⟨.seq .seeOps (.createTask (.useOps "cupy" .seeOps)), [0, 0, 0, 1],
    { thread := 0, context := 0, stack := [], log := [.ops cpu] }, ?_, rfl, ?_⟩
  · simp [World.run, World.start, World.step, World.forward, World.exec, World.setTask, World.currentOps, World.vars, hcpu,
      hgpu, World.setOps, World.setVars, World.createTask, World.enterUseOps]
  · simp [World.run, World.start, World.step, World.forward, World.exec, World.setTask, World.currentOps, World.vars, hcpu,
      hgpu, World.setOps, World.setVars, World.createTask, World.enterUseOps, World.contextEqThread, hne]

/-! ### A concrete case -/

namespace ThreadCase

/-- Backends with the names 0 ("cpu") and 1 ("cupy"). -/
def backends : String → Except PyErr Nat
  | "cpu" => .ok 0
  | "cupy" => .ok 1
  | _ => .error .valueError

/-- The program starts a thread and a task inside `use_ops("cupy")`, which look at the backend. -/
def prog : Prog Nat Nat :=
  .useOps "cupy" (.seq (.startThread .seeOps) (.seq (.createTask (.seq .seeOps .seeOps)) .seeOps))

/-- The thread sees the CPU backend, the task and the program see the GPU backend: also although the program has left the
block before the task runs. -/
example : ((World.start prog).run backends [0, 0, 0, 0, 0, 1, 0, 0, 2, 2, 2]).tasks.map (fun t => (t.stack.length, t.log.map
    fun | .ops o => o | _ => 7)) = [(0, [1]), (0, [0]), (0, [1, 1])] := by
  decide +kernel

/-- `C105_alone` applies to the task. -/
example : ∃ w, ReachableWorld backends w ∧ Starts w 2 (.seq .seeOps .seeOps : Prog Nat Nat) { ops := some 1 } := by
  refine ⟨(World.start prog).run backends [0, 0, 0, 0, 0], ⟨prog, _, rfl⟩, ?_⟩
  exact ⟨{ thread := 0, context := 2, stack := [.code (.seq .seeOps .seeOps)] }, rfl, rfl, rfl, rfl, rfl⟩

/-- `C105_thread_state_partial` applies to programs with threads. -/
example : NoTasks (.useOps "cupy" (.startThread .seeOps) : Prog Nat Nat) := trivial

end ThreadCase
end Thinc
