import Verif.Spec.Context
import Mathlib.Tactic.Common
/-!
# C66: context managers
-/
namespace Thinc
open Spec

section
variable {O F α : Type} (getOps : String → Except PyErr O)

/-- `use_ops` with any code inside (which may change everything, also the current backend, and may raise): inside the block
the backend is the given one, afterwards it is the one from before, and nothing else is changed by the block itself.  (If
there was no backend yet, the one from before is the CPU backend.) -/
theorem C66_use_ops (name : String) (body : CtxM O F α) (c : Ctx O F) {cpu new : O} (hcpu : getOps "cpu" = .ok cpu)
    (hnew : getOps name = .ok new) :
    let inside : Ctx O F := { c with ops := some new, threadOps := some new }
    ∃ after, useOps getOps name body c = (after, (body inside).2) ∧
      getCurrentOps getOps after = (after, .ok (c.ops.getD cpu)) ∧ after.threadOps = some (c.ops.getD cpu) ∧
      after.validation = (body inside).1.validation ∧ after.operators = (body inside).1.operators ∧
      after.log = (body inside).1.log := by
  refine ⟨{ (body { c with ops := some new, threadOps := some new }).1 with
    ops := some (c.ops.getD cpu), threadOps := some (c.ops.getD cpu) }, ?_, rfl, rfl, rfl, rfl, rfl⟩
  cases h : c.ops with
  | none => simp only [useOps, getCurrentOps, h, hcpu, hnew, setCurrentOps, Option.getD_none]
  | some o => simp only [useOps, getCurrentOps, h, hnew, setCurrentOps, Option.getD_some]

/-- A name that is not known: the block does not run, and the backend stays. -/
theorem C66_use_ops_unknown (name : String) (body : CtxM O F α) (c : Ctx O F) {cpu : O} (hcpu : getOps "cpu" = .ok cpu)
    {e : PyErr} (hnew : getOps name = .error e) :
    ∃ after, useOps getOps name body c = (after, .error e) ∧ getCurrentOps getOps after = (after, .ok (c.ops.getD cpu)) ∧
      after.validation = c.validation ∧ after.operators = c.operators ∧ after.log = c.log := by
  cases h : c.ops with
  | none => exact ⟨{ c with ops := some cpu, threadOps := some cpu },
      by simp only [useOps, getCurrentOps, h, hcpu, hnew, setCurrentOps], rfl, rfl, rfl, rfl⟩
  | some o => exact ⟨c, by simp only [useOps, getCurrentOps, h, hnew], by simp [getCurrentOps, h], rfl, rfl, rfl⟩

/-- `data_validation` and `define_operators` restore the value if no exception leaves the block. -/
theorem C66_restored_partial (v : Bool) (ops : PyDict String F) (body : CtxM O F α) (c : Ctx O F) :
    (∀ c' a, body { c with validation := v } = (c', .ok a) →
      dataValidation v body c = ({ c' with validation := c.validation }, .ok a)) ∧
    ∀ c' a, body { c with operators := ops } = (c', .ok a) →
      defineOperators ops body c = ({ c' with operators := c.operators }, .ok a) := by
  constructor
  · intro c' a h; simp only [dataValidation, h]
  · intro c' a h; simp only [defineOperators, h]

/-- If an exception leaves the block, they do not: the value set for the block stays in force. -/
theorem C66_not_restored (v : Bool) (ops : PyDict String F) (e : PyErr) (c : Ctx O F) :
    ((dataValidation v (fun c => (c, (.error e : Except PyErr α))) c).1.validation = v) ∧
    (defineOperators ops (fun c => (c, (.error e : Except PyErr α))) c).1.operators = ops := ⟨rfl, rfl⟩

/-- The state gives these values. -/
def Gives (cpu : O) (c : Ctx O F) (env : Env O F) : Prop :=
  c.ops.getD cpu = env.ops ∧ c.validation = env.validation ∧ c.operators = env.operators

/-- Any nesting of the blocks, with exceptions and handlers, as long as no exception leaves a `data_validation` or
`define_operators` block: the code sees exactly what it would see if each block gave its value to the code inside it and
nothing else, raises the same exceptions, and all values are as before afterwards. -/
theorem C66_nested_partial (code : Code F) {cpu : O} (hcpu : getOps "cpu" = .ok cpu) :
    ∀ (c : Ctx O F) (env : Env O F), Gives cpu c env → NoEscape getOps code env →
      ∃ after, code.exec getOps c = (after, (run getOps code env).2) ∧ after.log = c.log ++ (run getOps code env).1 ∧
        Gives cpu after env := by
  induction code with
  | pass => exact fun c env h _ => ⟨c, rfl, by simp [run], h⟩
  | raise e => exact fun c env h _ => ⟨c, rfl, by simp [run], h⟩
  | seq a b iha ihb =>
    intro c env h hn
    obtain ⟨c1, e1, l1, g1⟩ := iha c env h hn.1
    simp only [Code.exec, e1, run]
    rcases hr : run getOps a env with ⟨l, _ | _⟩
    · rw [hr] at l1
      exact ⟨c1, rfl, l1, g1⟩
    · rw [hr] at l1
      obtain ⟨c2, e2, l2, g2⟩ := ihb c1 env g1 (hn.2 (by rw [hr]))
      exact ⟨c2, e2, by rw [l2, l1, List.append_assoc], g2⟩
  | tryExcept a b iha ihb =>
    intro c env h hn
    obtain ⟨c1, e1, l1, g1⟩ := iha c env h hn.1
    simp only [Code.exec, e1, run]
    rcases hr : run getOps a env with ⟨l, _ | _⟩
    · rw [hr] at l1
      obtain ⟨c2, e2, l2, g2⟩ := ihb c1 env g1 (hn.2 (by rw [hr]; simp))
      exact ⟨c2, e2, by rw [l2, l1, List.append_assoc], g2⟩
    · rw [hr] at l1
      exact ⟨c1, rfl, l1, g1⟩
  | seeOps =>
    intro c env h _
    obtain ⟨h1, h2, h3⟩ := h
    cases ho : c.ops with
    | none =>
      rw [ho] at h1
      refine ⟨{ c with ops := some cpu, threadOps := some cpu, log := c.log ++ [.ops cpu] },
        by simp only [Code.exec, getCurrentOps, ho, hcpu, see, setCurrentOps, run], ?_, ?_, h2, h3⟩
      · simpa [run] using h1
      · simpa using h1
    | some o =>
      rw [ho] at h1
      refine ⟨{ c with log := c.log ++ [.ops o] }, by simp only [Code.exec, getCurrentOps, ho, see, run], ?_, ?_, h2, h3⟩
      · simpa [run] using h1
      · simpa [ho] using h1
  | seeValidation =>
    rintro c env ⟨h1, h2, h3⟩ _
    exact ⟨_, rfl, by simp [run, h2], h1, h2, h3⟩
  | useOperator s =>
    rintro c env ⟨h1, h2, h3⟩ _
    simp only [Code.exec, operator, h3, run]
    cases env.operators.get? s with
    | none => exact ⟨c, rfl, by simp, h1, h2, h3⟩
    | some f => exact ⟨_, rfl, rfl, h1, h2, h3⟩
  | useOps name body ih =>
    intro c env h hn
    cases hg : getOps name with
    | error e =>
      obtain ⟨after, e1, e2, e3, e4, e5⟩ := C66_use_ops_unknown getOps name (body.exec getOps) c hcpu hg
      refine ⟨after, ?_, ?_, ?_, e3.trans h.2.1, e4.trans h.2.2⟩
      · simp only [Code.exec, e1, run, hg]
      · simp [run, hg, e5]
      · cases ho : after.ops with
        | none =>
          simp only [getCurrentOps, ho, hcpu, setCurrentOps] at e2
          have := (Prod.mk.inj e2).2
          simp only [Except.ok.injEq] at this
          rw [Option.getD_none, this]; exact h.1
        | some o =>
          simp only [getCurrentOps, ho] at e2
          have := (Prod.mk.inj e2).2
          simp only [Except.ok.injEq] at this
          rw [Option.getD_some, this]; exact h.1
    | ok o =>
      obtain ⟨after, e1, e2, e3, e4, e5, e6⟩ := C66_use_ops getOps name (body.exec getOps) c hcpu hg
      obtain ⟨c1, f1, f2, f3⟩ := ih { c with ops := some o, threadOps := some o } { env with ops := o } ⟨rfl, h.2⟩ (hn o hg)
      rw [f1] at e1 e4 e5 e6
      refine ⟨after, ?_, ?_, ?_, e4.trans f3.2.1, e5.trans f3.2.2⟩
      · simp only [Code.exec, e1, run, hg]
      · simp only [run, hg, e6, f2]
      · cases ho : after.ops with
        | none =>
          simp only [getCurrentOps, ho, hcpu, setCurrentOps] at e2
          have := (Prod.mk.inj e2).2
          simp only [Except.ok.injEq] at this
          rw [Option.getD_none, this]; exact h.1
        | some o =>
          simp only [getCurrentOps, ho] at e2
          have := (Prod.mk.inj e2).2
          simp only [Except.ok.injEq] at this
          rw [Option.getD_some, this]; exact h.1
  | dataValidation v body ih =>
    intro c env h hn
    obtain ⟨c1, f1, f2, f3⟩ := ih { c with validation := v } { env with validation := v } ⟨h.1, rfl, h.2.2⟩ hn.1
    rw [hn.2] at f1
    exact ⟨{ c1 with validation := c.validation }, ((C66_restored_partial v [] (body.exec getOps) c).1 c1 () f1).trans (by simp only [run, hn.2]), f2, f3.1, h.2.1, f3.2.2⟩
  | defineOperators ops body ih =>
    intro c env h hn
    obtain ⟨c1, f1, f2, f3⟩ := ih { c with operators := ops } { env with operators := ops } ⟨h.1, h.2.1, rfl⟩ hn.1
    rw [hn.2] at f1
    exact ⟨{ c1 with operators := c.operators }, ((C66_restored_partial true ops (body.exec getOps) c).2 c1 () f1).trans (by simp only [run, hn.2]), f2, f3.1, f3.2.1, h.2.2⟩

/-- Blocks of all three kinds, an exception that leaves two `use_ops` blocks and is handled inside `define_operators`. -/
example (getOps : String → Except PyErr O) (cpu o : O) (h : getOps "cpu" = .ok cpu) (h2 : getOps "numpy" = .ok o) (f : F) :
    let code : Code F := .defineOperators [(">>", f)] (.seq
      (.tryExcept (.useOps "numpy" (.seq (.dataValidation true .seeOps) (.useOps "cpu" (.raise .valueError)))) .seeOps)
      (.useOperator ">>"))
    let env : Env O F := ⟨cpu, false, []⟩
    NoEscape getOps code env ∧ (run getOps code env).1 = [.ops o, .ops cpu, .operator ">>" f] := by
  simp [NoEscape, run, h, h2, PyDict.get?]

end
end Thinc
