import Verif.Spec.Plugin
import Mathlib.Tactic.SplitIfs
import Mathlib.Tactic.ByContra
/-!
# C113: the mypy plugin
-/
namespace Thinc.Plugin
open Spec
variable {T V : Type}

theorem argModels_map (ts : List (T × T)) : argModels (ts.map fun t => .instance "thinc.model.Model" [t.1, t.2]) = .ok ts := by
  induction ts with
  | nil => rfl
  | cons t ts ih => simp [argModels, argModel, modelName, ih, bind, Except.bind, pure, Except.pure]

theorem neighbours_getElem? {α : Type} (l : List α) (k : Nat) (p : α × α) :
    (neighbours l)[k]? = some p ↔ l[k]? = some p.1 ∧ l[k + 1]? = some p.2 := by
  unfold neighbours
  rw [List.getElem?_zip_eq_some, List.getElem?_tail, List.getElem?_dropLast]
  constructor
  · rintro ⟨h1, h2⟩
    split_ifs at h1
    exact ⟨h1, h2⟩
  · rintro ⟨h1, h2⟩
    obtain ⟨h, -⟩ := List.getElem?_eq_some_iff.1 h2
    exact ⟨by rw [if_pos (by omega)]; exact h1, h2⟩

theorem mem_checkPairs {check : Nat → Nat → T × T → T × T → List Err} {ts : List (T × T)} {e : Err} :
    e ∈ checkPairs check ts ↔ ∃ (k : Nat) (a b : T × T), ts[k]? = some a ∧ ts[k + 1]? = some b ∧ e ∈ check k (k + 1) a b := by
  unfold checkPairs
  rw [List.mem_flatMap]
  constructor
  · rintro ⟨p, hp, he⟩
    obtain ⟨k, hk⟩ := List.getElem?_of_mem hp
    rw [List.getElem?_zip_eq_some, neighbours_getElem?, neighbours_getElem?] at hk
    obtain ⟨⟨h1, h2⟩, h3, h4⟩ := hk
    obtain ⟨l1, e1⟩ := List.getElem?_eq_some_iff.1 h1
    obtain ⟨l2, e2⟩ := List.getElem?_eq_some_iff.1 h2
    rw [List.getElem_range] at e1 e2
    rw [← e1, ← e2] at he
    exact ⟨k, p.2.1, p.2.2, h3, h4, he⟩
  · rintro ⟨k, a, b, ha, hb, he⟩
    refine ⟨((k, k + 1), (a, b)), ?_, he⟩
    obtain ⟨l1, -⟩ := List.getElem?_eq_some_iff.1 ha
    obtain ⟨l2, -⟩ := List.getElem?_eq_some_iff.1 hb
    refine List.mem_of_getElem? (i := k) ?_
    rw [List.getElem?_zip_eq_some, neighbours_getElem?, neighbours_getElem?]
    exact ⟨⟨List.getElem?_range l1, List.getElem?_range l2⟩, ha, hb⟩

theorem hook_combine [DecidableEq T] (sub : T → T → Bool) {var : String} {ts : List (T × T)} {ctx : Ctx T} (h : CallOf var ts ctx)
    (hv : var = sameName ∨ var = chainedName) : functionHook sub ctx =
      if var = chainedName then (checkPairs (checkChained sub) ts, onAssertion (chainedType ts))
      else (checkPairs checkSame ts, onAssertion (sameType ts)) := by
  obtain ⟨a, ha⟩ := h.callee
  have e : getReducersType sub ctx =
      if var = chainedName then (checkPairs (checkChained sub) ts, chainedType ts) else (checkPairs checkSame ts, sameType ts) := by
    unfold getReducersType
    simp only [h.checker, h.isCall, ha, Bool.not_true, Bool.or_self, Bool.false_eq_true, if_false, modelName, ne_eq, not_true]
    rw [if_neg (by rcases hv with rfl | rfl <;> decide), if_neg (by rcases hv with rfl | rfl <;> decide)]
    unfold combine
    rw [h.args, argModels_map]
  unfold functionHook
  rw [e]
  split_ifs <;> rfl

theorem chain_hook [DecidableEq T] (sub : T → T → Bool) {ts : List (T × T)} {ctx : Ctx T} (h : CallOf "thinc.types.XY_YZ_OutT" ts ctx) :
    functionHook sub ctx = (checkPairs (checkChained sub) ts, onAssertion (chainedType ts)) := by
  rw [hook_combine sub h (.inr rfl), if_pos (by rfl)]

theorem same_hook [DecidableEq T] (sub : T → T → Bool) {ts : List (T × T)} {ctx : Ctx T} (h : CallOf "thinc.types.XY_XY_OutT" ts ctx) :
    functionHook sub ctx = (checkPairs checkSame ts, onAssertion (sameType ts)) := by
  rw [hook_combine sub h (.inl rfl), if_neg (by decide)]

/-- `chain` of models with declared types, any number of them: argument `k` gets the error for its output if and only if its
output type is not a subtype of the input type of the argument after it; an argument gets the error for its input if and only
if the output type of the one before it is not a subtype of its input type; and the type of the call is
`Model[input of the first, output of the last]`. -/
theorem C113_chain [DecidableEq T] (sub : T → T → Bool) {ts : List (T × T)} {ctx : Ctx T} (h : CallOf "thinc.types.XY_YZ_OutT" ts ctx) :
    (∀ k, (k, Code.output) ∈ (functionHook sub ctx).1 ↔
      ∃ a b, ts[k]? = some a ∧ ts[k + 1]? = some b ∧ sub a.2 b.1 = false) ∧
    (∀ k, (k, Code.input) ∈ (functionHook sub ctx).1 ↔
      ∃ j a b, k = j + 1 ∧ ts[j]? = some a ∧ ts[k]? = some b ∧ sub a.2 b.1 = false) ∧
    ∀ a b, ts.head? = some a → ts.getLast? = some b → (functionHook sub ctx).2 = .ok (.model a.1 b.2) := by
  rw [chain_hook sub h]
  refine ⟨fun k => ?_, fun k => ?_, fun a b ha hb => ?_⟩
  · rw [mem_checkPairs]
    constructor
    · rintro ⟨j, a, b, ha, hb, he⟩
      unfold checkChained at he
      split_ifs at he with hs
      · cases he
      · simp only [List.mem_cons, Prod.mk.injEq, and_true, List.not_mem_nil, or_false, reduceCtorEq, and_false] at he
        subst he
        exact ⟨a, b, ha, hb, by simpa using hs⟩
    · rintro ⟨a, b, ha, hb, hs⟩
      refine ⟨k, a, b, ha, hb, ?_⟩
      simp [checkChained, hs]
  · rw [mem_checkPairs]
    constructor
    · rintro ⟨j, a, b, ha, hb, he⟩
      unfold checkChained at he
      split_ifs at he with hs
      · cases he
      · simp only [List.mem_cons, Prod.mk.injEq, and_true, List.not_mem_nil, or_false, reduceCtorEq, and_false, false_or] at he
        subst he
        exact ⟨j, a, b, rfl, ha, hb, by simpa using hs⟩
    · rintro ⟨j, a, b, rfl, ha, hb, hs⟩
      refine ⟨j, a, b, ha, hb, ?_⟩
      simp [checkChained, hs]
  · simp only [chainedType, ha, hb, onAssertion]

/-- So there is no error if and only if the models fit together. -/
theorem C113_chain_accepted [DecidableEq T] (sub : T → T → Bool) {ts : List (T × T)} {ctx : Ctx T}
    (h : CallOf "thinc.types.XY_YZ_OutT" ts ctx) : (functionHook sub ctx).1 = [] ↔ Fits sub ts := by
  rw [chain_hook sub h, List.eq_nil_iff_forall_not_mem]
  constructor
  · intro hn k a b ha hb
    by_cases hs : sub a.2 b.1 = true
    · exact hs
    · refine absurd (mem_checkPairs.2 ⟨k, a, b, ha, hb, ?_⟩) (hn (k, .output))
      rw [checkChained, if_neg hs]
      simp
  · intro hf e he
    obtain ⟨k, a, b, ha, hb, he⟩ := mem_checkPairs.1 he
    rw [checkChained, if_pos (hf k a b ha hb)] at he
    cases he

theorem allSame_of_steps {ts : List (T × T)} (h : ∀ (k : Nat) (a b : T × T), ts[k]? = some a → ts[k + 1]? = some b → a = b) :
    ∀ (k : Nat) (a b : T × T), ts[0]? = some a → ts[k]? = some b → a = b := by
  intro k
  induction k with
  | zero =>
    intro a b ha hb
    rw [ha] at hb
    cases hb; rfl
  | succ k ih =>
    intro a b ha hb
    obtain ⟨hl, -⟩ := List.getElem?_eq_some_iff.1 hb
    have hk : ts[k]? = some (ts[k]'(by omega)) := List.getElem?_eq_getElem (by omega)
    rw [ih a _ ha hk]
    exact h k _ b hk hb

/-- `add` and `concatenate` of models with declared types, any number of them: there is no error if and only if all have the
same input type and the same output type, and the type of the call is that of the first. -/
theorem C113_same [DecidableEq T] (sub : T → T → Bool) {ts : List (T × T)} {ctx : Ctx T} (h : CallOf "thinc.types.XY_XY_OutT" ts ctx) :
    ((functionHook sub ctx).1 = [] ↔ AllSame ts) ∧
    (∀ k, (k, Code.input) ∈ (functionHook sub ctx).1 ↔
      ∃ a b, ts[k]? = some a ∧ (ts[k + 1]? = some b ∨ ∃ j, k = j + 1 ∧ ts[j]? = some b) ∧ a.1 ≠ b.1) ∧
    (∀ k, (k, Code.output) ∈ (functionHook sub ctx).1 ↔
      ∃ a b, ts[k]? = some a ∧ (ts[k + 1]? = some b ∨ ∃ j, k = j + 1 ∧ ts[j]? = some b) ∧ a.2 ≠ b.2) ∧
    ∀ a, ts.head? = some a → (functionHook sub ctx).2 = .ok (.model a.1 a.2) := by
  rw [same_hook sub h]
  refine ⟨?_, fun k => ?_, fun k => ?_, fun a ha => ?_⟩
  · rw [List.eq_nil_iff_forall_not_mem]
    constructor
    · intro hn
      have steps : ∀ (k : Nat) (a b : T × T), ts[k]? = some a → ts[k + 1]? = some b → a = b := by
        intro k a b ha hb
        by_contra hne
        by_cases h1 : a.1 = b.1
        · have h2 : a.2 ≠ b.2 := fun h2 => hne (Prod.ext h1 h2)
          refine hn (k, .output) (mem_checkPairs.2 ⟨k, a, b, ha, hb, ?_⟩)
          simp [checkSame, checkSameOut, h2]
        · refine hn (k, .input) (mem_checkPairs.2 ⟨k, a, b, ha, hb, ?_⟩)
          simp [checkSame, checkSameIn, h1]
      intro a ha b hb
      obtain ⟨i, hi⟩ := List.getElem?_of_mem ha
      obtain ⟨j, hj⟩ := List.getElem?_of_mem hb
      obtain ⟨hl, -⟩ := List.getElem?_eq_some_iff.1 hi
      have h0 : ts[0]? = some (ts[0]'(by omega)) := List.getElem?_eq_getElem (by omega)
      rw [← allSame_of_steps steps i _ a h0 hi, ← allSame_of_steps steps j _ b h0 hj]
    · intro hs e he
      obtain ⟨k, a, b, ha, hb, he⟩ := mem_checkPairs.1 he
      have := hs a (List.mem_of_getElem? ha) b (List.mem_of_getElem? hb)
      subst this
      simp [checkSame, checkSameIn, checkSameOut] at he
  · rw [mem_checkPairs]
    constructor
    · rintro ⟨j, a, b, ha, hb, he⟩
      rw [checkSame, List.mem_append] at he
      rcases he with he | he
      · unfold checkSameIn at he
        split_ifs at he with hne
        · simp only [List.mem_cons, Prod.mk.injEq, and_true, List.not_mem_nil, or_false] at he
          rcases he with rfl | rfl
          · exact ⟨a, b, ha, .inl hb, hne⟩
          · exact ⟨b, a, hb, .inr ⟨j, rfl, ha⟩, fun e => hne e.symm⟩
        · cases he
      · unfold checkSameOut at he
        split_ifs at he
        · simp at he
        · cases he
    · rintro ⟨a, b, ha, hb | ⟨j, rfl, hb⟩, hne⟩
      · exact ⟨k, a, b, ha, hb, by simp [checkSame, checkSameIn, hne]⟩
      · exact ⟨j, b, a, hb, ha, by simp [checkSame, checkSameIn, Ne.symm hne]⟩
  · rw [mem_checkPairs]
    constructor
    · rintro ⟨j, a, b, ha, hb, he⟩
      rw [checkSame, List.mem_append] at he
      rcases he with he | he
      · unfold checkSameIn at he
        split_ifs at he
        · simp at he
        · cases he
      · unfold checkSameOut at he
        split_ifs at he with hne
        · simp only [List.mem_cons, Prod.mk.injEq, and_true, List.not_mem_nil, or_false] at he
          rcases he with rfl | rfl
          · exact ⟨a, b, ha, .inl hb, hne⟩
          · exact ⟨b, a, hb, .inr ⟨j, rfl, ha⟩, fun e => hne e.symm⟩
        · cases he
    · rintro ⟨a, b, ha, hb | ⟨j, rfl, hb⟩, hne⟩
      · exact ⟨k, a, b, ha, hb, by simp [checkSame, checkSameOut, hne]⟩
      · exact ⟨j, b, a, hb, ha, by simp [checkSame, checkSameOut, Ne.symm hne]⟩
  · simp only [sameType, ha, onAssertion]

theorem argModels_error : ∀ (l : List (ArgType T)) (e : PyErr), argModels l = .error e → e = .assertionError
  | [], e, h => by cases h
  | t :: l, e, h => by
    simp only [argModels, bind, Except.bind] at h
    split at h
    · rename_i e' h'
      cases h
      unfold argModel at h'
      split at h'
      · split_ifs at h'
        · cases h'; rfl
        · split at h'
          · cases h'
          · cases h'; rfl
      · cases h'; rfl
    · split at h
      · rename_i h'
        cases h
        exact argModels_error l _ h'
      · cases h

theorem argModels_mem : ∀ {l : List (ArgType T)} {ts : List (T × T)}, argModels l = .ok ts → ∀ t ∈ l, ∃ i o, t = .instance "thinc.model.Model" [i, o]
  | [], _, _, t, ht => by cases ht
  | u :: l, ts, h, t, ht => by
    simp only [argModels, bind, Except.bind] at h
    split at h
    · cases h
    · rename_i m hm
      split at h
      · cases h
      · rename_i ms hms
        rcases List.mem_cons.1 ht with rfl | ht
        · unfold argModel at hm
          split at hm
          · rename_i name args
            split_ifs at hm with hn
            · split at hm
              · rename_i i o
                refine ⟨i, o, ?_⟩
                rw [show name = modelName from by simpa using hn]; rfl
              · cases hm
          · cases hm
        · exact argModels_mem hms t ht

/-- Everything else is left to mypy: no error is reported and the type is mypy's own, if the callee is not a function called by
its name and declared to return `Model[…, XY_YZ_OutT]` or `Model[…, XY_XY_OutT]`, or if an argument is not a `Model[…, …]` (an
unpacked list, an instance of a subclass). -/
theorem C113_others [DecidableEq T] (sub : T → T → Bool) (ctx : Ctx T)
    (h : (¬ ∃ a, ctx.callee = .result "thinc.model.Model" [a, .var "thinc.types.XY_YZ_OutT"] ∨
        ctx.callee = .result "thinc.model.Model" [a, .var "thinc.types.XY_XY_OutT"]) ∨
      ∃ t ∈ ctx.argTypes.flatten, ¬ ∃ i o, t = .instance "thinc.model.Model" [i, o]) :
    functionHook sub ctx = ([], .ok .default) := by
  have key : getReducersType sub ctx = ([], .error .assertionError) ∨ getReducersType sub ctx = ([], .ok .default) := by
    unfold getReducersType
    split_ifs with hc
    · exact .inl rfl
    · split
      · exact .inl rfl
      · exact .inl rfl
      · rename_i name args hcal
        split_ifs with hn
        · exact .inl rfl
        · split
          · rename_i a v
            split_ifs with h1 h2
            · exact .inl rfl
            · exact .inr rfl
            · rcases h with h | ⟨t, ht, hno⟩
              · exfalso
                refine h ⟨a, ?_⟩
                rw [hcal, show name = modelName from by simpa using hn]
                by_cases hv : v = chainedName
                · exact .inl (by rw [hv]; rfl)
                · refine .inr ?_
                  rw [show v = sameName from by
                    by_contra hs
                    exact h2 ⟨hs, hv⟩]
                  rfl
              · left
                unfold combine
                rcases hm : argModels ctx.argTypes.flatten with e | ts
                · simp only [argModels_error _ _ hm]
                · exact absurd (argModels_mem hm t ht) hno
          · exact .inl rfl
  unfold functionHook
  rcases key with h | h <;> rw [h] <;> rfl

theorem runChain_ok {den : T → V → Prop} {sub : T → T → Bool} (hsub : ∀ a b, sub a b = true → ∀ v, den a v → den b v) :
    ∀ (ps : List (Expr T V × (T × T))), (∀ p ∈ ps, ∀ x, den p.2.1 x → ∃ y, run p.1 x = some y ∧ den p.2.2 y) →
      Fits sub (ps.map Prod.snd) → ∀ a b x, (ps.map Prod.snd).head? = some a → (ps.map Prod.snd).getLast? = some b → den a.1 x →
      ∃ y, runChain (ps.map Prod.fst) x = some y ∧ den b.2 y
  | [], _, _, a, b, x, ha, _, _ => by cases ha
  | [p], hp, _, a, b, x, ha, hb, hx => by
    simp only [List.map_cons, List.map_nil, List.head?_cons, Option.some.injEq, List.getLast?_singleton] at ha hb
    subst ha; subst hb
    obtain ⟨y, hy, hd⟩ := hp p (by simp) x hx
    exact ⟨y, by simp [runChain, hy], hd⟩
  | p :: q :: ps, hp, hf, a, b, x, ha, hb, hx => by
    simp only [List.map_cons, List.head?_cons, Option.some.injEq] at ha
    subst ha
    obtain ⟨y, hy, hd⟩ := hp p (by simp) x hx
    have hq := hsub _ _ (hf 0 p.2 q.2 rfl rfl) y hd
    obtain ⟨z, hz, hdz⟩ := runChain_ok hsub (q :: ps) (fun r hr => hp r (List.mem_cons_of_mem _ hr))
      (fun k a b ha hb => hf (k + 1) a b ha hb) q.2 b y rfl
      (by simpa only [List.map_cons, List.getLast?_cons_cons] using hb) hq
    exact ⟨z, by simp only [List.map_cons, runChain, hy, Option.bind_some] at hz ⊢; exact hz, hdz⟩

theorem runAll_ok {den : T → V → Prop} {i o : T} {x : V} :
    ∀ (es : List (Expr T V)), (∀ e ∈ es, ∃ y, run e x = some y ∧ den o y) →
      ∃ ys, runAll es x = some ys ∧ ys.length = es.length ∧ ∀ y ∈ ys, den o y
  | [], _ => ⟨[], by simp [runAll], rfl, by simp⟩
  | e :: es, h => by
    obtain ⟨y, hy, hd⟩ := h e (by simp)
    obtain ⟨ys, hys, hl, hds⟩ := runAll_ok (i := i) es fun e he => h e (List.mem_cons_of_mem _ he)
    refine ⟨y :: ys, by simp [runAll, hy, hys], by simp [hl], ?_⟩
    intro z hz
    rcases List.mem_cons.1 hz with rfl | hz
    · exact hd
    · exact hds z hz

/-- A model that the plugin accepts does not fail with the wrong type of value: whenever types denote sets of values for which
`is_subtype` is inclusion, and every layer maps values of its declared input type to values of its declared output type, so
does the whole model, however deeply it is nested. -/
theorem C113_no_type_errors [DecidableEq T] {sub : T → T → Bool} {den : T → V → Prop}
    (hsub : ∀ a b, sub a b = true → ∀ v, den a v → den b v) {e : Expr T V} {t : T × T} (hc : Checked sub e t) (hh : Honest den e) :
    ∀ x, den t.1 x → ∃ y, run e x = some y ∧ den t.2 y := by
  induction hc with
  | layer i o f =>
    cases hh with
    | layer _ _ _ h => exact fun x hx => by simpa only [run] using h x hx
  | chain ps ctx i o _ hcall hhook ih =>
    cases hh with
    | chain _ hes =>
      intro x hx
      have hp : ∀ p ∈ ps, ∀ x, den p.2.1 x → ∃ y, run p.1 x = some y ∧ den p.2.2 y :=
        fun p hp => ih p hp (hes p.1 (List.mem_map_of_mem hp))
      have hfits := (C113_chain_accepted sub hcall).1 (by rw [hhook])
      rw [chain_hook sub hcall] at hhook
      have h2 := (Prod.mk.inj hhook).2
      unfold chainedType at h2
      split at h2
      · rename_i a b ha hb
        cases h2
        obtain ⟨y, hy, hd⟩ := runChain_ok hsub ps hp hfits a b x ha hb hx
        exact ⟨y, by simpa only [run] using hy, hd⟩
      · cases h2
  | same op ps ctx i o _ hcall hhook ih =>
    cases hh with
    | same _ _ hes hop =>
      intro x hx
      have hall := (C113_same sub hcall).1.1 (by rw [hhook])
      rw [same_hook sub hcall] at hhook
      have h2 := (Prod.mk.inj hhook).2
      unfold sameType at h2
      split at h2
      · rename_i a ha
        cases h2
        have ha' := List.mem_of_head? ha
        have hrun : ∀ e ∈ ps.map Prod.fst, ∃ y, run e x = some y ∧ den a.2 y := by
          intro e he
          obtain ⟨p, hp, rfl⟩ := List.mem_map.1 he
          have := hall p.2 (List.mem_map_of_mem hp) a ha'
          have := ih p hp (hes p.1 (List.mem_map_of_mem hp)) x
          rw [hall p.2 (List.mem_map_of_mem hp) a ha'] at this
          exact this hx
        obtain ⟨ys, hys, hl, hds⟩ := runAll_ok (i := a.1) _ hrun
        have hne : ys ≠ [] := by
          rintro rfl
          simp only [List.length_nil, List.length_map] at hl
          rw [List.length_eq_zero_iff.1 hl.symm] at ha
          cases ha
        obtain ⟨z, hz, hdz⟩ := hop a.2 ys hne hds
        exact ⟨z, by simp only [run, hys, Option.bind_some]; exact hz, hdz⟩
      · cases h2

/-- A call with no arguments: the plugin fails with an IndexError, which is not caught.  `concatenate()` is a valid call, it
returns `noop()`. -/
theorem C113_no_arguments_violated [DecidableEq T] (sub : T → T → Bool) : ∃ ctx : Ctx T, CallOf "thinc.types.XY_XY_OutT" [] ctx ∧
    (functionHook sub ctx).2 = .error .indexError :=
  ⟨⟨true, true, .result "thinc.model.Model" [.var "InT", .var "thinc.types.XY_XY_OutT"], [[]]⟩, ⟨rfl, rfl, ⟨_, rfl⟩, rfl⟩, rfl⟩

/-- With at least one argument there is always a type: the plugin does not fail. -/
theorem C113_never_fails_partial [DecidableEq T] (sub : T → T → Bool) (ctx : Ctx T) (h : ctx.argTypes.flatten ≠ []) :
    ∃ t, (functionHook sub ctx).2 = .ok t := by
  unfold functionHook getReducersType
  split_ifs with hc
  · exact ⟨_, rfl⟩
  · split
    · exact ⟨_, rfl⟩
    · exact ⟨_, rfl⟩
    · split_ifs with hn
      · exact ⟨_, rfl⟩
      · split
        · split_ifs
          · exact ⟨_, rfl⟩
          · exact ⟨_, rfl⟩
          · unfold combine
            rcases hm : argModels ctx.argTypes.flatten with e | ts
            · simp only [argModels_error _ _ hm]
              exact ⟨_, rfl⟩
            · obtain ⟨a, ha⟩ : ∃ a, ts.head? = some a := by
                cases ts with
                | nil =>
                  exfalso
                  rcases hl : ctx.argTypes.flatten with _ | ⟨u, l⟩
                  · exact h hl
                  · rw [hl] at hm
                    simp only [argModels, bind, Except.bind] at hm
                    split at hm
                    · cases hm
                    · split at hm <;> cases hm
                | cons a ts => exact ⟨a, rfl⟩
              obtain ⟨b, hb⟩ : ∃ b, ts.getLast? = some b := by
                cases ts with
                | nil => cases ha
                | cons a ts => exact ⟨_, List.getLast?_eq_some_getLast (by simp)⟩
              simp only
              split_ifs
              · exact ⟨.model a.1 b.2, by simp only [chainedType, ha, hb, onAssertion]⟩
              · exact ⟨.model a.1 a.2, by simp only [sameType, ha, onAssertion]⟩
        · exact ⟨_, rfl⟩

/-! ### Examples -/

/-- Three types, as in thinc/tests/mypy/modules: arrays, ragged arrays, and either. -/
inductive ExTy where
  | floats2d
  | ragged
  | either
  deriving DecidableEq

/-- `is_subtype` for them. -/
def exSub (a b : ExTy) : Bool := a == b || b == .either

/-- A call of `chain` with models of these types. -/
def exCall (ts : List (ExTy × ExTy)) : Ctx ExTy :=
  ⟨true, true, .result "thinc.model.Model" [.var "InT", .var "thinc.types.XY_YZ_OutT"],
    [ts.map fun t => .instance "thinc.model.Model" [t.1, t.2]]⟩

theorem exCall_of (ts : List (ExTy × ExTy)) : CallOf "thinc.types.XY_YZ_OutT" ts (exCall ts) := ⟨rfl, rfl, ⟨_, rfl⟩, by simp [exCall]⟩

/-- thinc/tests/mypy/modules/fail_plugin.py: `chain(Relu(10), reduce_max(), Softmax())` is refused at the first two arguments. -/
example : (functionHook exSub (exCall [(.floats2d, .floats2d), (.ragged, .floats2d), (.floats2d, .floats2d)])).1 =
    [(0, .output), (1, .input)] := by decide

/-- The values of the types: rows, with a flag for ragged arrays. -/
def exDen : ExTy → Bool × List Nat → Prop
  | .floats2d, v => v.1 = false
  | .ragged, v => v.1 = true
  | .either, _ => True

/-- A chain that is accepted: `list2ragged`-like, then a layer for either. -/
def exExpr : Expr ExTy (Bool × List Nat) :=
  .chain [.layer .floats2d .ragged fun v => if v.1 then none else some (true, v.2), .layer .either .floats2d fun v => some (false, v.2)]

example : ∃ y, run exExpr (false, [3, 4]) = some y ∧ exDen .floats2d y := by
  have hc : Checked exSub exExpr (.floats2d, .floats2d) :=
    .chain [(.layer .floats2d .ragged fun v => if v.1 then none else some (true, v.2), (.floats2d, .ragged)),
      (.layer .either .floats2d fun v => some (false, v.2), (.either, .floats2d))] (exCall [(.floats2d, .ragged), (.either, .floats2d)])
      .floats2d .floats2d (by
        intro p hp
        simp only [List.mem_cons, List.not_mem_nil, or_false] at hp
        rcases hp with rfl | rfl
        · exact .layer _ _ _
        · exact .layer _ _ _) (exCall_of _) rfl
  have hh : Honest exDen exExpr := by
    refine .chain _ fun e he => ?_
    simp only [List.mem_cons, List.not_mem_nil, or_false] at he
    rcases he with rfl | rfl
    · exact .layer _ _ _ fun x hx => ⟨(true, x.2), by
        have hx' : x.1 = false := hx
        simp [hx'], rfl⟩
    · exact .layer _ _ _ fun x _ => ⟨(false, x.2), rfl, rfl⟩
  exact C113_no_type_errors (sub := exSub) (den := exDen) (by
    intro a b hab v hv
    cases a <;> cases b <;> first | exact hv | trivial | exact absurd hab (by decide)) hc hh (false, [3, 4]) rfl

end Thinc.Plugin
