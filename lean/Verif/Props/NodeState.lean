import Verif.Lemmas.NodeState
/-!
# C03, C04 and the value part of C14: dims, params and gradients of one node
-/
namespace Thinc
variable {V A : Type}

/-! ## C03 -/

/-- C03. `has_dim` is False / None / True exactly when `get_dim` raises KeyError / raises
ValueError / returns. -/
theorem C03_has_dim_trichotomy (n : Node V A) (name : String) :
    (n.hasDim name = some false ↔ n.getDim name = .error .keyError) ∧
    (n.hasDim name = none ↔ n.getDim name = .error .valueError) ∧
    (n.hasDim name = some true ↔ ∃ v, n.getDim name = .ok v) := by
  unfold Node.hasDim Node.getDim
  cases h : n.dims.get? name with
  | none => simp
  | some o => cases o <;> simp

/-- C03. On a new model exactly the dimensions given to the constructor are registered, with the
given values. -/
theorem C03_constructor_dims (id : Nat) (nm : String) (params dims attrs refs layers shims)
    (name : String) :
    (Node.mk' id nm params dims attrs refs layers shims : Node V A).getDim name =
      match PyDict.get? dims name with
      | none => .error .keyError
      | some none => .error .valueError
      | some (some v) => .ok v := by
  unfold Node.getDim Node.mk'
  rw [Node.initParams_dims]
  cases h : PyDict.get? dims name with
  | none => simp
  | some o => cases o <;> simp

/-- C03. The exact outcome of `set_dim(name, v, force=...)`: KeyError on unknown names; ValueError
when the dimension is set to a different value and either `force` is off or some parameter is
set; otherwise it succeeds, `get_dim(name)` is then `v` and nothing else changed. -/
theorem C03_set_dim_outcome (n : Node V A) (w : n.WF) (name : String) (v : Nat) (force : Bool) :
    (n.getDim name = .error .keyError → n.setDim name v force = .error .keyError) ∧
    (∀ old, n.getDim name = .ok old → old ≠ v → (force = false ∨ ∃ p, n.hasParam p = some true) →
      n.setDim name v force = .error .valueError) ∧
    ((n.getDim name = .error .valueError ∨ n.getDim name = .ok v ∨
        (∃ old, n.getDim name = .ok old) ∧ force = true ∧ ∀ p, n.hasParam p ≠ some true) →
      ∃ n', n.setDim name v force = .ok n' ∧ n'.getDim name = .ok v ∧
        (∀ other, other ≠ name → n'.getDim other = n.getDim other) ∧
        n' = { n with dims := n'.dims }) := by
  have hany := Node.anyParamSet_iff w.hasParams
  unfold Node.getDim Node.setDim
  cases hd : n.dims.get? name with
  | none => simp
  | some o =>
    cases o with
    | none =>
      simp only [Option.isSome_none, Bool.false_and]
      refine ⟨by simp, by simp, fun _ => ⟨_, rfl, by simp, ?_, rfl⟩⟩
      intro other ho
      simp [PyDict.get?_set_ne _ (Ne.symm ho)]
    | some old =>
      refine ⟨by simp, ?_, ?_⟩
      · intro old' ho hne hf
        simp at ho; subst ho
        rcases hf with rfl | hp
        · simp [hne]
        · have := hany.2 hp
          simp [hne, this]
      · intro hc
        have hinv : ((some old).isSome && decide (some old ≠ some v) &&
            (!force || force && n.anyParamSet)) = false := by
          simp only [reduceCtorEq, Except.ok.injEq, false_or] at hc
          rcases hc with rfl | ⟨_, rfl, hp⟩
          · simp
          · have : n.anyParamSet = false := by
              rw [Bool.eq_false_iff]; intro hc
              obtain ⟨p, hp'⟩ := hany.1 hc
              exact hp p hp'
            simp [this]
        simp only [hinv]
        refine ⟨_, rfl, by simp, ?_, rfl⟩
        intro other ho
        simp [PyDict.get?_set_ne _ (Ne.symm ho)]

theorem Node.step_getDim [Add V] (n : Node V A) (op : NodeOp V A) (name : String) (v : Nat)
    (hv : n.getDim name = .ok v) (hne : (n.step op).getDim name ≠ .ok v) :
    ∃ v', v' ≠ v ∧ op = .setDim name v' true ∧ ∀ p, n.hasParam p ≠ some true := by
  cases op with
  | setDim nm v' force =>
    by_cases hnm : nm = name
    · subst hnm
      simp only [Node.step] at hne
      cases hs : n.setDim nm v' force with
      | error e => rw [hs] at hne; exact absurd hv hne
      | ok n' =>
        rw [hs] at hne
        have hn' := Node.setDim_ok hs
        have hvv : v' ≠ v := by
          rintro rfl
          apply hne
          simp only [hn', Node.getDim, PyDict.get?_set_self]
        have hget : n.dims.get? nm = some (some v) := by
          unfold Node.getDim at hv
          cases hg : n.dims.get? nm with
          | none => simp [hg] at hv
          | some o => cases o with
            | none => simp [hg] at hv
            | some w => simp [hg] at hv; rw [hv]
        simp only [Node.setDim, hget] at hs
        split at hs
        · simp at hs
        · rename_i hinv
          simp [Ne.symm hvv] at hinv
          obtain ⟨hf, hp⟩ := hinv
          refine ⟨v', hvv, by rw [hf], ?_⟩
          intro p hp'
          have : n.anyParamSet = true := by
            unfold Node.hasParam at hp'
            unfold Node.anyParamSet
            rw [List.any_eq_true]
            cases hg : n.hasParams.get? p with
            | none => simp [hg] at hp'
            | some o => cases o with
              | none => simp [hg] at hp'
              | some u => exact ⟨(p, some u), PyDict.mem_of_get? hg, rfl⟩
          simp [hf, this] at hp
    · exfalso; apply hne
      simp only [Node.step]
      cases hs : n.setDim nm v' force with
      | error e => exact hv
      | ok n' =>
        simp only
        rw [Node.setDim_ok hs]
        simpa [Node.getDim, PyDict.get?_set_ne _ hnm] using hv
  | setParam nm x => exact absurd hv (by cases x <;> exact hne)
  | setGrad nm x => exact absurd hv hne
  | incGrad nm x =>
    exfalso; apply hne
    rw [← hv]
    simp only [Node.step, Node.incGrad]; split <;> rfl
  | setAttr nm x => exact absurd hv hne
  | setName s => exact absurd hv hne

/-- C03. Once `set_dim(name, v)` succeeded, in every later history of calls, if `get_dim(name)` is
ever anything but `v` then some earlier call in that history was `set_dim(name, v', force=True)`
with a different value, made while no parameter of the model was set. -/
theorem C03_dim_never_silently_changed [Add V] (n₀ n : Node V A) (name : String) (v : Nat)
    (force : Bool) (hset : n₀.setDim name v force = .ok n) (ops : List (NodeOp V A))
    (hne : (n.run ops).getDim name ≠ .ok v) :
    ∃ pre v' post, ops = pre ++ .setDim name v' true :: post ∧ v' ≠ v ∧
      (n.run pre).getDim name = .ok v ∧ ∀ p, (n.run pre).hasParam p ≠ some true := by
  have hv : n.getDim name = .ok v := by
    rw [Node.setDim_ok hset]; simp [Node.getDim]
  clear hset n₀ force
  induction ops generalizing n with
  | nil => exact absurd hv hne
  | cons op ops ih =>
    by_cases hs : (n.step op).getDim name = .ok v
    · obtain ⟨pre, v', post, he, hvv, hg, hp⟩ := ih (n.step op) hne hs
      exact ⟨op :: pre, v', post, by rw [he]; rfl, hvv, hg, hp⟩
    · obtain ⟨v', hvv, rfl, hp⟩ := Node.step_getDim n op name v hv hs
      exact ⟨[], v', ops, rfl, hvv, hv, hp⟩

/-- `maybe_get_dim` returns the value if set, `None` otherwise, and never raises. -/
theorem C03_maybe_get_dim (n : Node V A) (name : String) :
    n.maybeGetDim name = .ok (match n.getDim name with | .ok v => some v | .error _ => none) := by
  unfold Node.maybeGetDim Node.hasDim Node.getDim
  cases h : n.dims.get? name with
  | none => simp
  | some o => cases o <;> simp [Except.map]

/-! ## C04 -/

/-- Specification: the argument of the last `set_param(name, ·)` in a history. -/
def Spec.lastSetParam (name : String) : List (NodeOp V A) → Option (Option V)
  | [] => none
  | op :: ops =>
    match Spec.lastSetParam name ops with
    | some v => some v
    | none => match op with
      | .setParam nm v => if nm = name then some v else none
      | _ => none

/-- Specification: the last array (not `None`) given to `set_param(name, ·)`. -/
def Spec.lastArray (name : String) : List (NodeOp V A) → Option V
  | [] => none
  | op :: ops =>
    match Spec.lastArray name ops with
    | some v => some v
    | none => match op with
      | .setParam nm (some v) => if nm = name then some v else none
      | _ => none

/-- A new model with parameters registered (unset) under the given names. -/
def Spec.fresh (id : Nat) (names : List String) : Node V A :=
  Node.mk' id "m" (names.map (fun s => (s, none)))

theorem Node.initParams_none_hasParams (n : Node V A) (names : List String) (k : String) :
    ((n.initParams (names.map (fun s => (s, none)))).hasParams.get? k) =
      (if k ∈ names then some none else n.hasParams.get? k) ∧
    (n.initParams (names.map (fun s => (s, none)))).params = n.params := by
  induction names generalizing n with
  | nil => simp [Node.initParams]
  | cons s names ih =>
    simp only [List.map_cons, Node.initParams]
    obtain ⟨h1, h2⟩ := ih { n with hasParams := n.hasParams.set s none }
    refine ⟨?_, h2⟩
    rw [h1]
    simp only [List.mem_cons, PyDict.get?_set]
    by_cases hk : k ∈ names
    · simp [hk]
    · by_cases hs : s = k
      · simp [hs]
      · simp [hk, hs, Ne.symm hs]

theorem Node.hasParams_run [Add V] (n : Node V A) (ops : List (NodeOp V A)) (name : String) :
    ((n.run ops).hasParams.get? name) =
      (match Spec.lastSetParam name ops with
       | some v => some (v.map (fun _ => ()))
       | none => n.hasParams.get? name) ∧
    ((n.run ops).params.get? (n.id, name)) =
      (match Spec.lastArray name ops with
       | some v => some v
       | none => n.params.get? (n.id, name)) := by
  induction ops generalizing n with
  | nil => simp [Node.run, Spec.lastSetParam, Spec.lastArray]
  | cons op ops ih =>
    rw [Node.run_cons]
    obtain ⟨h1, h2⟩ := ih (n.step op)
    rw [Node.step_id] at h2
    rw [h1, h2]
    simp only [Spec.lastSetParam, Spec.lastArray]
    constructor
    · cases hl : Spec.lastSetParam name ops with
      | some v => rfl
      | none =>
        cases op with
        | setParam nm v =>
          by_cases hnm : nm = name
          · subst hnm
            cases v <;> simp [Node.step, Node.setParam]
          · cases v <;> simp [Node.step, Node.setParam, hnm, PyDict.get?_set_ne]
        | setDim nm v f =>
          simp only [Node.step]
          cases hs : n.setDim nm v f with
          | ok n' => simp [Node.setDim_ok hs]
          | error e => rfl
        | incGrad nm v => simp only [Node.step, Node.incGrad]; split <;> rfl
        | setGrad nm v => rfl
        | setAttr nm v => rfl
        | setName nm => rfl
    · cases hl : Spec.lastArray name ops with
      | some v => rfl
      | none =>
        cases op with
        | setParam nm v =>
          by_cases hnm : nm = name
          · subst hnm
            cases v <;> simp [Node.step, Node.setParam]
          · have : (n.id, nm) ≠ (n.id, name) := by simp [hnm]
            cases v <;> simp [Node.step, Node.setParam, hnm, PyDict.get?_set_ne]
        | setDim nm v f =>
          simp only [Node.step]
          cases hs : n.setDim nm v f with
          | ok n' => simp [Node.setDim_ok hs]
          | error e => rfl
        | incGrad nm v => simp only [Node.step, Node.incGrad]; split <;> rfl
        | setGrad nm v => rfl
        | setAttr nm v => rfl
        | setName nm => rfl

/-- C04. After any history on a new model, `has_param(name)` tells whether the last
`set_param(name, ·)` gave an array (True), gave `None` or the name is only registered (None), or
the name is unknown (False); and `maybe_get_param(name)` returns exactly that array or `None`. -/
theorem C04_has_param_and_maybe_get [Add V] (id : Nat) (names : List String)
    (ops : List (NodeOp V A)) (name : String) :
    ((Spec.fresh id names : Node V A).run ops).hasParam name =
      (match Spec.lastSetParam name ops with
       | some (some _) => some true
       | some none => none
       | none => if name ∈ names then none else some false) ∧
    ((Spec.fresh id names : Node V A).run ops).maybeGetParam name =
      .ok (match Spec.lastSetParam name ops with | some v => v | none => none) := by
  have hr := Node.hasParams_run (Spec.fresh id names : Node V A) ops name
  have hid : ((Spec.fresh id names : Node V A).run ops).id = id := by
    rw [Node.run_id]; unfold Spec.fresh Node.mk'; rw [Node.initParams_id]
  have hid0 : (Spec.fresh id names : Node V A).id = id := by
    unfold Spec.fresh Node.mk'; rw [Node.initParams_id]
  have hf := Node.initParams_none_hasParams
    ({ name := "m", id := id, layers := [], refs := [], dims := [], hasParams := [], params := [],
       grads := [], attrs := [], shims := [] } : Node V A) names name
  have hf' : (Spec.fresh id names : Node V A).hasParams.get? name =
      if name ∈ names then some none else none := by
    simpa [Spec.fresh, Node.mk'] using hf.1
  have harr : ∀ v, Spec.lastSetParam name ops = some (some v) → Spec.lastArray name ops = some v := by
    clear hr hid hf hf' hid0
    induction ops with
    | nil => simp [Spec.lastSetParam]
    | cons op ops ih =>
      intro v
      simp only [Spec.lastSetParam, Spec.lastArray]
      cases hl : Spec.lastSetParam name ops with
      | some u =>
        simp only [Option.some.injEq]
        intro hu; subst hu
        simp [ih v hl]
      | none =>
        have hla : Spec.lastArray name ops = none := by
          clear ih
          induction ops with
          | nil => rfl
          | cons op ops ih =>
            simp only [Spec.lastSetParam] at hl
            cases hl2 : Spec.lastSetParam name ops with
            | some u => simp [hl2] at hl
            | none =>
              simp only [hl2] at hl
              simp only [Spec.lastArray, ih hl2]
              cases op with
              | setParam nm x =>
                cases x with
                | none => rfl
                | some x => by_cases hnm : nm = name <;> simp_all
              | _ => rfl
        simp only [hla]
        cases op with
        | setParam nm x =>
          by_cases hnm : nm = name
          · simp only [hnm, if_true, Option.some.injEq]
            rintro rfl; simp
          · simp [hnm]
        | _ => simp
  unfold Node.maybeGetParam Node.hasParam Node.getParam PyDict.contains
  rw [hid, hr.1]
  rw [hid0] at hr
  rw [hr.2]
  cases hl : Spec.lastSetParam name ops with
  | none =>
    simp only [hf']
    by_cases hn : name ∈ names <;> simp [hn]
  | some o =>
    cases o with
    | none => simp
    | some v => simp [harr v hl, Except.map]

/-- C04, the part of the property that holds of `get_param`: as long as `set_param(name, None)`
never occurs, `has_param(name)` is True iff `get_param(name)` succeeds, and it returns the last
value set; otherwise it raises KeyError.  Missing: histories with `set_param(name, None)`, for
which the code breaks the property (`C04_get_param_after_none`). -/
theorem C04_get_param_partial [Add V] (id : Nat) (names : List String)
    (ops : List (NodeOp V A)) (name : String)
    (hnone : ∀ op ∈ ops, op ≠ .setParam name none) :
    ((Spec.fresh id names : Node V A).run ops).getParam name =
      (match Spec.lastSetParam name ops with
       | some (some v) => .ok v
       | _ => .error .keyError) ∧
    (((Spec.fresh id names : Node V A).run ops).hasParam name = some true ↔
      ∃ v, ((Spec.fresh id names : Node V A).run ops).getParam name = .ok v) := by
  have hlast : Spec.lastSetParam name ops = (Spec.lastArray name ops).map some := by
    induction ops with
    | nil => rfl
    | cons op ops ih =>
      simp only [Spec.lastSetParam, Spec.lastArray]
      rw [ih (fun o ho => hnone o (by simp [ho]))]
      cases Spec.lastArray name ops with
      | some v => rfl
      | none =>
        cases op with
        | setParam nm x =>
          cases x with
          | none =>
            by_cases hnm : nm = name
            · subst hnm; exact absurd rfl (hnone _ (by simp))
            · simp [hnm]
          | some x => by_cases hnm : nm = name <;> simp [hnm]
        | _ => rfl
  have hr := Node.hasParams_run (Spec.fresh id names : Node V A) ops name
  have hid0 : (Spec.fresh id names : Node V A).id = id := by
    unfold Spec.fresh Node.mk'; rw [Node.initParams_id]
  have hid : ((Spec.fresh id names : Node V A).run ops).id = id := by
    rw [Node.run_id]; exact hid0
  have hf := Node.initParams_none_hasParams
    ({ name := "m", id := id, layers := [], refs := [], dims := [], hasParams := [], params := [],
       grads := [], attrs := [], shims := [] } : Node V A) names name
  have hp0 : (Spec.fresh id names : Node V A).params.get? (id, name) = none := by
    simp only [Spec.fresh, Node.mk']; rw [hf.2]; rfl
  have hget : ((Spec.fresh id names : Node V A).run ops).getParam name =
      (match Spec.lastSetParam name ops with
       | some (some v) => .ok v
       | _ => .error .keyError) := by
    unfold Node.getParam PyDict.contains
    rw [hid0] at hr
    rw [hid, hr.1, hr.2, hlast, hp0]
    cases Spec.lastArray name ops with
    | none => simp
    | some v => simp
  refine ⟨hget, ?_⟩
  rw [hget, (C04_has_param_and_maybe_get id names ops name).1, hlast]
  cases Spec.lastArray name ops with
  | none => simp
  | some v => simp

/-- C04 fails for `get_param` after `set_param(name, None)`: on every model, whatever array was
set before, `get_param` goes on returning it while `has_param` says the parameter is unset. -/
theorem C04_get_param_after_none (n : Node V A) (name : String) (v : V) :
    let n' := (n.setParam name (some v)).setParam name none
    n'.hasParam name = none ∧ n'.getParam name = .ok v := by
  simp [Node.setParam, Node.hasParam, Node.getParam, PyDict.contains]

/-- Parameters of one name do not affect another. -/
theorem C04_set_param_other (n : Node V A) (name other : String) (v : Option V) (h : other ≠ name) :
    (n.setParam name v).hasParam other = n.hasParam other ∧
    (n.setParam name v).getParam other = n.getParam other := by
  have : (n.id, name) ≠ (n.id, other) := by simp [Ne.symm h]
  cases v <;> simp only [Node.setParam, Node.hasParam, Node.getParam, PyDict.contains,
    PyDict.get?_set_ne _ (Ne.symm h), PyDict.get?_set_ne _ this] <;> exact ⟨trivial, rfl⟩

/-! ## C14 (values) -/

/-- Specification: the increments given to `inc_grad(name, ·)` in a history, in order. -/
def Spec.increments (name : String) : List (String × V) → List V
  | [] => []
  | (nm, v) :: rest => if nm = name then v :: Spec.increments name rest
                       else Spec.increments name rest

/-- Specification: left-to-right sum of a list of increments, `none` if there are none. -/
def Spec.total [Add V] : List V → Option V
  | [] => none
  | v :: vs => some (vs.foldl (· + ·) v)

/-- Run a sequence of `inc_grad` calls. -/
def Node.incGrads [Add V] (n : Node V A) : List (String × V) → Node V A
  | [] => n
  | (nm, v) :: rest => (n.incGrad nm v).incGrads rest

theorem Node.incGrad_id [Add V] (n : Node V A) (nm v) : (n.incGrad nm v).id = n.id := by
  unfold Node.incGrad; split <;> rfl

theorem Node.incGrads_get [Add V] (n : Node V A) (calls : List (String × V)) (name : String) :
    (n.incGrads calls).id = n.id ∧
    (n.incGrads calls).grads.get? (n.id, name) =
      (match n.grads.get? (n.id, name) with
        | some g => some ((Spec.increments name calls).foldl (· + ·) g)
        | none => Spec.total (Spec.increments name calls)) := by
  induction calls generalizing n with
  | nil => refine ⟨rfl, ?_⟩; simp [incGrads, Spec.increments, Spec.total]; cases n.grads.get? (n.id, name) <;> rfl
  | cons c calls ih =>
    obtain ⟨nm, v⟩ := c
    simp only [incGrads]
    obtain ⟨h1, h2⟩ := ih (n.incGrad nm v)
    rw [Node.incGrad_id] at h1 h2
    refine ⟨h1, ?_⟩
    rw [h2]
    simp only [Spec.increments]
    by_cases hnm : nm = name
    · subst hnm
      simp only [if_true]
      cases hg : n.grads.get? (n.id, nm) with
      | none => simp [Node.incGrad, hg, Spec.total]
      | some g => simp [Node.incGrad, hg]
    · have : (n.id, nm) ≠ (n.id, name) := by simp [hnm]
      have hs : (n.incGrad nm v).grads.get? (n.id, name) = n.grads.get? (n.id, name) := by
        unfold Node.incGrad
        split <;> simp [PyDict.get?_set_ne _ this]
      rw [hs, if_neg hnm]

/-- C14 (values). On a model without gradients, after any sequence of `inc_grad` calls on any
names, `get_grad(name)` is the sum of the increments given for that name and `has_grad(name)`
says whether there was one. -/
theorem C14_grad_is_sum [Add V] (n : Node V A) (hn : n.grads = []) (calls : List (String × V))
    (name : String) :
    (n.incGrads calls).getGrad name =
      (match Spec.total (Spec.increments name calls) with
       | some g => .ok g
       | none => .error .keyError) ∧
    ((n.incGrads calls).hasGrad name = true ↔ ∃ v, (name, v) ∈ calls) := by
  obtain ⟨h1, h2⟩ := Node.incGrads_get n calls name
  simp only [hn, PyDict.get?_nil] at h2
  constructor
  · simp only [Node.getGrad, h1, h2]
    cases Spec.total (Spec.increments name calls) <;> rfl
  · simp only [Node.hasGrad, PyDict.contains, h1, h2]
    have : ∀ calls : List (String × V),
        (Spec.total (Spec.increments name calls)).isSome = true ↔ ∃ v, (name, v) ∈ calls := by
      intro calls
      induction calls with
      | nil => simp [Spec.increments, Spec.total]
      | cons c calls ih =>
        obtain ⟨nm, v⟩ := c
        simp only [Spec.increments]
        by_cases hnm : nm = name
        · subst hnm; simp only [if_true, Spec.total]; exact ⟨fun _ => ⟨v, by simp⟩, fun _ => rfl⟩
        · rw [if_neg hnm, ih]; simp [Ne.symm hnm]
    exact this calls

/-! ## Non-vacuity -/

/-- A model with a set dimension `nO`, an unset one `nI`, a registered parameter `W`. -/
def exLinear : Node Int Nat :=
  Node.mk' 7 "linear" (params := [("W", none), ("b", none)]) (dims := [("nO", some 4), ("nI", none)])

example : exLinear.WF := by
  refine ⟨?_, ?_, ?_, ?_, ?_, ?_⟩ <;> simp [exLinear, Node.mk', Node.initParams, PyDict.WF, PyDict.keys, PyDict.set]

example : exLinear.setDim "nO" 5 = .error .valueError := by decide
example : ∃ n, exLinear.setDim "nO" 5 true = .ok n ∧ n.getDim "nO" = .ok 5 := by
  exact ⟨_, rfl, by decide⟩
example : (exLinear.setParam "W" (some 3)).setDim "nO" 5 true = .error .valueError := by decide
example : ∃ n, exLinear.setDim "nI" 9 = .ok n ∧
    (n.run [.setParam "W" (some 3), .setDim "nI" 8 true, .incGrad "W" 1]).getDim "nI" = .ok 9 :=
  ⟨_, rfl, by decide⟩
/-- A forced change does change the dimension, so the conclusion of
`C03_dim_never_silently_changed` is attained. -/
example : ∃ n, exLinear.setDim "nI" 9 = .ok n ∧
    (n.run [.setDim "nI" 8 true]).getDim "nI" ≠ .ok 9 := ⟨_, rfl, by decide⟩
example : ((Spec.fresh 1 ["W"] : Node Int Nat).run [.setParam "W" (some 3), .setParam "b" none]).getParam "W"
    = .ok 3 := by decide
example : (exLinear.incGrads [("W", 2), ("b", 7), ("W", 3)]).getGrad "W" = .ok 5 := by decide

end Thinc
