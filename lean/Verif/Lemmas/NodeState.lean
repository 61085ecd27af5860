import Verif.Model.NodeState
import Verif.Lemmas.PyDict
namespace Thinc
variable {V A : Type}

/-- Every dictionary of the node is a real Python dict (no key twice). -/
structure Node.WF (n : Node V A) : Prop where
  refs : PyDict.WF n.refs
  dims : PyDict.WF n.dims
  hasParams : PyDict.WF n.hasParams
  params : PyDict.WF n.params
  grads : PyDict.WF n.grads
  attrs : PyDict.WF n.attrs

theorem Node.setDim_ok {n n' : Node V A} {name v force} (h : n.setDim name v force = .ok n') :
    n' = { n with dims := n.dims.set name (some v) } := by
  unfold Node.setDim at h
  cases hd : n.dims.get? name with
  | none => simp [hd] at h
  | some old => 
    simp only [hd] at h
    split at h
    · simp at h
    · injection h with h; exact h.symm

theorem Node.WF.setDim {n n' : Node V A} (w : n.WF) {name v force} (h : n.setDim name v force = .ok n') :
    n'.WF := by
  rw [Node.setDim_ok h]
  exact ⟨w.refs, w.dims.set _ _, w.hasParams, w.params, w.grads, w.attrs⟩

theorem Node.WF.setParam {n : Node V A} (w : n.WF) (name v) : (n.setParam name v).WF := by
  cases v with
  | none => exact ⟨w.refs, w.dims, w.hasParams.set _ _, w.params, w.grads, w.attrs⟩
  | some v => exact ⟨w.refs, w.dims, w.hasParams.set _ _, w.params.set _ _, w.grads, w.attrs⟩

theorem Node.WF.setGrad {n : Node V A} (w : n.WF) (name v) : (n.setGrad name v).WF :=
  ⟨w.refs, w.dims, w.hasParams, w.params, w.grads.set _ _, w.attrs⟩

theorem Node.WF.incGrad [Add V] {n : Node V A} (w : n.WF) (name v) : (n.incGrad name v).WF := by
  unfold Node.incGrad
  split <;> exact ⟨w.refs, w.dims, w.hasParams, w.params, w.grads.set _ _, w.attrs⟩

theorem Node.WF.step [Add V] {n : Node V A} (w : n.WF) (op) : (n.step op).WF := by
  cases op with
  | setDim name v force =>
    simp only [Node.step]
    cases h : n.setDim name v force with
    | ok n' => exact w.setDim h
    | error e => exact w
  | setParam name v => exact w.setParam name v
  | setGrad name v => exact w.setGrad name v
  | incGrad name v => exact w.incGrad name v
  | setAttr name v => exact ⟨w.refs, w.dims, w.hasParams, w.params, w.grads, w.attrs.set _ _⟩
  | setName s => exact ⟨w.refs, w.dims, w.hasParams, w.params, w.grads, w.attrs⟩

theorem Node.WF.initParams {n : Node V A} (w : n.WF) (ps) : (n.initParams ps).WF := by
  induction ps generalizing n with
  | nil => exact w
  | cons p ps ih =>
    obtain ⟨name, v⟩ := p
    cases v with
    | none => exact ih (w.setParam name none)
    | some v => exact ih (Node.WF.setParam (w.setParam name none) name (some v))

theorem Node.run_cons [Add V] (n : Node V A) (op ops) : n.run (op :: ops) = (n.step op).run ops := rfl

theorem Node.run_append [Add V] (n : Node V A) (xs ys) : n.run (xs ++ ys) = (n.run xs).run ys := by
  simp [Node.run, List.foldl_append]

/-- `anyParamSet` is the existence of a name with `has_param(name) == True`. -/
theorem Node.anyParamSet_iff {n : Node V A} (w : PyDict.WF n.hasParams) :
    n.anyParamSet = true ↔ ∃ p, n.hasParam p = some true := by
  unfold Node.anyParamSet Node.hasParam
  rw [List.any_eq_true]
  constructor
  · rintro ⟨⟨k, v⟩, hm, hs⟩
    refine ⟨k, ?_⟩
    rw [w.get?_of_mem hm]
    cases v with
    | none => simp at hs
    | some u => rfl
  · rintro ⟨p, hp⟩
    cases hg : n.hasParams.get? p with
    | none => simp [hg] at hp
    | some o =>
      cases o with
      | none => simp [hg] at hp
      | some u => exact ⟨(p, some u), PyDict.mem_of_get? hg, rfl⟩

theorem Node.initParams_dims {n : Node V A} (ps) : (n.initParams ps).dims = n.dims := by
  induction ps generalizing n with
  | nil => rfl
  | cons p ps ih =>
    obtain ⟨name, v⟩ := p
    cases v <;> (unfold Node.initParams; rw [ih]) <;> rfl

theorem Node.initParams_id {n : Node V A} (ps) : (n.initParams ps).id = n.id := by
  induction ps generalizing n with
  | nil => rfl
  | cons p ps ih =>
    obtain ⟨name, v⟩ := p
    cases v <;> (unfold Node.initParams; rw [ih]) <;> rfl

theorem Node.initParams_grads {n : Node V A} (ps) : (n.initParams ps).grads = n.grads := by
  induction ps generalizing n with
  | nil => rfl
  | cons p ps ih =>
    obtain ⟨name, v⟩ := p
    cases v <;> (unfold Node.initParams; rw [ih]) <;> rfl

theorem Node.initParams_rest {n : Node V A} (ps) : (n.initParams ps).layers = n.layers ∧
    (n.initParams ps).refs = n.refs ∧ (n.initParams ps).attrs = n.attrs ∧
    (n.initParams ps).shims = n.shims ∧ (n.initParams ps).name = n.name := by
  induction ps generalizing n with
  | nil => exact ⟨rfl, rfl, rfl, rfl, rfl⟩
  | cons p ps ih =>
    obtain ⟨name, v⟩ := p
    cases v <;> (unfold Node.initParams; have := @ih; simp [this, Node.setParam])

theorem Node.step_id [Add V] (n : Node V A) (op) : (n.step op).id = n.id := by
  cases op with
  | setDim name v force =>
    simp only [Node.step]
    cases h : n.setDim name v force with
    | ok n' => simp only; rw [Node.setDim_ok h]
    | error e => rfl
  | setParam name v => cases v <;> rfl
  | setGrad name v => rfl
  | incGrad name v => simp only [Node.step, Node.incGrad]; split <;> rfl
  | setAttr name v => rfl
  | setName s => rfl

theorem Node.run_id [Add V] (n : Node V A) (ops) : (n.run ops).id = n.id := by
  induction ops generalizing n with
  | nil => rfl
  | cons op ops ih => rw [Node.run_cons, ih, Node.step_id]

end Thinc
