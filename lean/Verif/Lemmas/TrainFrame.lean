import Verif.Props.CopyTraining
/-!
# What training leaves alone

Training changes the values and the gradients of parameters and nothing else.
-/
namespace Thinc
open Spec
variable {V A : Type}

/-- Node `n'` differs from `n` in the values of parameters and in gradients only; no parameter has been added or unset. -/
structure Spec.OnlyValues (n n' : Node V A) : Prop where
  rest : n' = { n with params := n'.params, hasParams := n'.hasParams, grads := n'.grads }
  names : n'.hasParams.keys = n.hasParams.keys
  wf : n.WF → n'.WF
  ok : n.ParamsOk → n'.ParamsOk
  set : (∀ k X, n.getParam k = .ok X → n.hasParam k = some true) → ∀ k X, n'.getParam k = .ok X → n'.hasParam k = some true

/-- All nodes differ in the values of parameters and in gradients only. -/
structure Spec.OnlyTrained (h h' : Heap V A) : Prop where
  node : ∀ (a : Addr) n, h[a]? = some n → ∃ n', h'[a]? = some n' ∧ OnlyValues n n'
  none : ∀ a : Addr, h[a]? = none → h'[a]? = none

theorem Spec.OnlyValues.refl (n : Node V A) : OnlyValues n n := ⟨rfl, rfl, id, id, id⟩

theorem Spec.OnlyValues.trans {n m k : Node V A} (h1 : OnlyValues n m) (h2 : OnlyValues m k) : OnlyValues n k :=
  ⟨by rw [h2.rest, h1.rest], h2.names.trans h1.names, h2.wf ∘ h1.wf, h2.ok ∘ h1.ok, h2.set ∘ h1.set⟩

theorem Spec.OnlyTrained.refl (h : Heap V A) : OnlyTrained h h := ⟨fun _ n hn => ⟨n, hn, .refl n⟩, fun _ h => h⟩

theorem Spec.OnlyTrained.trans {h h' h'' : Heap V A} (h1 : OnlyTrained h h') (h2 : OnlyTrained h' h'') : OnlyTrained h h'' :=
  ⟨fun a n hn => by
    obtain ⟨m, hm, r1⟩ := h1.node a n hn
    obtain ⟨k, hk, r2⟩ := h2.node a m hm
    exact ⟨k, hk, r1.trans r2⟩, fun a h => h2.none a (h1.none a h)⟩

theorem onlyTrained_modify {h : Heap V A} {a : Addr} {f : Node V A → Node V A} (hf : ∀ n, h[a]? = some n → OnlyValues n (f n)) :
    OnlyTrained h (h.modify a f) := by
  refine ⟨fun b n hn => ?_, fun b hb => ?_⟩
  · rw [Heap.get_modify]
    by_cases hab : a = b
    · subst hab
      rw [if_pos rfl, hn]
      exact ⟨f n, rfl, hf n hn⟩
    · rw [if_neg hab]
      exact ⟨n, hn, .refl n⟩
  · rw [Heap.get_modify, hb]
    split <;> rfl

theorem filter_wf {κ α : Type} [DecidableEq κ] {d : PyDict κ α} (h : PyDict.WF d) (p : κ × α → Bool) : PyDict.WF (List.filter p d) := by
  unfold PyDict.WF PyDict.keys at *
  exact h.sublist (List.filter_sublist.map _)

theorem onlyValues_grads (n : Node V A) (gs : PyDict (Nat × String) V) (h : PyDict.WF n.grads → PyDict.WF gs) :
    OnlyValues n { n with grads := gs } :=
  ⟨rfl, rfl, fun w => ⟨w.refs, w.dims, w.hasParams, w.params, h w.grads, w.attrs⟩, id, id⟩

theorem onlyValues_setGrad (n : Node V A) (k : String) (v : V) : OnlyValues n (n.setGrad k v) :=
  onlyValues_grads n _ fun w => w.set _ _

theorem onlyValues_putGrad (n : Node (Mat ℝ) A) (k : String) (g : Option (Mat ℝ)) : OnlyValues n (n.putGrad k g) := by
  cases g with
  | none => exact onlyValues_grads n _ fun w => filter_wf w _
  | some g => exact onlyValues_setGrad n k g

theorem getParam_setParam_ne {n : Node V A} {k k' : String} {v : V} (e : k ≠ k') : (n.setParam k (some v)).getParam k' = n.getParam k' := by
  have h1 : (n.hasParams.set k (some ())).contains k' = n.hasParams.contains k' := by
    unfold PyDict.contains; rw [PyDict.get?_set, if_neg e]
  have h2 : (n.params.set (n.id, k) v).get? (n.id, k') = n.params.get? (n.id, k') := by
    rw [PyDict.get?_set, if_neg fun h => e (Prod.ext_iff.1 h).2]
  unfold Node.getParam Node.setParam
  simp only [h1, h2]

theorem onlyValues_setParam {n : Node V A} {k : String} (hk : k ∈ n.paramNames) (v : V) : OnlyValues n (n.setParam k (some v)) := by
  refine ⟨rfl, PyDict.keys_set_of_mem _ hk _, fun w => ⟨w.refs, w.dims, w.hasParams.set _ _, w.params.set _ _, w.grads, w.attrs⟩, ?_, ?_⟩
  · intro h k' hk'
    by_cases e : k = k'
    · subst e
      exact ⟨v, by simp [Node.getParam, Node.setParam, PyDict.contains, PyDict.get?_set]⟩
    · have h1 : n.hasParam k' = some true := by
        simpa [Node.hasParam, Node.setParam, PyDict.get?_set, e] using hk'
      obtain ⟨u, hu⟩ := h k' h1
      exact ⟨u, by rw [getParam_setParam_ne e]; exact hu⟩
  · intro h k' X hX
    by_cases e : k = k'
    · subst e
      simp [Node.hasParam, Node.setParam, PyDict.get?_set]
    · have h1 : n.getParam k' = .ok X := by
        rw [getParam_setParam_ne e] at hX; exact hX
      simpa [Node.hasParam, Node.setParam, PyDict.get?_set, e] using h k' X h1

theorem getParam_mem {n : Node V A} {k : String} {X : V} (h : n.getParam k = .ok X) : k ∈ n.paramNames := by
  unfold Node.getParam at h
  split at h
  · rename_i hc
    exact (PyDict.contains_iff _ _).1 hc
  · cases h

section
variable {O T : Type}

theorem updateParam_trained {opt : OptFn O V} {h : Heap V A} {a : Addr} (s : FUState O V A) (name : String)
    (hs : OnlyTrained h s.nodes) : OnlyTrained h (updateParam opt a s name).1.nodes := by
  unfold updateParam
  cases hn : s.nodes[a]? with
  | none => exact hs
  | some n =>
    simp only
    split
    · split
      · exact hs
      · rename_i p hp
        split
        · exact hs
        · refine hs.trans (onlyTrained_modify fun m hm => ?_)
          rw [hn] at hm
          cases hm
          exact (onlyValues_setGrad n name _).trans (onlyValues_setParam (n := n.setGrad name _) (getParam_mem hp) _)
    · exact hs

theorem finishUpdate_trained (opt : OptFn O V) (shimFU : O × T → Addr → (O × T) × Except PyErr Unit) (h : Heap V A) (o : O) (t : T)
    (root : Addr) : OnlyTrained h (finishUpdate opt shimFU h o t root).1.1.nodes := by
  unfold finishUpdate
  split
  · exact OnlyTrained.refl h
  · rename_i o1 t1 _
    refine loopE_inv (f := updateNode opt) (fun s : FUState O V A => OnlyTrained h s.nodes) (fun a ha s hs => ?_)
      (s := { nodes := h, opt := o1 }) (OnlyTrained.refl h)
    unfold updateNode
    cases s.nodes[a]? with
    | none => exact hs
    | some n =>
      exact loopE_inv (f := updateParam opt a) (fun s : FUState O V A => OnlyTrained h s.nodes)
        (fun k _ s hs => updateParam_trained s k hs) hs
end

theorem writeGrads_trained (slot : Slots) (G : GradStore) (M : ℕ) (h : Heap (Mat ℝ) A) : OnlyTrained h (writeGrads M slot G h) := by
  induction M with
  | zero => exact .refl h
  | succ M ih =>
    have e : writeGrads (M + 1) slot G h = writeGrad slot G (writeGrads M slot G h) M := by
      simp only [writeGrads, List.range_succ, List.foldl_append, List.foldl_cons, List.foldl_nil]
    rw [e]
    exact ih.trans (onlyTrained_modify fun n _ => onlyValues_putGrad n _ _)

theorem backpropBatches_trained {L : Layer} {N : ℕ} {slot : Slots} {h h' : Heap (Mat ℝ) A}
    (bs : List (Val × (Val → Except PyErr Val))) (e : bs.foldlM (backpropBatch L N slot) h = .ok h') : OnlyTrained h h' := by
  induction bs generalizing h with
  | nil => cases e; exact .refl _
  | cons b bs ih =>
    rw [List.foldlM_cons] at e
    obtain ⟨h2, e1, e2⟩ := bind_ok (show Except.bind _ _ = _ from e)
    refine OnlyTrained.trans ?_ (ih e2)
    unfold backpropBatch at e1
    obtain ⟨⟨Y, cb⟩, -, e3⟩ := bind_ok (show Except.bind _ _ = _ from e1)
    obtain ⟨D, -, e4⟩ := bind_ok (show Except.bind _ _ = _ from e3)
    obtain ⟨⟨dv, G⟩, -, e5⟩ := bind_ok (show Except.bind _ _ = _ from e4)
    cases e5
    exact writeGrads_trained slot G N h

theorem trainIteration_trained {L : Layer} {N : ℕ} {slot : Slots} {cfg : OptCfg (Nat × String)} {root : Addr} {s s' : TrainState A}
    (bs : List (Val × (Val → Except PyErr Val))) (e : trainIteration L N slot cfg root s bs = .ok s') : OnlyTrained s.nodes s'.nodes := by
  unfold trainIteration at e
  obtain ⟨h2, e1, e2⟩ := bind_ok (show Except.bind _ _ = _ from e)
  have h4 := finishUpdate_trained (optimizerFn cfg) (fun s (_ : Addr) => (s, .ok ())) h2 s.opt () root
  split at e2
  · rename_i fu _ e3
    rw [e3] at h4
    cases e2
    exact (backpropBatches_trained bs e1).trans h4
  · cases e2

/-- Training changes the values and the gradients of parameters and nothing else. -/
theorem trainLoop_trained {L : Layer} {N : ℕ} {slot : Slots} {cfg : OptCfg (Nat × String)} {root : Addr} {s s' : TrainState A}
    (its : List (List (Val × (Val → Except PyErr Val)))) (e : trainLoop L N slot cfg root s its = .ok s') : OnlyTrained s.nodes s'.nodes := by
  induction its generalizing s with
  | nil => cases e; exact .refl _
  | cons bs its ih =>
    simp only [trainLoop, List.foldlM_cons] at e
    obtain ⟨t1, e1, e2⟩ := bind_ok (show Except.bind _ _ = _ from e)
    exact (trainIteration_trained bs e1).trans (ih e2)

/-! ### What this preserves -/

theorem Spec.OnlyTrained.back {h h' : Heap V A} (H : OnlyTrained h h') {a : Addr} {n' : Node V A} (h1 : h'[a]? = some n') :
    ∃ n, h[a]? = some n ∧ OnlyValues n n' := by
  cases hn : h[a]? with
  | none => rw [H.none a hn] at h1; cases h1
  | some n =>
    obtain ⟨m, hm, r⟩ := H.node a n hn
    rw [h1] at hm
    cases hm
    exact ⟨n, rfl, r⟩

theorem Spec.OnlyTrained.layersOf {h h' : Heap V A} (H : OnlyTrained h h') (a : Addr) : layersOf h' a = layersOf h a := by
  unfold Thinc.layersOf
  cases hn : h[a]? with
  | none => rw [H.none a hn]
  | some n =>
    obtain ⟨m, hm, r⟩ := H.node a n hn
    rw [hm]
    simp only
    rw [r.rest]

theorem Spec.OnlyTrained.reachable {h h' : Heap V A} (H : OnlyTrained h h') (a b : Addr) : Reachable h' a b ↔ Reachable h a b :=
  Reachable.congr H.layersOf a b

theorem Spec.OnlyTrained.length {h h' : Heap V A} (H : OnlyTrained h h') : h'.length = h.length := by
  apply Nat.le_antisymm
  · by_contra hc
    have h1 : h[h.length]? = Option.none := List.getElem?_eq_none (Nat.le_refl _)
    have h2 := H.none h.length h1
    rw [List.getElem?_eq_none_iff] at h2
    exact hc h2
  · by_contra hc
    have hlt : h'.length < h.length := by omega
    obtain ⟨m, hm, -⟩ := H.node h'.length _ (List.getElem?_eq_getElem hlt)
    rw [List.getElem?_eq_none (Nat.le_refl _)] at hm
    cases hm

theorem Spec.OnlyTrained.noneUnset {h h' : Heap V A} (H : OnlyTrained h h') {root : Addr} (hs : NoneUnset h root) : NoneUnset h' root := by
  intro a n' k X ha hn hX
  obtain ⟨n, h1, r⟩ := H.back hn
  exact r.set (fun k X hX => hs a n k X ((H.reachable _ _).1 ha) h1 hX) k X hX

theorem Spec.OnlyTrained.distinctIds {h h' : Heap V A} (H : OnlyTrained h h') {root : Addr} (hs : DistinctIds h root) : DistinctIds h' root := by
  intro a b n m ha hb hn hm e
  obtain ⟨n0, h1, r1⟩ := H.back hn
  obtain ⟨m0, h2, r2⟩ := H.back hm
  refine hs a b n0 m0 ((H.reachable _ _).1 ha) ((H.reachable _ _).1 hb) h1 h2 ?_
  rw [r1.rest, r2.rest] at e
  exact e

theorem Spec.OnlyTrained.acyclic {h h' : Heap V A} (H : OnlyTrained h h') (hs : Acyclic h) : Acyclic h' := by
  have : Child h' = Child h := by
    funext x y; exact propext (Child.of_layers (H.layersOf x))
  unfold Acyclic Descendant at *
  rw [this]
  exact hs

theorem Spec.OnlyTrained.serializable {S B Sh : Type} {ops : SerOps V A S B Sh} {h h' : Heap V A} (H : OnlyTrained h h') {shims : List S}
    {root : Addr} (hs : Serializable ops ⟨h, shims⟩ root) : Serializable ops ⟨h', shims⟩ root where
  self_lt := by
    show _ < h'.length
    rw [H.length]; exact hs.self_lt
  closed := by
    intro a n' hn
    obtain ⟨n, h1, r⟩ := H.back hn
    have := hs.closed a n h1
    rw [r.rest]
    simp only [H.length]
    exact this
  uniq := by
    intro a b n' m' hn hm e
    obtain ⟨n, h1, r1⟩ := H.back hn
    obtain ⟨m, h2, r2⟩ := H.back hm
    refine hs.uniq a b n m h1 h2 ?_
    rw [r1.rest, r2.rest] at e
    exact e
  wf := by
    intro a n' hn
    obtain ⟨n, h1, r⟩ := H.back hn
    exact r.wf (hs.wf a n h1)
  params := by
    intro a n' hn
    obtain ⟨n, h1, r⟩ := H.back hn
    exact r.ok (hs.params a n h1)
  ser := hs.ser
  toBytes := hs.toBytes

theorem Spec.OnlyTrained.iso {h h' k : Heap V A} (H : OnlyTrained h h') {r r' : Addr} {φ : Addr → Addr} (iso : GraphIso h r k r' φ) :
    GraphIso h' r k r' φ :=
  ⟨iso.root, fun a b ha hb => iso.inj a b ((H.reachable _ _).1 ha) ((H.reachable _ _).1 hb), fun a n' ha hn => by
    obtain ⟨n, h1, r⟩ := H.back hn
    obtain ⟨m, h2, h3⟩ := iso.layers a n ((H.reachable _ _).1 ha) h1
    exact ⟨m, h2, by rw [h3, r.rest]⟩⟩

theorem Spec.OnlyValues.compatible {S B Sh : Type} {ops : SerOps V A S B Sh} {n n' m : Node V A} (r : OnlyValues n n') {ψ : Addr → Addr}
    (h : Compatible ops ψ n m) : Compatible ops ψ n' m where
  dims k := by rw [r.rest]; exact h.dims k
  refs k := by rw [r.rest]; exact h.refs k
  params k := by
    have := h.params k
    unfold Node.paramNames at *
    rw [r.names]; exact this
  attrNames k := by rw [r.rest]; exact h.attrNames k
  attrs k v hv := h.attrs k v (by rw [r.rest] at hv; exact hv)
  shims := by rw [h.shims, r.rest]

end Thinc
