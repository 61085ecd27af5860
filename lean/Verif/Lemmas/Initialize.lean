import Verif.Spec.Initialize
import Mathlib.Tactic.Common
/-!
# Lemmas about initialization: dimensions stay, parameters get the right shapes
-/
namespace Thinc
open Spec

/-- What every step of initialization preserves. -/
structure Grows (E : NetEnv) (s s' : NetState) : Prop where
  dims : KeepsDims s s'
  ready : ∀ id, s.ready id = true → s'.ready id = true
  sane : Sane E s → Sane E s'

theorem Grows.refl (E : NetEnv) (s : NetState) : Grows E s s := ⟨fun _ _ => ⟨id, id⟩, fun _ => id, id⟩

theorem Grows.trans {E : NetEnv} {a b c : NetState} (h : Grows E a b) (k : Grows E b c) : Grows E a c :=
  ⟨fun id v => ⟨fun e => (k.dims id v).1 ((h.dims id v).1 e), fun e => (k.dims id v).2 ((h.dims id v).2 e)⟩,
    fun id e => k.ready id (h.ready id e), fun e => k.sane (h.sane e)⟩

theorem newDim_ok {old : Option (Option ℕ)} {v : ℕ} {d : Option (Option ℕ)} (h : newDim old v = .ok d) :
    d = some (some v) ∧ (∀ w, old = some (some w) → w = v) ∧ old ≠ none := by
  unfold newDim at h
  split at h
  · cases h
  · cases h; exact ⟨rfl, fun w e => by simp at e, by simp⟩
  · split at h
    · cases h
      rename_i e
      exact ⟨rfl, fun w e' => by simp at e'; omega, by simp⟩
    · cases h

/-- The state after `set_dim` with the new entry. -/
theorem setO_ok {s s' : NetState} {id v : ℕ} (h : s.setO id v = .ok s') :
    s' = { s with nO := fun i => if i = id then some (some v) else s.nO i } ∧ (∀ w, s.nO id = some (some w) → w = v) ∧
      s.nO id ≠ none := by
  unfold NetState.setO at h
  cases e : newDim (s.nO id) v with
  | error _ => rw [e] at h; cases h
  | ok d =>
    rw [e] at h
    obtain ⟨rfl, h2, h3⟩ := newDim_ok e
    cases h
    exact ⟨rfl, h2, h3⟩

theorem setI_ok {s s' : NetState} {id v : ℕ} (h : s.setI id v = .ok s') :
    s' = { s with nI := fun i => if i = id then some (some v) else s.nI i } ∧ (∀ w, s.nI id = some (some w) → w = v) ∧
      s.nI id ≠ none := by
  unfold NetState.setI at h
  cases e : newDim (s.nI id) v with
  | error _ => rw [e] at h; cases h
  | ok d =>
    rw [e] at h
    obtain ⟨rfl, h2, h3⟩ := newDim_ok e
    cases h
    exact ⟨rfl, h2, h3⟩

theorem sane_of_dims {E : NetEnv} {s s' : NetState} (hd : KeepsDims s s') (hr : s'.ready = s.ready) (hp : s'.params = s.params)
    (h : Sane E s) : Sane E s' := by
  intro id hid
  rw [hr] at hid
  obtain ⟨o, i, h1, h2, h3, h4, h5⟩ := h id hid
  exact ⟨o, i, by rw [hr]; exact h1, (hd id o).1 h2, (hd id i).2 h3, by rw [hp]; exact h4, by rw [hp]; exact h5⟩

theorem setO_grows {E : NetEnv} {s s' : NetState} {id v : ℕ} (h : s.setO id v = .ok s') : Grows E s s' := by
  obtain ⟨rfl, h2, -⟩ := setO_ok h
  have hd : KeepsDims s { s with nO := fun i => if i = id then some (some v) else s.nO i } := by
    intro i w
    refine ⟨fun e => ?_, fun e => e⟩
    by_cases hi : i = id
    · subst hi
      simp [h2 w e]
    · simp [hi, e]
  exact ⟨hd, fun _ e => e, sane_of_dims hd rfl rfl⟩

theorem setI_grows {E : NetEnv} {s s' : NetState} {id v : ℕ} (h : s.setI id v = .ok s') : Grows E s s' := by
  obtain ⟨rfl, h2, -⟩ := setI_ok h
  have hd : KeepsDims s { s with nI := fun i => if i = id then some (some v) else s.nI i } := by
    intro i w
    refine ⟨fun e => e, fun e => ?_⟩
    by_cases hi : i = id
    · subst hi
      simp [h2 w e]
    · simp [hi, e]
  exact ⟨hd, fun _ e => e, sane_of_dims hd rfl rfl⟩

theorem bind_ok {α β : Type} {x : Except PyErr α} {f : α → Except PyErr β} {b : β} (h : x.bind f = .ok b) :
    ∃ a, x = .ok a ∧ f a = .ok b := by
  cases x with
  | error e => cases h
  | ok a => exact ⟨a, rfl, h⟩

theorem inferI_grows {E : NetEnv} {s s' : NetState} {id : ℕ} {X : Option Val} (h : s.inferI id X = .ok s') : Grows E s s' := by
  unfold NetState.inferI at h
  split at h
  · cases h; exact Grows.refl _ _
  · obtain ⟨w, -, h⟩ := bind_ok h
    exact setI_grows h

theorem inferO_grows {E : NetEnv} {s s' : NetState} {id : ℕ} {X : Option Val} (h : s.inferO id X = .ok s') : Grows E s s' := by
  unfold NetState.inferO at h
  split at h
  · cases h; exact Grows.refl _ _
  · obtain ⟨w, -, h⟩ := bind_ok h
    exact setO_grows h

theorem dimValue_ok {d : Option (Option ℕ)} {v : ℕ} (h : dimValue d = .ok v) : d = some (some v) := by
  unfold dimValue at h
  split at h
  · cases h
  · cases h
  · cases h; rfl

theorem shapeOf_ofFn (r c : ℕ) (f : ℕ → ℕ → ℝ) : shapeOf (Mat.ofFn r c f) = (r, c) := rfl

theorem alloc_ok {E : NetEnv} {s s' : NetState} {id : ℕ} {sh : ℕ → ℕ → (ℕ × ℕ) × ℕ × ℕ} (h : s.alloc E id sh = .ok s')
    (hsh : ∀ o i, s.nO id = some (some o) → s.nI id = some (some i) → sh o i = leafShapes (E.kind id) o i) :
    Grows E s s' ∧ LeafReady E s' id ∧ s'.nO = s.nO ∧ s'.nI = s.nI := by
  unfold NetState.alloc at h
  obtain ⟨o, ho, h⟩ := bind_ok h
  obtain ⟨i, hi, h⟩ := bind_ok h
  have ho := dimValue_ok ho
  have hi := dimValue_ok hi
  rw [hsh o i ho hi] at h
  cases h
  have hready : LeafReady E (s.setParams E id (leafShapes (E.kind id) o i).1 (leafShapes (E.kind id) o i).2) id := by
    refine ⟨o, i, ?_, ho, hi, ?_, ?_⟩
    · simp [NetState.setParams]
    · simp [NetState.setParams, shapeOf_ofFn]
    · simp [NetState.setParams, shapeOf_ofFn]
  refine ⟨⟨fun _ _ => ⟨fun e => e, fun e => e⟩, fun j e => ?_, fun hs j hj => ?_⟩, hready, rfl, rfl⟩
  · by_cases hj : j = id <;> simp [NetState.setParams, hj, e]
  · by_cases hji : j = id
    · rw [hji]; exact hready
    · have hj' : s.ready j = true := by simpa [NetState.setParams, hji] using hj
      obtain ⟨o', i', h1, h2, h3, h4, h5⟩ := hs j hj'
      refine ⟨o', i', hj, h2, h3, ?_, ?_⟩
      · have e1 : 2 * j ≠ 2 * id := by omega
        have e2 : 2 * j ≠ 2 * id + 1 := by omega
        simp only [NetState.setParams, if_neg e1, if_neg e2]
        exact h4
      · have e1 : 2 * j + 1 ≠ 2 * id := by omega
        have e2 : 2 * j + 1 ≠ 2 * id + 1 := by omega
        simp only [NetState.setParams, if_neg e1, if_neg e2]
        exact h5

theorem leafInit_ok {E : NetEnv} {s s' : NetState} {id : ℕ} {X Y : Option Val} (h : leafInit E id X Y s = .ok s') :
    Grows E s s' ∧ LeafReady E s' id := by
  unfold leafInit at h
  split at h
  · rename_i ek
    unfold denseInit at h
    obtain ⟨a, ha, h⟩ := bind_ok h
    obtain ⟨b, hb, h⟩ := bind_ok h
    obtain ⟨h1, h2, -⟩ := alloc_ok h (fun o i _ _ => by rw [ek]; rfl)
    exact ⟨(inferI_grows ha).trans ((inferO_grows hb).trans h1), h2⟩
  · rename_i ek
    unfold denseInit at h
    obtain ⟨a, ha, h⟩ := bind_ok h
    obtain ⟨b, hb, h⟩ := bind_ok h
    obtain ⟨h1, h2, -⟩ := alloc_ok h (fun o i _ _ => by rw [ek]; rfl)
    exact ⟨(inferI_grows ha).trans ((inferO_grows hb).trans h1), h2⟩
  · rename_i ek
    unfold softmaxInit at h
    obtain ⟨a, ha, h⟩ := bind_ok h
    obtain ⟨b, hb, h⟩ := bind_ok h
    obtain ⟨h1, h2, -⟩ := alloc_ok h (fun o i _ _ => by rw [ek]; rfl)
    refine ⟨Grows.trans (b := a) ?_ (Grows.trans (b := b) ?_ h1), h2⟩
    · unfold NetState.inferUnsetI at ha
      split at ha
      · exact inferI_grows ha
      · cases ha; exact Grows.refl _ _
    · unfold NetState.inferUnsetO at hb
      split at hb
      · exact inferO_grows hb
      · cases hb; exact Grows.refl _ _
  · rename_i ek
    unfold maxoutInit at h
    obtain ⟨a, ha, h⟩ := bind_ok h
    obtain ⟨b, hb, h⟩ := bind_ok h
    obtain ⟨h1, h2, -⟩ := alloc_ok h (fun o i _ _ => by rw [ek]; rfl)
    exact ⟨(inferI_grows ha).trans ((inferO_grows hb).trans h1), h2⟩
  · rename_i ek
    unfold layerNormInit at h
    obtain ⟨a, ha, h⟩ := bind_ok h
    obtain ⟨i, hi, h⟩ := bind_ok h
    obtain ⟨b, hb, h⟩ := bind_ok h
    obtain ⟨h1, h2, -⟩ := alloc_ok h (fun o i _ _ => by rw [ek]; rfl)
    refine ⟨Grows.trans (b := a) ?_ (Grows.trans (b := b) ?_ h1), h2⟩
    · unfold layerNormInfer at ha
      split at ha
      · obtain ⟨w, -, ha⟩ := bind_ok ha
        obtain ⟨c, hc, ha⟩ := bind_ok ha
        exact (setI_grows hc).trans (setO_grows ha)
      · obtain ⟨w, -, ha⟩ := bind_ok ha
        obtain ⟨c, hc, ha⟩ := bind_ok ha
        exact (setI_grows hc).trans (setO_grows ha)
      · cases ha; exact Grows.refl _ _
    · unfold NetState.defaultO at hb
      split at hb
      · exact setO_grows hb
      · cases hb; exact Grows.refl _ _

theorem copyI_grows {E : NetEnv} {s s' : NetState} {id : ℕ} {l : Option NetNode} (h : s.copyI id l = .ok s') : Grows E s s' := by
  unfold NetState.copyI at h
  split at h
  · cases h
  · split at h
    · exact setI_grows h
    · cases h; exact Grows.refl _ _

theorem copyO_grows {E : NetEnv} {s s' : NetState} {id : ℕ} {l : Option NetNode} (h : s.copyO id l = .ok s') : Grows E s s' := by
  unfold NetState.copyO at h
  split at h
  · cases h
  · split at h
    · exact setO_grows h
    · cases h; exact Grows.refl _ _

theorem chainFinish_grows {E : NetEnv} {s s' : NetState} {id : ℕ} {ls : List NetNode} {cur : Option Val}
    (h : chainFinish id ls cur s = .ok s') : Grows E s s' := by
  unfold chainFinish at h
  obtain ⟨a, ha, h⟩ := bind_ok h
  refine (copyI_grows ha).trans ?_
  split at h
  · unfold chainSetO at h
    split at h
    · exact copyO_grows h
    · split at h
      · exact setO_grows h
      · exact copyO_grows h
      · cases h
  · cases h; exact Grows.refl _ _

theorem NetNode.setI_grows {E : NetEnv} {s s' : NetState} {t : NetNode} {w : ℕ} (h : t.setI s w = .ok s') : Grows E s s' := by
  cases t with
  | plain L => cases h
  | _ => exact Thinc.setI_grows h

theorem NetNode.setO_grows {E : NetEnv} {s s' : NetState} {t : NetNode} {w : ℕ} (h : t.setO s w = .ok s') : Grows E s s' := by
  cases t with
  | plain L => cases h
  | _ => exact Thinc.setO_grows h

theorem setAllI_grows {E : NetEnv} {w : ℕ} : ∀ {ls : List NetNode} {s s' : NetState}, setAllI w ls s = .ok s' → Grows E s s'
  | [], s, s', h => by cases h; exact Grows.refl _ _
  | l :: ls, s, s', h => by
    unfold setAllI at h
    obtain ⟨a, ha, h⟩ := bind_ok h
    refine Grows.trans ?_ (setAllI_grows h)
    unfold NetNode.setIIfAny at ha
    split at ha
    · cases ha; exact Grows.refl _ _
    · exact NetNode.setI_grows ha

theorem setAllO_grows {E : NetEnv} {w : ℕ} : ∀ {ls : List NetNode} {s s' : NetState}, setAllO w ls s = .ok s' → Grows E s s'
  | [], s, s', h => by cases h; exact Grows.refl _ _
  | l :: ls, s, s', h => by
    unfold setAllO at h
    obtain ⟨a, ha, h⟩ := bind_ok h
    refine Grows.trans ?_ (setAllO_grows h)
    unfold NetNode.setOIfAny at ha
    split at ha
    · cases ha; exact Grows.refl _ _
    · exact NetNode.setO_grows ha

theorem combInferI_grows {E : NetEnv} {s s' : NetState} {id : ℕ} {ls : List NetNode} {X : Option Val}
    (h : combInferI id ls X s = .ok s') : Grows E s s' := by
  unfold combInferI at h
  split at h
  · cases h; exact Grows.refl _ _
  · obtain ⟨w, -, h⟩ := bind_ok h
    obtain ⟨a, ha, h⟩ := bind_ok h
    refine Grows.trans ?_ (setAllI_grows h)
    unfold NetState.setIIfAny at ha
    split at ha
    · cases ha; exact Grows.refl _ _
    · exact setI_grows ha

theorem addInferO_grows {E : NetEnv} {s s' : NetState} {id : ℕ} {ls : List NetNode} {X : Option Val}
    (h : addInferO id ls X s = .ok s') : Grows E s s' := by
  unfold addInferO at h
  split at h
  · cases h; exact Grows.refl _ _
  · obtain ⟨w, -, h⟩ := bind_ok h
    obtain ⟨a, ha, h⟩ := bind_ok h
    refine Grows.trans ?_ (setAllO_grows h)
    unfold NetState.setOIfAny at ha
    split at ha
    · cases ha; exact Grows.refl _ _
    · exact setO_grows ha

theorem addFinish_grows {E : NetEnv} {s s' : NetState} {id : ℕ} {ls : List NetNode}
    (h : addFinish id ls s = .ok s') : Grows E s s' := by
  unfold addFinish at h
  split at h
  · cases h
  · obtain ⟨w, -, h⟩ := bind_ok h
    exact setO_grows h

theorem concatFinish_grows {E : NetEnv} {s s' : NetState} {id : ℕ} {ls : List NetNode}
    (h : concatFinish id ls s = .ok s') : Grows E s s' := by
  unfold concatFinish at h
  split at h
  · exact setO_grows h
  · cases h; exact Grows.refl _ _

mutual
theorem initialize_grows {E : NetEnv} : ∀ (t : NetNode) {X Y : Option Val} {s s' : NetState},
    NetNode.initialize E t X Y s = .ok s' → Grows E s s' ∧ ∀ id ∈ NetNode.leaves t, s'.ready id = true
  | .leaf id, X, Y, s, s', h => by
    rw [NetNode.initialize] at h
    obtain ⟨h1, o, i, h2, -⟩ := leafInit_ok h
    refine ⟨h1, fun j hj => ?_⟩
    simp only [NetNode.leaves, List.mem_singleton] at hj
    rw [hj]; exact h2
  | .plain L, X, Y, s, s', h => by
    rw [NetNode.initialize] at h
    cases h
    exact ⟨Grows.refl _ _, fun j hj => by simp [NetNode.leaves] at hj⟩
  | .chain id ls, X, Y, s, s', h => by
    rw [NetNode.initialize] at h
    obtain ⟨a, ha, h⟩ := bind_ok h
    obtain ⟨⟨cur, b⟩, hb, h⟩ := bind_ok h
    have h0 : Grows E s a := by
      unfold chainStart at ha
      split at ha
      · obtain ⟨c, hc, ha⟩ := bind_ok ha
        obtain ⟨d, hd, ha⟩ := bind_ok ha
        exact (initAll_grows ls hc).1.trans ((copyI_grows hd).trans (copyO_grows ha))
      · cases ha; exact Grows.refl _ _
    obtain ⟨h1, h2⟩ := initChain_grows ls hb
    have h3 := chainFinish_grows (E := E) h
    refine ⟨h0.trans (h1.trans h3), fun j hj => h3.ready j (h2 j ?_)⟩
    simpa only [NetNode.leaves] using hj
  | .add id ls, X, Y, s, s', h => by
    rw [NetNode.initialize] at h
    obtain ⟨a, ha, h⟩ := bind_ok h
    obtain ⟨b, hb, h⟩ := bind_ok h
    obtain ⟨c, hc, h⟩ := bind_ok h
    obtain ⟨h1, h2⟩ := initAll_grows ls hc
    have h3 := addFinish_grows (E := E) h
    refine ⟨(combInferI_grows ha).trans ((addInferO_grows hb).trans (h1.trans h3)), fun j hj => h3.ready j (h2 j ?_)⟩
    simpa only [NetNode.leaves] using hj
  | .concatenate id ls, X, Y, s, s', h => by
    rw [NetNode.initialize] at h
    obtain ⟨a, ha, h⟩ := bind_ok h
    obtain ⟨c, hc, h⟩ := bind_ok h
    obtain ⟨h1, h2⟩ := initAll_grows ls hc
    have h3 := concatFinish_grows (E := E) h
    refine ⟨(combInferI_grows ha).trans (h1.trans h3), fun j hj => h3.ready j (h2 j ?_)⟩
    simpa only [NetNode.leaves] using hj
  | .residual id l, X, Y, s, s', h => by
    rw [NetNode.initialize] at h
    obtain ⟨a, ha, h⟩ := bind_ok h
    obtain ⟨b, hb, h⟩ := bind_ok h
    obtain ⟨h1, h2⟩ := initialize_grows l ha
    have h3 := (copyO_grows (E := E) hb).trans (copyI_grows h)
    refine ⟨h1.trans h3, fun j hj => h3.ready j (h2 j ?_)⟩
    simpa only [NetNode.leaves] using hj
theorem initAll_grows {E : NetEnv} : ∀ (ls : List NetNode) {X Y : Option Val} {s s' : NetState},
    NetNode.initAll E ls X Y s = .ok s' → Grows E s s' ∧ ∀ id ∈ leavesOf ls, s'.ready id = true
  | [], X, Y, s, s', h => by
    rw [NetNode.initAll] at h
    cases h
    exact ⟨Grows.refl _ _, fun j hj => by simp [leavesOf] at hj⟩
  | l :: ls, X, Y, s, s', h => by
    rw [NetNode.initAll] at h
    obtain ⟨a, ha, h⟩ := bind_ok h
    obtain ⟨h1, h2⟩ := initialize_grows l ha
    obtain ⟨h3, h4⟩ := initAll_grows ls h
    refine ⟨h1.trans h3, fun j hj => ?_⟩
    simp only [leavesOf, List.mem_append] at hj
    exact hj.elim (fun hj => h3.ready j (h2 j hj)) (h4 j)
theorem initChain_grows {E : NetEnv} : ∀ (ls : List NetNode) {X Y : Option Val} {s : NetState} {r : Option Val × NetState},
    NetNode.initChain E ls X Y s = .ok r → Grows E s r.2 ∧ ∀ id ∈ leavesOf ls, r.2.ready id = true
  | [], X, Y, s, r, h => by
    rw [NetNode.initChain] at h
    cases h
    exact ⟨Grows.refl _ _, fun j hj => by simp [leavesOf] at hj⟩
  | l :: ls, X, Y, s, r, h => by
    rw [NetNode.initChain] at h
    obtain ⟨a, ha, h⟩ := bind_ok h
    obtain ⟨x, hx, h⟩ := bind_ok h
    obtain ⟨h1, h2⟩ := initialize_grows l ha
    obtain ⟨h3, h4⟩ := initChain_grows ls h
    refine ⟨h1.trans h3, fun j hj => ?_⟩
    simp only [leavesOf, List.mem_append] at hj
    exact hj.elim (fun hj => h3.ready j (h2 j hj)) (h4 j)
end

end Thinc
