import Verif.Model.Devices
import Verif.Lemmas.GraphEdit
import Verif.Lemmas.Walk
import Mathlib.Tactic.SplitIfs
/-!
# C114: moving a model to another device
-/
namespace Thinc.Devices
open Thinc.Spec
variable {X A V : Type}

/-! ### One node -/

/-- Specification: the node with its set parameters, and the gradients of its parameters, changed by `f`; nothing else. -/
def movedNode (f : V → V) (n : Node V A) : Node V A :=
  { n with
    params := n.params.map fun p => (p.1, if p.1.1 = n.id ∧ n.hasParam p.1.2 = some true then f p.2 else p.2)
    grads := n.grads.map fun p => (p.1, if p.1.1 = n.id ∧ p.1.2 ∈ n.paramNames then f p.2 else p.2) }

/-- A node as the API makes it: dictionaries have each key once, and the parameters that are set have a value. -/
structure Sound (n : Node V A) : Prop where
  wf : n.WF
  present : ∀ name, n.hasParam name = some true → ∃ v, n.params.get? (n.id, name) = some v

theorem set_map {K W : Type} [DecidableEq K] {d : PyDict K W} (hw : PyDict.WF d) {k : K} {v : W} (hk : d.get? k = some v) (g : W → W) :
    d.set k (g v) = d.map fun p => (p.1, if p.1 = k then g p.2 else p.2) := by
  induction d with
  | nil => simp at hk
  | cons e d ih =>
    obtain ⟨k', v'⟩ := e
    simp only [PyDict.WF, PyDict.keys, List.map_cons, List.nodup_cons] at hw
    simp only [PyDict.set, List.map_cons]
    rw [PyDict.get?_cons] at hk
    by_cases h : k' = k
    · subst h
      simp only [if_true, Option.some.injEq] at hk ⊢
      subst hk
      congr 1
      rw [List.map_congr_left (g := id), List.map_id]
      intro p hp
      have : p.1 ≠ k' := fun e => hw.1 (e ▸ List.mem_map_of_mem (f := Prod.fst) hp)
      simp [this]
    · simp only [h, if_false] at hk ⊢
      rw [ih hw.2 hk]

theorem set_self {K W : Type} [DecidableEq K] {d : PyDict K W} (hw : PyDict.WF d) {k : K} {v : W} (hk : d.get? k = some v) :
    d.set k v = d := by
  have := set_map hw hk id
  simp only [id_eq, ite_self] at this
  rw [this]
  simp

/-- The node with the parameters and gradients of some names changed. -/
def movedBy (l : List String) (f : V → V) (n : Node V A) : Node V A :=
  { n with
    params := n.params.map fun p => (p.1, if p.1.1 = n.id ∧ p.1.2 ∈ l ∧ n.hasParam p.1.2 = some true then f p.2 else p.2)
    grads := n.grads.map fun p => (p.1, if p.1.1 = n.id ∧ p.1.2 ∈ l then f p.2 else p.2) }

theorem get?_mapVal {K W : Type} [DecidableEq K] (d : PyDict K W) (g : K → W → W) (k : K) :
    PyDict.get? (d.map fun p => (p.1, g p.1 p.2)) k = (d.get? k).map (g k) := by
  induction d with
  | nil => rfl
  | cons e d ih =>
    obtain ⟨k', v'⟩ := e
    rw [List.map_cons, PyDict.get?_cons, PyDict.get?_cons]
    split_ifs with h
    · subst h; rfl
    · exact ih

theorem wf_mapVal {K W : Type} [DecidableEq K] {d : PyDict K W} (h : PyDict.WF d) (g : K → W → W) :
    PyDict.WF (d.map fun p => (p.1, g p.1 p.2)) := by
  simpa [PyDict.WF, PyDict.keys, Function.comp_def] using h

theorem movedBy_sound {l : List String} {f : V → V} {n : Node V A} (h : Sound n) : Sound (movedBy l f n) := by
  refine ⟨⟨h.wf.refs, h.wf.dims, h.wf.hasParams, wf_mapVal h.wf.params
    (fun k v => if k.1 = n.id ∧ k.2 ∈ l ∧ n.hasParam k.2 = some true then f v else v),
    wf_mapVal h.wf.grads (fun k v => if k.1 = n.id ∧ k.2 ∈ l then f v else v), h.wf.attrs⟩, fun name hn => ?_⟩
  obtain ⟨v, hv⟩ := h.present name hn
  have := get?_mapVal n.params (fun k v => if k.1 = n.id ∧ k.2 ∈ l ∧ n.hasParam k.2 = some true then f v else v) (n.id, name)
  rw [hv] at this
  exact ⟨_, this⟩

theorem moveParam_eq {f : V → V} {n : Node V A} (h : Sound n) (k : String) : moveParam f k n = .ok { n with
    params := n.params.map fun p => (p.1, if p.1.1 = n.id ∧ p.1.2 ∈ [k] ∧ n.hasParam p.1.2 = some true then f p.2 else p.2) } := by
  unfold moveParam
  split_ifs with hp
  · obtain ⟨v, hv⟩ := h.present k hp
    have hg : n.hasParams.get? k = some (some ()) := by
      unfold Node.hasParam at hp
      split at hp
      · cases hp
      · rename_i h'; exact h'
      · cases hp
    have hget : n.getParam k = .ok v := by
      unfold Node.getParam
      rw [if_pos (by simp [PyDict.contains, hg]), hv]
    rw [hget]
    simp only [Except.map, Node.setParam, Except.ok.injEq]
    rw [set_self h.wf.hasParams hg, set_map h.wf.params hv]
    congr 1
    refine List.map_congr_left fun p _ => ?_
    congr 1
    by_cases e : p.1 = (n.id, k)
    · rw [if_pos e, if_pos]
      rw [e]
      exact ⟨rfl, by simp, hp⟩
    · rw [if_neg e, if_neg]
      rintro ⟨h1, h2, -⟩
      exact e (Prod.ext h1 (by simpa using h2))
  · congr 1
    have : (n.params.map fun p => (p.1, if p.1.1 = n.id ∧ p.1.2 ∈ [k] ∧ n.hasParam p.1.2 = some true then f p.2 else p.2)) = n.params := by
      rw [List.map_congr_left (g := id), List.map_id]
      intro p _
      rw [if_neg]
      · rfl
      · rintro ⟨-, h2, h3⟩
        rw [List.mem_singleton.1 h2] at h3
        exact hp h3
    rw [this]

theorem moveGrad_eq {f : V → V} {n : Node V A} (hw : PyDict.WF n.grads) (k : String) : moveGrad f k n = .ok { n with
    grads := n.grads.map fun p => (p.1, if p.1.1 = n.id ∧ p.1.2 ∈ [k] then f p.2 else p.2) } := by
  unfold moveGrad
  split_ifs with hp
  · obtain ⟨v, hv⟩ := Option.isSome_iff_exists.1 (show (n.grads.get? (n.id, k)).isSome = true from hp)
    have hget : n.getGrad k = .ok v := by
      unfold Node.getGrad
      rw [hv]
    rw [hget]
    simp only [Except.map, Node.setGrad, Except.ok.injEq]
    rw [set_map hw hv]
    congr 1
    refine List.map_congr_left fun p _ => ?_
    congr 1
    by_cases e : p.1 = (n.id, k)
    · rw [if_pos e, if_pos]
      rw [e]
      exact ⟨rfl, by simp⟩
    · rw [if_neg e, if_neg]
      rintro ⟨h1, h2⟩
      exact e (Prod.ext h1 (by simpa using h2))
  · congr 1
    have hnone : n.grads.get? (n.id, k) = none := by
      cases hg : n.grads.get? (n.id, k) with
      | none => rfl
      | some v => exact absurd (show (n.grads.get? (n.id, k)).isSome = true by rw [hg]; rfl) hp
    have : (n.grads.map fun p => (p.1, if p.1.1 = n.id ∧ p.1.2 ∈ [k] then f p.2 else p.2)) = n.grads := by
      rw [List.map_congr_left (g := id), List.map_id]
      intro p hpm
      rw [if_neg]
      · rfl
      · rintro ⟨h1, h2⟩
        refine (PyDict.get?_eq_none_iff n.grads (n.id, k)).1 hnone ?_
        have : p.1 = (n.id, k) := Prod.ext h1 (by simpa using h2)
        rw [← this]
        exact List.mem_map_of_mem (f := Prod.fst) hpm
    rw [this]

theorem moveName_eq {f : V → V} {n : Node V A} (h : Sound n) (k : String) : moveName f n k = .ok (movedBy [k] f n) := by
  unfold moveName
  rw [moveParam_eq h k]
  simp only [bind, Except.bind]
  rw [moveGrad_eq (by exact h.wf.grads)]
  rfl

theorem movedBy_cons {k : String} {l : List String} (hk : k ∉ l) (f : V → V) (n : Node V A) :
    movedBy l f (movedBy [k] f n) = movedBy (k :: l) f n := by
  have hp : ∀ name, (movedBy [k] f n).hasParam name = n.hasParam name := fun _ => rfl
  unfold movedBy at hp ⊢
  simp only [List.map_map, Function.comp_def, hp]
  congr 1
  · refine List.map_congr_left fun p _ => ?_
    congr 1
    by_cases h1 : p.1.1 = n.id <;> by_cases h2 : p.1.2 = k <;> by_cases h3 : p.1.2 ∈ l <;> by_cases h4 : n.hasParam p.1.2 = some true <;>
      simp_all
  · refine List.map_congr_left fun p _ => ?_
    congr 1
    by_cases h1 : p.1.1 = n.id <;> by_cases h2 : p.1.2 = k <;> by_cases h3 : p.1.2 ∈ l <;> simp_all

theorem moveNames_eq (f : V → V) : ∀ (l : List String) (n : Node V A), Sound n → l.Nodup → forM' l n (moveName f) = .ok (movedBy l f n)
  | [], n, _, _ => by simp [forM', movedBy]
  | k :: l, n, h, hl => by
    rw [List.nodup_cons] at hl
    rw [forM', moveName_eq h k]
    simp only
    rw [moveNames_eq f l _ (movedBy_sound h) hl.2, movedBy_cons hl.1]

theorem moveNode_eq (f : V → V) {n : Node V A} (h : Sound n) : moveNode f n = .ok (movedNode f n) := by
  unfold moveNode
  rw [moveNames_eq f n.paramNames n h h.wf.hasParams]
  unfold movedBy movedNode
  congr 2
  refine List.map_congr_left fun p _ => ?_
  congr 1
  by_cases h4 : n.hasParam p.1.2 = some true
  · have : p.1.2 ∈ n.paramNames := by
      unfold Node.hasParam at h4
      unfold Node.paramNames
      by_contra hc
      rw [← PyDict.get?_eq_none_iff] at hc
      rw [hc] at h4
      cases h4
    simp [h4, this]
  · simp [h4]

/-! ### The whole model -/

/-- Where `to_device` puts the model of a shim. -/
def placedShim (ops : OpsInfo) (s : ShimInfo) : ShimInfo :=
  match s.kind with
  | .mxnet => ⟨.mxnet, if ops.gpu then .gpu 0 else .cpu, false⟩
  | _ => { s with device := ops.device }

theorem shimToDevice_eq (ops : OpsInfo) {s : ShimInfo} (h : s.kind ≠ .none) : shimToDevice ops s = .ok (placedShim ops s) := by
  obtain ⟨k, d, u⟩ := s
  cases k
  · rfl
  · rfl
  · rfl
  · exact absurd rfl h

theorem placedShim_kind (ops : OpsInfo) (s : ShimInfo) : (placedShim ops s).kind = s.kind := by
  obtain ⟨k, d, u⟩ := s
  cases k <;> rfl

theorem placedShim_idem (ops : OpsInfo) (s : ShimInfo) : placedShim ops (placedShim ops s) = placedShim ops s := by
  obtain ⟨k, d, u⟩ := s
  cases k <;> rfl

open Classical in
theorem shims_eq (ops : OpsInfo) : ∀ (l : List Addr) (w : World X A), (∀ s ∈ l, (w.shims s).kind ≠ .none) →
    loopE (shimStep ops) l w = (⟨w.heap, w.ops, fun t => if t ∈ l then placedShim ops (w.shims t) else w.shims t⟩, .ok ())
  | [], w, _ => by simp [loopE]
  | s :: l, w, h => by
    rw [loopE, shimStep, shimToDevice_eq ops (h s (by simp))]
    simp only
    rw [shims_eq ops l _ (by
      intro t ht
      simp only
      split_ifs with e
      · rw [placedShim_kind]; exact h s (by simp)
      · exact h t (List.mem_cons_of_mem _ ht))]
    simp only [Prod.mk.injEq, World.mk.injEq, true_and, and_true]
    funext t
    by_cases e : t = s
    · subst e
      by_cases ht : t ∈ l <;> simp [ht, placedShim_idem]
    · by_cases ht : t ∈ l <;> simp [ht, e]

open Classical in
theorem toOps_list (f : Placed X → Placed X) (ops : OpsInfo) : ∀ (l : List Addr) (w : World X A), l.Nodup →
    (∀ a ∈ l, ∀ n, w.heap[a]? = some n → Sound n) →
    (∀ a ∈ l, ∀ n, w.heap[a]? = some n → ∀ s ∈ n.shims, (w.shims s).kind ≠ .none) →
    ∃ w', loopE (toOpsStep f ops) l w = (w', .ok ()) ∧
      (∀ b : Addr, w'.heap[b]? = if b ∈ l then (w.heap[b]?).map (movedNode f) else w.heap[b]?) ∧
      (∀ b : Addr, w'.ops b = if b ∈ l ∧ b < w.heap.length then ops else w.ops b) ∧
      ∀ s, w'.shims s = if ∃ a ∈ l, ∃ n, w.heap[a]? = some n ∧ s ∈ n.shims then placedShim ops (w.shims s) else w.shims s
  | [], w, _, _, _ => ⟨w, rfl, by simp, by simp, by simp⟩
  | a :: l, w, hl, hs, hk => by
    rw [List.nodup_cons] at hl
    cases ha : w.heap[a]? with
    | none =>
      obtain ⟨w', h1, h2, h3, h4⟩ := toOps_list f ops l w hl.2 (fun b hb => hs b (List.mem_cons_of_mem _ hb))
        (fun b hb => hk b (List.mem_cons_of_mem _ hb))
      refine ⟨w', by rw [loopE, toOpsStep, ha]; exact h1, fun b => ?_, fun b => ?_, fun s => ?_⟩
      · rw [h2]
        by_cases e : b = a
        · subst e; simp [hl.1, ha]
        · simp [e]
      · rw [h3]
        by_cases e : b = a
        · subst e
          have : ¬ b < w.heap.length := by
            intro hlt
            rw [List.getElem?_eq_getElem hlt] at ha
            cases ha
          simp [this]
        · simp [e]
      · rw [h4]
        congr 1
        simp [ha]
    | some n =>
      have hn := hs a (by simp) n ha
      have hsh := hk a (by simp) n ha
      let w1 : World X A := ⟨w.heap.modify a fun _ => movedNode f n, fun b => if b = a then ops else w.ops b,
        fun t => if t ∈ n.shims then placedShim ops (w.shims t) else w.shims t⟩
      have hheap : ∀ b : Addr, b ≠ a → w1.heap[b]? = w.heap[b]? := by
        intro b hb
        show (w.heap.modify a fun _ => movedNode f n)[b]? = _
        rw [Heap.get_modify, if_neg (Ne.symm hb)]
      have hne : ∀ b ∈ l, b ≠ a := fun b hb e => hl.1 (e ▸ hb)
      have step : toOpsStep f ops w a = (w1, .ok ()) := by
        rw [toOpsStep, ha]
        simp only
        rw [moveNode_eq f hn]
        simp only
        rw [shims_eq ops n.shims _ (by exact hsh)]
      obtain ⟨w', h1, h2, h3, h4⟩ := toOps_list f ops l w1 hl.2
        (fun b hb m hm => hs b (List.mem_cons_of_mem _ hb) m (by rw [← hheap b (hne b hb)]; exact hm))
        (fun b hb m hm s hsm => by
          have := hk b (List.mem_cons_of_mem _ hb) m (by rw [← hheap b (hne b hb)]; exact hm) s hsm
          show ((if s ∈ n.shims then placedShim ops (w.shims s) else w.shims s)).kind ≠ _
          split_ifs
          · rw [placedShim_kind]; exact this
          · exact this)
      refine ⟨w', by rw [loopE, step]; exact h1, fun b => ?_, fun b => ?_, fun s => ?_⟩
      · rw [h2]
        by_cases e : b = a
        · subst e
          rw [if_neg hl.1, if_pos (by simp)]
          show (w.heap.modify b fun _ => movedNode f n)[b]? = _
          rw [Heap.get_modify, if_pos rfl, ha]
          rfl
        · rw [hheap b e]
          simp [e]
      · rw [h3]
        have hlen : w1.heap.length = w.heap.length := by
          show (List.modify _ _ _).length = _
          rw [List.length_modify]
        rw [hlen]
        show (if b ∈ l ∧ b < w.heap.length then ops else if b = a then ops else w.ops b) = _
        by_cases e : b = a
        · subst e
          have : b < w.heap.length := (List.getElem?_eq_some_iff.1 ha).1
          simp [this]
        · simp [e]
      · rw [h4]
        show (if _ then placedShim ops (if s ∈ n.shims then placedShim ops (w.shims s) else w.shims s) else
          if s ∈ n.shims then placedShim ops (w.shims s) else w.shims s) = _
        have hiff : (∃ b ∈ l, ∃ m, w1.heap[b]? = some m ∧ s ∈ m.shims) ↔ ∃ b ∈ l, ∃ m, w.heap[b]? = some m ∧ s ∈ m.shims := by
          constructor
          · rintro ⟨b, hb, m, hm, r⟩
            exact ⟨b, hb, m, by rw [← hheap b (hne b hb)]; exact hm, r⟩
          · rintro ⟨b, hb, m, hm, r⟩
            exact ⟨b, hb, m, by rw [hheap b (hne b hb)]; exact hm, r⟩
        have hiff2 : (∃ b ∈ a :: l, ∃ m, w.heap[b]? = some m ∧ s ∈ m.shims) ↔
            (s ∈ n.shims ∨ ∃ b ∈ l, ∃ m, w.heap[b]? = some m ∧ s ∈ m.shims) := by
          simp [ha]
        by_cases hA : s ∈ n.shims <;> by_cases hB : ∃ b ∈ l, ∃ m, w.heap[b]? = some m ∧ s ∈ m.shims
        · rw [if_pos (hiff.2 hB), if_pos hA, if_pos (hiff2.2 (.inl hA)), placedShim_idem]
        · rw [if_neg (fun h => hB (hiff.1 h)), if_pos hA, if_pos (hiff2.2 (.inl hA))]
        · rw [if_pos (hiff.2 hB), if_neg hA, if_pos (hiff2.2 (.inr hB))]
        · rw [if_neg (fun h => hB (hiff.1 h)), if_neg hA, if_neg (fun h => (hiff2.1 h).elim hA hB)]

/-- The tree of a model can be moved: its nodes are as the API makes them, and its shims have `to_device`. -/
structure Movable (w : World X A) (root : Addr) : Prop where
  sound : ∀ a, Reachable w.heap root a → ∀ n, w.heap[a]? = some n → Sound n
  shims : ∀ a, Reachable w.heap root a → ∀ n, w.heap[a]? = some n → ∀ s ∈ n.shims, (w.shims s).kind ≠ .none

/-- The shim belongs to a node of the tree. -/
def InTree (w : World X A) (root s : Addr) : Prop := ∃ a n, Reachable w.heap root a ∧ w.heap[a]? = some n ∧ s ∈ n.shims

open Classical in
theorem toOps_spec (f : Placed X → Placed X) (ops : OpsInfo) (w : World X A) (root : Addr) (h : Movable w root) :
    ∃ w', toOps f ops root w = (w', .ok ()) ∧
      (∀ b : Addr, w'.heap[b]? = if Reachable w.heap root b then (w.heap[b]?).map (movedNode f) else w.heap[b]?) ∧
      (∀ b : Addr, w'.ops b = if Reachable w.heap root b ∧ b < w.heap.length then ops else w.ops b) ∧
      ∀ s, w'.shims s = if InTree w root s then placedShim ops (w.shims s) else w.shims s := by
  have hm := mem_walkBfs w.heap root
  obtain ⟨w', h1, h2, h3, h4⟩ := toOps_list f ops (walkBfs w.heap root) w (nodup_walkBfs w.heap root)
    (fun a ha => h.sound a ((hm a).1 ha)) (fun a ha => h.shims a ((hm a).1 ha))
  refine ⟨w', h1, fun b => ?_, fun b => ?_, fun s => ?_⟩
  · rw [h2]; simp only [hm]
  · rw [h3]; simp only [hm]
  · rw [h4]
    congr 1
    simp only [hm, InTree]
    apply propext
    constructor
    · rintro ⟨a, ha, n, hn, r⟩; exact ⟨a, n, ha, hn, r⟩
    · rintro ⟨a, n, ha, hn, r⟩; exact ⟨a, ha, n, hn, r⟩

/-- `model.to_gpu(id)`: in every node of the tree the parameters that are set and their gradients are moved to GPU `id`; in
single precision their contents stay the same.  Nothing else in the nodes changes, and nothing in other nodes.  Every node of the
tree uses the GPU's ops.  Missing: wrapped models are not moved to GPU `id` but to GPU 0 (`C114_wrapped_violated`), and the
model is left half moved if a shim has no `to_device` (`C114_half_moved_violated`). -/
theorem C114_to_gpu_partial (round : X → X) (id : Nat) (w : World X A) (root : Addr) (h : Movable w root) :
    ∃ w', toGpu round id root w = (w', .ok ()) ∧
      (∀ (b : Addr) n, w.heap[b]? = some n → Reachable w.heap root b → ∃ n', w'.heap[b]? = some n' ∧
        (∀ name v, n.hasParam name = some true → n.params.get? (n.id, name) = some v →
          ∃ v', n'.params.get? (n.id, name) = some v' ∧ v'.device = .gpu id ∧ v'.single = true ∧ (v.single = true → v'.value = v.value)) ∧
        (∀ name v, name ∈ n.paramNames → n.grads.get? (n.id, name) = some v →
          ∃ v', n'.grads.get? (n.id, name) = some v' ∧ v'.device = .gpu id ∧ v'.single = true ∧ (v.single = true → v'.value = v.value)) ∧
        n'.params.keys = n.params.keys ∧ n'.grads.keys = n.grads.keys ∧ { n' with params := n.params, grads := n.grads } = n ∧
        w'.ops b = ⟨true, 0⟩) ∧
      (∀ b : Addr, ¬ Reachable w.heap root b → w'.heap[b]? = w.heap[b]? ∧ w'.ops b = w.ops b) ∧
      ∀ s, ¬ InTree w root s → w'.shims s = w.shims s := by
  obtain ⟨w', h1, h2, h3, h4⟩ := toOps_spec (asarrayF round (.gpu id)) cupyOps w root h
  refine ⟨w', h1, fun b n hn hr => ⟨movedNode (asarrayF round (.gpu id)) n, by rw [h2, if_pos hr, hn]; rfl, ?_, ?_, ?_, ?_, rfl, ?_⟩, fun b hr => ⟨?_, ?_⟩, fun s hs => ?_⟩
  · intro name v hp hv
    refine ⟨asarrayF round (.gpu id) v, ?_, rfl, rfl, fun hs => by simp [asarrayF, hs]⟩
    have := get?_mapVal n.params (fun k v => if k.1 = n.id ∧ n.hasParam k.2 = some true then asarrayF round (.gpu id) v else v) (n.id, name)
    rw [hv] at this
    simp only [Option.map_some, hp, and_self, if_true] at this
    exact this
  · intro name v hp hv
    refine ⟨asarrayF round (.gpu id) v, ?_, rfl, rfl, fun hs => by simp [asarrayF, hs]⟩
    have := get?_mapVal n.grads (fun k v => if k.1 = n.id ∧ k.2 ∈ n.paramNames then asarrayF round (.gpu id) v else v) (n.id, name)
    rw [hv] at this
    simp only [Option.map_some, hp, and_self, if_true] at this
    exact this
  · simp [movedNode, PyDict.keys, Function.comp_def]
  · simp [movedNode, PyDict.keys, Function.comp_def]
  · rw [h3, if_pos ⟨hr, (List.getElem?_eq_some_iff.1 hn).1⟩]; rfl
  · rw [h2, if_neg hr]
  · rw [h3, if_neg (fun h => hr h.1)]
  · rw [h4, if_neg hs]

/-- All arrays of the tree are in single precision on the CPU. -/
def OnCpu (w : World X A) (root : Addr) : Prop :=
  ∀ a, Reachable w.heap root a → ∀ n, w.heap[a]? = some n →
    (∀ p ∈ n.params, p.2.device = .cpu ∧ p.2.single = true) ∧ ∀ p ∈ n.grads, p.2.device = .cpu ∧ p.2.single = true

theorem asarrayF_back (round : X → X) (id : Nat) {v : Placed X} (h : v.device = .cpu ∧ v.single = true) :
    asarrayF round .cpu (asarrayF round (.gpu id) v) = v := by
  obtain ⟨x, d, s⟩ := v
  obtain ⟨rfl, rfl⟩ := h
  rfl

theorem movedNode_back (round : X → X) (id : Nat) {n : Node (Placed X) A}
    (h : (∀ p ∈ n.params, p.2.device = .cpu ∧ p.2.single = true) ∧ ∀ p ∈ n.grads, p.2.device = .cpu ∧ p.2.single = true) :
    movedNode (asarrayF round .cpu) (movedNode (asarrayF round (.gpu id)) n) = n := by
  have hp : ∀ name, (movedNode (asarrayF round (.gpu id)) n).hasParam name = n.hasParam name := fun _ => rfl
  have hq : (movedNode (asarrayF round (.gpu id)) n).paramNames = n.paramNames := rfl
  have e1 : (movedNode (asarrayF round .cpu) (movedNode (asarrayF round (.gpu id)) n)).params = n.params := by
    simp only [movedNode, List.map_map, Function.comp_def]
    rw [List.map_congr_left (g := _root_.id), List.map_id]
    intro p hpm
    obtain ⟨k, v⟩ := p
    by_cases c : k.1 = n.id ∧ n.hasParam k.2 = some true
    · have c' : k.1 = n.id ∧ (movedNode (asarrayF round (.gpu id)) n).hasParam k.2 = some true := c
      simp only [movedNode] at c'
      simp only [c, and_self, if_true, c', asarrayF_back round id (h.1 _ hpm), _root_.id]
    · have c' : ¬ (k.1 = n.id ∧ (movedNode (asarrayF round (.gpu id)) n).hasParam k.2 = some true) := c
      simp only [movedNode] at c'
      simp only [if_neg c, if_neg c', _root_.id]
  have e2 : (movedNode (asarrayF round .cpu) (movedNode (asarrayF round (.gpu id)) n)).grads = n.grads := by
    simp only [movedNode, List.map_map, Function.comp_def]
    rw [List.map_congr_left (g := _root_.id), List.map_id]
    intro p hpm
    obtain ⟨k, v⟩ := p
    by_cases c : k.1 = n.id ∧ k.2 ∈ n.paramNames
    · have c' : k.1 = n.id ∧ k.2 ∈ (movedNode (asarrayF round (.gpu id)) n).paramNames := c
      simp only [movedNode] at c'
      simp only [c, and_self, if_true, c', asarrayF_back round id (h.2 _ hpm), _root_.id]
    · have c' : ¬ (k.1 = n.id ∧ k.2 ∈ (movedNode (asarrayF round (.gpu id)) n).paramNames) := c
      simp only [movedNode] at c'
      simp only [if_neg c, if_neg c', _root_.id]
  obtain ⟨name, i, layers, refs, dims, hasParams, params, grads, attrs, shims⟩ := n
  simp only [movedNode, Node.mk.injEq, true_and] at e1 e2 ⊢
  exact ⟨e1, e2, trivial⟩

theorem layersOf_moved (f : Placed X → Placed X) {h h' : Heap (Placed X) A}
    (e : ∀ b : Addr, h'[b]? = (h[b]?).map (movedNode f) ∨ h'[b]? = h[b]?) (b : Addr) : layersOf h' b = layersOf h b := by
  unfold layersOf
  rcases e b with e | e <;> rw [e]
  cases h[b]? <;> rfl

theorem reachable_congr {h h' : Heap (Placed X) A} (e : ∀ b : Addr, layersOf h' b = layersOf h b) (a b : Addr) :
    Reachable h' a b ↔ Reachable h a b := by
  have hc : ∀ a b, Child h' a b ↔ Child h a b := fun a b => by rw [child_iff, child_iff, e]
  constructor
  · intro r
    induction r with
    | refl => exact .refl
    | tail _ c ih => exact ih.tail ((hc _ _).1 c)
  · intro r
    induction r with
    | refl => exact .refl
    | tail _ c ih => exact ih.tail ((hc _ _).2 c)

theorem sound_moved (f : V → V) {n : Node V A} (h : Sound n) : Sound (movedNode f n) := by
  refine ⟨⟨h.wf.refs, h.wf.dims, h.wf.hasParams, wf_mapVal h.wf.params
    (fun k v => if k.1 = n.id ∧ n.hasParam k.2 = some true then f v else v),
    wf_mapVal h.wf.grads (fun k v => if k.1 = n.id ∧ k.2 ∈ n.paramNames then f v else v), h.wf.attrs⟩, fun name hn => ?_⟩
  obtain ⟨v, hv⟩ := h.present name hn
  have := get?_mapVal n.params (fun k v => if k.1 = n.id ∧ n.hasParam k.2 = some true then f v else v) (n.id, name)
  rw [hv] at this
  exact ⟨_, this⟩

/-- Moving a model to any GPU and back changes nothing in any model: parameters, gradients, layers, dimensions and attributes
are as before.  (Arrays in single precision on the CPU.) -/
theorem C114_there_and_back (round : X → X) (id : Nat) (w : World X A) (root : Addr) (h : Movable w root) (hc : OnCpu w root) :
    ∃ w1 w2, toGpu round id root w = (w1, .ok ()) ∧ toCpu round root w1 = (w2, .ok ()) ∧ w2.heap = w.heap ∧
      ∀ b : Addr, w2.ops b = w.ops b ∨ Reachable w.heap root b ∧ w2.ops b = ⟨false, -1⟩ := by
  obtain ⟨w1, h1, h2, h3, h4⟩ := toOps_spec (asarrayF round (.gpu id)) cupyOps w root h
  have hl : ∀ b : Addr, layersOf w1.heap b = layersOf w.heap b := layersOf_moved (asarrayF round (.gpu id)) fun b => by
    rw [h2]
    split_ifs
    · exact .inl rfl
    · exact .inr rfl
  have hr := reachable_congr hl root
  have hnode : ∀ a, Reachable w1.heap root a → ∀ n, w1.heap[a]? = some n →
      ∃ m, w.heap[a]? = some m ∧ n = movedNode (asarrayF round (.gpu id)) m := by
    intro a ha n hn
    rw [h2, if_pos ((hr a).1 ha)] at hn
    cases hm : w.heap[a]? with
    | none => rw [hm] at hn; cases hn
    | some m => rw [hm] at hn; exact ⟨m, rfl, by cases hn; rfl⟩
  have hmov : Movable w1 root := by
    constructor
    · intro a ha n hn
      obtain ⟨m, hm, rfl⟩ := hnode a ha n hn
      exact sound_moved _ (h.sound a ((hr a).1 ha) m hm)
    · intro a ha n hn s hs
      obtain ⟨m, hm, rfl⟩ := hnode a ha n hn
      rw [h4]
      split_ifs
      · rw [placedShim_kind]; exact h.shims a ((hr a).1 ha) m hm s hs
      · exact h.shims a ((hr a).1 ha) m hm s hs
  obtain ⟨w2, g1, g2, g3, -⟩ := toOps_spec (asarrayF round .cpu) numpyOps w1 root hmov
  refine ⟨w1, w2, h1, g1, ?_, fun b => ?_⟩
  · apply List.ext_getElem?
    intro b
    rw [g2 b]
    by_cases hb : Reachable w.heap root b
    · rw [if_pos ((hr b).2 hb), h2 b, if_pos hb]
      cases hm : w.heap[b]? with
      | none => rfl
      | some m =>
        simp only [Option.map_some]
        rw [movedNode_back round id (hc b hb m hm)]
    · rw [if_neg (fun hx => hb ((hr b).1 hx)), h2 b, if_neg hb]
  · have hlen : w1.heap.length ≤ b ↔ w.heap.length ≤ b := by
      rw [← List.getElem?_eq_none_iff, ← List.getElem?_eq_none_iff, h2 b]
      split_ifs <;> simp
    rw [g3 b]
    by_cases hb : Reachable w.heap root b
    · by_cases hlt : b < w.heap.length
      · right
        rw [if_pos ⟨(hr b).2 hb, by
          by_contra hc
          have := hlen.1 (by simpa using hc)
          exact absurd hlt (by simpa using this)⟩]
        exact ⟨hb, rfl⟩
      · left
        rw [if_neg, h3 b, if_neg (fun hx => hlt hx.2)]
        rintro ⟨-, hx⟩
        have : w.heap.length ≤ b := by simpa using hlt
        exact absurd hx (by simpa using hlen.2 this)
    · left
      rw [if_neg (fun hx => hb ((hr b).1 hx.1)), h3 b, if_neg (fun hx => hb hx.1)]

/-! ### Examples -/

/-- A chain of a layer with a parameter and its gradient, and a wrapped model. -/
def exHeap : Heap (Placed Nat) Nat :=
  [{ name := "chain", id := 1, layers := [1, 2] },
   { name := "linear", id := 2, layers := [], hasParams := [("W", some ()), ("b", none)],
     params := [((2, "W"), ⟨7, .cpu, true⟩)], grads := [((2, "W"), ⟨9, .cpu, true⟩)] },
   { name := "pytorch", id := 3, layers := [], shims := [0] }]

/-- On the CPU, with a shim of the given library. -/
def exWorld (k : ShimKind) : World Nat Nat := ⟨exHeap, fun _ => numpyOps, fun _ => ⟨k, .cpu, true⟩⟩

theorem exWorld_walk (k : ShimKind) : walkBfs (exWorld k).heap 0 = [0, 1, 2] := by
  simp [exWorld, exHeap, walkBfs, bfsLoop, layersOf]

theorem exWorld_movable : Movable (exWorld .torch) 0 := by
  constructor
  · intro a ha n hn
    rw [← mem_walkBfs, exWorld_walk] at ha
    simp only [List.mem_cons, List.not_mem_nil, or_false] at ha
    rcases ha with rfl | rfl | rfl <;> cases hn
    · exact ⟨⟨by simp [PyDict.WF, PyDict.keys], by simp [PyDict.WF, PyDict.keys], by simp [PyDict.WF, PyDict.keys],
        by simp [PyDict.WF, PyDict.keys], by simp [PyDict.WF, PyDict.keys], by simp [PyDict.WF, PyDict.keys]⟩, by
          intro name h
          simp [Node.hasParam] at h⟩
    · refine ⟨⟨by simp [PyDict.WF, PyDict.keys], by simp [PyDict.WF, PyDict.keys], by simp [PyDict.WF, PyDict.keys],
        by simp [PyDict.WF, PyDict.keys], by simp [PyDict.WF, PyDict.keys], by simp [PyDict.WF, PyDict.keys]⟩, ?_⟩
      intro name h
      by_cases e : name = "W"
      · subst e; exact ⟨_, rfl⟩
      · by_cases e' : name = "b"
        · subst e'; simp [Node.hasParam, PyDict.get?_cons] at h
        · simp [Node.hasParam, PyDict.get?_cons, Ne.symm e, Ne.symm e'] at h
    · exact ⟨⟨by simp [PyDict.WF, PyDict.keys], by simp [PyDict.WF, PyDict.keys], by simp [PyDict.WF, PyDict.keys],
        by simp [PyDict.WF, PyDict.keys], by simp [PyDict.WF, PyDict.keys], by simp [PyDict.WF, PyDict.keys]⟩, by
          intro name h
          simp [Node.hasParam] at h⟩
  · intro a _ n _ s _
    simp [exWorld]

theorem exWorld_onCpu (k : ShimKind) : OnCpu (exWorld k) 0 := by
  intro a ha n hn
  rw [← mem_walkBfs, exWorld_walk] at ha
  simp only [List.mem_cons, List.not_mem_nil, or_false] at ha
  rcases ha with rfl | rfl | rfl <;> cases hn <;> simp

/-- Both theorems apply to the example. -/
example : ∃ w1 w2, toGpu id 1 0 (exWorld .torch) = (w1, .ok ()) ∧ toCpu id 0 w1 = (w2, .ok ()) ∧ w2.heap = exHeap := by
  obtain ⟨w1, w2, h1, h2, h3, -⟩ := C114_there_and_back id 1 (exWorld .torch) 0 exWorld_movable (exWorld_onCpu .torch)
  exact ⟨w1, w2, h1, h2, h3⟩

theorem exWorld_toOps (k : ShimKind) (f : Placed Nat → Placed Nat) (ops : OpsInfo) :
    toOps f ops 0 (exWorld k) = loopE (toOpsStep f ops) [0, 1, 2] (exWorld k) := by
  rw [toOps, exWorld_walk]

/-- `to_gpu(1)` puts the parameters on GPU 1 and a wrapped PyTorch model of the same network on GPU 0. -/
theorem C114_wrapped_violated : ∃ w' : World Nat Nat, toGpu id 1 0 (exWorld .torch) = (w', .ok ()) ∧
    (w'.heap[1]?.bind fun n => n.params.get? (2, "W")) = some ⟨7, .gpu 1, true⟩ ∧ (w'.shims 0).device = .gpu 0 := by
  rw [toGpu, exWorld_toOps]
  exact ⟨_, rfl, rfl, rfl⟩

/-- A shim without `to_device` at the first node: `to_gpu` fails, this node already uses the GPU's ops, and the next has not been
moved. -/
theorem C114_half_moved_violated : ∃ (w w' : World Nat Nat), toGpu id 0 0 w = (w', .error .notImplementedError) ∧
    w'.ops 0 = ⟨true, 0⟩ ∧ w'.ops 1 = ⟨false, -1⟩ ∧ (w'.heap[1]?.bind fun n => n.params.get? (2, "W")) = some ⟨7, .cpu, true⟩ := by
  refine ⟨⟨{ name := "chain", id := 1, layers := [1, 2], shims := [0] } :: exHeap.tail, fun _ => numpyOps, fun _ => ⟨.none, .cpu, true⟩⟩, ?_⟩
  rw [toGpu, toOps, show walkBfs _ 0 = [0, 1, 2] by simp [exHeap, walkBfs, bfsLoop, layersOf]]
  exact ⟨_, rfl, rfl, rfl, rfl⟩

/-- Parameters in double precision are rounded. -/
theorem C114_double_violated : ∃ (w w' : World Nat Nat), toGpu (fun x => x / 2) 0 0 w = (w', .ok ()) ∧
    (w.heap[1]?.bind fun n => n.params.get? (2, "W")).map (·.value) = some 7 ∧
    (w'.heap[1]?.bind fun n => n.params.get? (2, "W")).map (·.value) = some 3 := by
  refine ⟨⟨[{ name := "chain", id := 1, layers := [1] }, { name := "linear", id := 2, layers := [], hasParams := [("W", some ())], params := [((2, "W"), ⟨7, .cpu, false⟩)] }], fun _ => numpyOps, fun _ => ⟨.none, .cpu, true⟩⟩, ?_⟩
  rw [toGpu, toOps, show walkBfs _ 0 = [0, 1] by simp [walkBfs, bfsLoop, layersOf]]
  exact ⟨_, rfl, rfl, rfl⟩

end Thinc.Devices
