import Verif.Model.GraphEdit
import Verif.Lemmas.Walk
import Verif.Lemmas.NodeState
namespace Thinc
open Spec
variable {V A : Type}

/-- Every node of the heap is well formed. -/
def Heap.WF (h : Heap V A) : Prop := ∀ (a : Addr) n, h[a]? = some n → n.WF

theorem Heap.get_modify (h : Heap V A) (a b : Addr) (f : Node V A → Node V A) :
    (h.modify a f)[b]? = if a = b then (h[b]?).map f else h[b]? := by
  unfold Heap.modify
  rw [List.getElem?_modify]
  by_cases hab : a = b
  · simp [hab]
  · simp [hab]

theorem Heap.get_foldl_modify (f : Node V A → Node V A) (l : List Addr) (hl : l.Nodup)
    (h : Heap V A) (b : Addr) :
    (l.foldl (fun h a => Heap.modify h a f) h)[b]? = if b ∈ l then (h[b]?).map f else h[b]? := by
  induction l generalizing h with
  | nil => simp
  | cons a l ih =>
    rw [List.nodup_cons] at hl
    rw [List.foldl_cons, ih hl.2, Heap.get_modify]
    by_cases hab : a = b
    · subst hab; simp [hl.1]
    · simp [hab, Ne.symm hab]

theorem removeAll_eq_filter (l : List Addr) (x : Addr) : removeAll l x = l.filter (· ≠ x) := by
  induction l using removeAll.induct x with
  | case1 l hx ih =>
    rw [removeAll, if_pos hx, ih]
    clear ih
    induction l with
    | nil => simp at hx
    | cons y l ih =>
      by_cases hy : y = x
      · subst hy; simp
      · rw [List.erase_cons_tail (by simpa using hy)]
        have hx' : x ∈ l := by
          rcases List.mem_cons.1 hx with h | h
          · exact absurd h.symm hy
          · exact h
        simp only [List.filter_cons, ih hx']
  | case2 l hx =>
    rw [removeAll, if_neg hx]
    symm
    rw [List.filter_eq_self]
    intro a ha
    simp; rintro rfl; exact hx ha

theorem layersOf_eq (h : Heap V A) (a : Addr) : layersOf h a = ((h[a]?).map (·.layers)).getD [] := by
  unfold layersOf; cases h[a]? <;> rfl

theorem Child.of_layers {h h' : Heap V A} {a b : Addr} (hl : layersOf h' a = layersOf h a) :
    Child h' a b ↔ Child h a b := by rw [child_iff, child_iff, hl]

theorem Reachable.congr {h h' : Heap V A} (hl : ∀ a, layersOf h' a = layersOf h a) (a b : Addr) :
    Reachable h' a b ↔ Reachable h a b := by
  have : Child h' = Child h := by
    funext x y; exact propext (Child.of_layers (hl x))
  unfold Reachable; rw [this]

theorem Reachable.trans {h : Heap V A} {a b c : Addr} (h1 : Reachable h a b) (h2 : Reachable h b c) :
    Reachable h a c := Relation.ReflTransGen.trans h1 h2

theorem bfsLoop_congr {h h' : Heap V A} (hl : ∀ a, layersOf h' a = layersOf h a) (q seen) :
    bfsLoop h' q seen = bfsLoop h q seen := by
  induction q, seen using bfsLoop.induct h with
  | case1 => simp [bfsLoop]
  | case2 seen node rest hs ih => rw [bfsLoop, if_pos hs, ih]; rw [bfsLoop, if_pos hs]
  | case3 seen node rest hs ih =>
    rw [bfsLoop, if_neg hs, hl, ih]; rw [bfsLoop, if_neg hs]

theorem walkBfs_congr {h h' : Heap V A} (hl : ∀ a, layersOf h' a = layersOf h a) (r) :
    walkBfs h' r = walkBfs h r := bfsLoop_congr hl _ _

/-! ## cleanRefs -/

/-- What `remove_node` does to one reference. -/
def cleanRef (tree : List Addr) : Option Addr → Option Addr
  | some b => if b ∈ tree then some b else none
  | none => none

theorem cleanRefs_loop (tree : List Addr) (names : List String) (hnd : names.Nodup) (n : Node V A)
    (hreg : ∀ k ∈ names, k ∈ n.refs.keys) :
    ((∀ k ∈ names, n.refs.get? k ≠ some none) →
      ∃ r', loopE (cleanRefs tree) names n = ({ n with refs := r' }, .ok ()) ∧
        r'.keys = n.refs.keys ∧
        ∀ k, r'.get? k = if k ∈ names then (n.refs.get? k).map (cleanRef tree) else n.refs.get? k) ∧
    ((∃ k ∈ names, n.refs.get? k = some none) →
      ∃ r', loopE (cleanRefs tree) names n = ({ n with refs := r' }, .error .valueError)) := by
  induction names generalizing n with
  | nil => exact ⟨fun _ => ⟨n.refs, rfl, rfl, by simp⟩, by simp⟩
  | cons k names ih =>
    rw [List.nodup_cons] at hnd
    have hk := hreg k (by simp)
    rw [PyDict.mem_keys_iff] at hk
    cases hg : n.refs.get? k with
    | none => simp [hg] at hk
    | some o =>
      cases o with
      | none =>
        refine ⟨fun hall => absurd hg (hall k (by simp)), fun _ => ⟨n.refs, ?_⟩⟩
        simp [loopE, cleanRefs, Node.getRef, hg]
      | some b =>
        -- node after this iteration
        obtain ⟨n1, hn1, hrun, hkeys, hget⟩ : ∃ n1 : Node V A, (∃ r1, n1 = { n with refs := r1 }) ∧
            cleanRefs tree n k = (n1, .ok ()) ∧ n1.refs.keys = n.refs.keys ∧
            ∀ k', n1.refs.get? k' = if k' = k then some (cleanRef tree (some b)) else n.refs.get? k' := by
          by_cases hb : b ∈ tree
          · refine ⟨n, ⟨n.refs, rfl⟩, by simp [cleanRefs, Node.getRef, hg, hb], rfl, ?_⟩
            intro k'; by_cases h : k' = k
            · subst h; simp [hg, cleanRef, hb]
            · simp [h]
          · refine ⟨{ n with refs := n.refs.set k none }, ⟨_, rfl⟩,
              by simp [cleanRefs, Node.getRef, hg, hb],
              PyDict.keys_set_of_mem _ (hreg k (by simp)) _, ?_⟩
            intro k'; by_cases h : k' = k
            · subst h; simp [cleanRef, hb]
            · simp [h, PyDict.get?_set_ne _ (Ne.symm h)]
        obtain ⟨r1, rfl⟩ := hn1
        simp only at hkeys hget
        obtain ⟨ih1, ih2⟩ := ih hnd.2 { n with refs := r1 } (by
          intro k' hk'; simp only [hkeys]; exact hreg k' (by simp [hk']))
        have hne : ∀ k' ∈ names, k' ≠ k := by rintro k' hk' rfl; exact hnd.1 hk'
        constructor
        · intro hall
          obtain ⟨r', h1, h2, h3⟩ := ih1 (by
            intro k' hk'
            simp only [hget, if_neg (hne k' hk')]
            exact hall k' (by simp [hk']))
          refine ⟨r', ?_, ?_, ?_⟩
          · simp only [loopE, hrun, h1]
          · rw [h2]; exact hkeys
          · intro k'
            rw [h3]
            simp only [hget]
            by_cases hkk : k' = k
            · subst hkk; simp [hnd.1, hg]
            · simp [hkk]
        · rintro ⟨k', hk', hnone⟩
          have hkk : k' ≠ k := by rintro rfl; simp [hg] at hnone
          have hk'' : k' ∈ names := by
            rcases List.mem_cons.1 hk' with h | h
            · exact absurd h hkk
            · exact h
          obtain ⟨r', h1⟩ := ih2 ⟨k', hk'', by simp only [hget, if_neg hkk]; exact hnone⟩
          exact ⟨r', by simp only [loopE, hrun, h1]⟩


theorem get?_mapVal {κ α β : Type} [DecidableEq κ] (d : PyDict κ α) (f : α → β) (k : κ) :
    PyDict.get? (d.map fun p => (p.1, f p.2)) k = (d.get? k).map f := by
  induction d with
  | nil => rfl
  | cons p d ih =>
    obtain ⟨k0, v0⟩ := p
    simp only [List.map_cons, PyDict.get?_cons, ih]
    split <;> rfl

theorem keys_mapVal {κ α β : Type} (d : PyDict κ α) (f : α → β) :
    PyDict.keys (d.map fun p => (p.1, f p.2)) = d.keys := by
  simp [PyDict.keys]

/-- What `remove_node` does to the references of one node. -/
def cleanNode (tree : List Addr) (n : Node V A) : Node V A :=
  { n with refs := n.refs.map fun p => (p.1, cleanRef tree p.2) }

theorem cleanNode_get (tree : List Addr) (n : Node V A) (k : String) :
    (cleanNode tree n).refs.get? k = (n.refs.get? k).map (cleanRef tree) := get?_mapVal _ _ _

theorem cleanRefs_all (tree : List Addr) (n : Node V A) (w : n.WF)
    (hset : ∀ k, n.refs.get? k ≠ some none) :
    loopE (cleanRefs tree) n.refNames n = (cleanNode tree n, .ok ()) := by
  obtain ⟨h1, _⟩ := cleanRefs_loop tree n.refNames w.refs n (fun k hk => hk)
  obtain ⟨r', h2, h3, h4⟩ := h1 (fun k _ => hset k)
  rw [h2]
  have : r' = n.refs.map fun p => (p.1, cleanRef tree p.2) := by
    apply PyDict.ext_of_keys
    · unfold PyDict.WF; rw [h3]; exact w.refs
    · rw [h3, keys_mapVal]
    · intro k
      rw [h4, get?_mapVal]
      by_cases hk : k ∈ n.refNames
      · rw [if_pos hk]
      · rw [if_neg hk]
        have := (PyDict.get?_eq_none_iff n.refs k).2 hk
        rw [this]; rfl
  rw [this]; rfl

/-- The body of the second loop of `remove_node`. -/
def cleanStep (tree : List Addr) (h : Heap V A) (a : Addr) : Heap V A × Except PyErr Unit :=
  match h[a]? with
  | none => (h, .ok ())
  | some n =>
    let (n', r) := loopE (cleanRefs tree) n.refNames n
    (List.set h a n', r)

theorem get_set (h : Heap V A) (a b : Addr) (n : Node V A) (ha : a < h.length) :
    (List.set h a n)[b]? = if a = b then some n else h[b]? := by
  rw [List.getElem?_set]
  by_cases hab : a = b
  · subst hab; simp [ha]
  · simp [hab]

theorem cleanStep_loop (tree : List Addr) (en : List Addr) (hnd : en.Nodup) (h : Heap V A)
    (w : h.WF) :
    ((∀ a ∈ en, ∀ n, h[a]? = some n → ∀ k, n.refs.get? k ≠ some none) →
      ∃ h', loopE (cleanStep tree) en h = (h', .ok ()) ∧
        ∀ b : Addr, h'[b]? = if b ∈ en then (h[b]?).map (cleanNode tree) else h[b]?) ∧
    ((∃ a ∈ en, ∃ n, h[a]? = some n ∧ ∃ k, n.refs.get? k = some none) →
      ∃ h', loopE (cleanStep tree) en h = (h', .error .valueError)) := by
  induction en generalizing h with
  | nil => exact ⟨fun _ => ⟨h, rfl, by simp⟩, by simp⟩
  | cons a en ih =>
    rw [List.nodup_cons] at hnd
    cases ha : h[a]? with
    | none =>
      have hstep : cleanStep tree h a = (h, .ok ()) := by simp [cleanStep, ha]
      obtain ⟨ih1, ih2⟩ := ih hnd.2 h w
      constructor
      · intro hall
        obtain ⟨h', h1, h2⟩ := ih1 (fun b hb => hall b (by simp [hb]))
        refine ⟨h', by simp only [loopE, hstep, h1], ?_⟩
        intro b; rw [h2]
        by_cases hb : b = a
        · subst hb; simp [ha]
        · simp [hb]
      · rintro ⟨b, hb, n, hn, k, hk⟩
        have hba : b ≠ a := by rintro rfl; simp [ha] at hn
        obtain ⟨h', h1⟩ := ih2 ⟨b, by simpa [hba] using hb, n, hn, k, hk⟩
        exact ⟨h', by simp only [loopE, hstep, h1]⟩
    | some n =>
      have hwn := w a n ha
      have hlt : a < h.length := (List.getElem?_eq_some_iff.1 ha).1
      obtain ⟨c1, c2⟩ := cleanRefs_loop tree n.refNames hwn.refs n (fun k hk => hk)
      by_cases hset : ∀ k, n.refs.get? k ≠ some none
      · have hstep : cleanStep tree h a = (List.set h a (cleanNode tree n), .ok ()) := by
          simp only [cleanStep, ha, cleanRefs_all tree n hwn hset]
        have w' : Heap.WF (List.set h a (cleanNode tree n)) := by
          intro b m hm
          rw [get_set _ _ _ _ hlt] at hm
          split at hm
          · simp at hm; subst hm
            refine ⟨?_, hwn.dims, hwn.hasParams, hwn.params, hwn.grads, hwn.attrs⟩
            unfold PyDict.WF cleanNode
            simp only
            rw [keys_mapVal]; exact hwn.refs
          · exact w b m hm
        obtain ⟨ih1, ih2⟩ := ih hnd.2 _ w'
        constructor
        · intro hall
          obtain ⟨h', h1, h2⟩ := ih1 (by
            intro b hb m hm
            have hba : a ≠ b := by rintro rfl; exact hnd.1 hb
            rw [get_set _ _ _ _ hlt, if_neg hba] at hm
            exact hall b (by simp [hb]) m hm)
          refine ⟨h', by simp only [loopE, hstep, h1], ?_⟩
          intro b; rw [h2, get_set _ _ _ _ hlt]
          by_cases hb : a = b
          · subst hb; simp [hnd.1, ha]
          · simp [hb, Ne.symm hb]
        · rintro ⟨b, hb, m, hm, k, hk⟩
          have hba : b ≠ a := by
            rintro rfl
            rw [ha] at hm; simp at hm; subst hm; exact hset k hk
          obtain ⟨h', h1⟩ := ih2 ⟨b, by simpa [hba] using hb, m,
            by rw [get_set _ _ _ _ hlt, if_neg (Ne.symm hba)]; exact hm, k, hk⟩
          exact ⟨h', by simp only [loopE, hstep, h1]⟩
      · have : ∃ k ∈ n.refNames, n.refs.get? k = some none := by
          simp only [ne_eq, not_forall, not_not] at hset
          obtain ⟨k, hk⟩ := hset
          exact ⟨k, by unfold Node.refNames; rw [PyDict.mem_keys_iff, hk]; rfl, hk⟩
        obtain ⟨r', hr⟩ := c2 this
        have hstep : ∃ x, cleanStep tree h a = (x, .error .valueError) := by
          simp only [cleanStep, ha, hr]; exact ⟨_, rfl⟩
        obtain ⟨x, hx⟩ := hstep
        constructor
        · intro hall
          obtain ⟨k, _, hk⟩ := this
          exact absurd hk (hall a (by simp) n ha k)
        · intro _
          exact ⟨x, by simp only [loopE, hx]⟩

/-- The heap after the first loop of `remove_node`. -/
def removedHeap (h : Heap V A) (self node : Addr) : Heap V A :=
  (walkBfs h self).foldl
    (fun h child => h.modify child fun n => { n with layers := removeAll n.layers node }) h

theorem removeNode_eq (enum : List Addr → List Addr) (h : Heap V A) (self node : Addr) :
    removeNode enum h self node =
      loopE (cleanStep (walkBfs (removedHeap h self node) self))
        (enum (walkBfs (removedHeap h self node) self)) (removedHeap h self node) := rfl

theorem removedHeap_get (h : Heap V A) (self node b : Addr) [Decidable (Reachable h self b)] :
    (removedHeap h self node)[b]? =
      if Reachable h self b then (h[b]?).map (fun n => { n with layers := n.layers.filter (· ≠ node) })
      else h[b]? := by
  unfold removedHeap
  rw [Heap.get_foldl_modify _ _ (nodup_walkBfs h self)]
  simp only [mem_walkBfs, removeAll_eq_filter]

theorem removedHeap_layers (h : Heap V A) (self node b : Addr) [Decidable (Reachable h self b)] :
    layersOf (removedHeap h self node) b =
      if Reachable h self b then (layersOf h b).filter (· ≠ node) else layersOf h b := by
  rw [layersOf_eq, removedHeap_get, layersOf_eq]
  split <;> cases h[b]? <;> simp

theorem removedHeap_reachable {h : Heap V A} {self node b : Addr}
    (hr : Reachable (removedHeap h self node) self b) : Reachable h self b := by
  classical
  induction hr with
  | refl => exact Relation.ReflTransGen.refl
  | tail _ hc ih =>
    rw [child_iff, removedHeap_layers, if_pos ih] at hc
    exact Relation.ReflTransGen.tail ih ((child_iff _ _ _).2 (List.mem_filter.1 hc).1)

end Thinc
