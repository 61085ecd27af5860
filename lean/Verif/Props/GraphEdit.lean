import Verif.Lemmas.GraphEdit
import Verif.Props.Walk
/-!
# C05, C06, C07: references, `remove_node`, `replace_node`
-/
namespace Thinc
open Spec
variable {V A : Type}

/-! ## C05 -/

/-- C05. `set_ref(name, value)` succeeds iff `value` is `None` or reachable from the model;
otherwise it raises ValueError (and, being an error, changes nothing).  On success `get_ref(name)`
of the model returns `value` (raises ValueError if it is `None`), its other references, all the
rest of its state and every other node are unchanged. -/
theorem C05_set_ref (h : Heap V A) (self : Addr) (n : Node V A) (hn : h[self]? = some n)
    (name : String) (value : Option Addr) :
    ((∀ b, value = some b → Reachable h self b) →
      ∃ h' n', setRef h self name value = .ok h' ∧ h'[self]? = some n' ∧
        n'.getRef name = (match value with | some b => .ok b | none => .error .valueError) ∧
        (∀ other, other ≠ name → n'.getRef other = n.getRef other) ∧
        n' = { n with refs := n'.refs } ∧
        ∀ b : Addr, b ≠ self → h'[b]? = h[b]?) ∧
    (∀ b, value = some b → ¬ Reachable h self b → setRef h self name value = .error .valueError) := by
  constructor
  · intro hv
    have hok : setRef h self name value =
        .ok (h.modify self fun n => { n with refs := n.refs.set name value }) := by
      cases value with
      | none => rfl
      | some b => simp [setRef, mem_walkBfs, hv b rfl]
    refine ⟨_, { n with refs := n.refs.set name value }, hok, ?_, ?_, ?_, rfl, ?_⟩
    · rw [Heap.get_modify]; simp [hn]
    · simp only [Node.getRef, PyDict.get?_set_self]; cases value <;> rfl
    · intro other ho; simp only [Node.getRef, PyDict.get?_set_ne _ (Ne.symm ho)]
    · intro b hb; rw [Heap.get_modify, if_neg (Ne.symm hb)]
  · rintro b rfl hr
    simp [setRef, mem_walkBfs, hr]

/-- C05. `has_ref` is False / None / True exactly when `get_ref` raises KeyError / raises
ValueError / returns. -/
theorem C05_has_ref_trichotomy (n : Node V A) (name : String) :
    (n.hasRef name = some false ↔ n.getRef name = .error .keyError) ∧
    (n.hasRef name = none ↔ n.getRef name = .error .valueError) ∧
    (n.hasRef name = some true ↔ ∃ v, n.getRef name = .ok v) := by
  unfold Node.hasRef Node.getRef
  cases h : n.refs.get? name with
  | none => simp
  | some o => cases o <;> simp

/-- C05. `maybe_get_ref` never raises: it returns the model that `get_ref` returns, and None where `get_ref` raises. -/
theorem C05_maybe_get_ref (n : Node V A) (name : String) :
    (∀ v, n.maybeGetRef name = .ok (some v) ↔ n.getRef name = .ok v) ∧
    (n.maybeGetRef name = .ok none ↔ ∃ e, n.getRef name = .error e) := by
  unfold Node.maybeGetRef Node.hasRef Node.getRef
  cases h : n.refs.get? name with
  | none => simp
  | some o => cases o <;> simp [Except.map]

/-- A history of `set_ref` calls on one model; a raising call changes nothing. -/
def setRefs (h : Heap V A) (self : Addr) : List (String × Option Addr) → Heap V A
  | [] => h
  | (name, v) :: rest => match setRef h self name v with
    | .ok h' => setRefs h' self rest
    | .error _ => setRefs h self rest

theorem setRef_layers {h h' : Heap V A} {self : Addr} {name v} (hok : setRef h self name v = .ok h')
    (a : Addr) : layersOf h' a = layersOf h a := by
  have : h' = h.modify self fun n => { n with refs := n.refs.set name v } := by
    cases v with
    | none => simp [setRef] at hok; exact hok.symm
    | some b =>
      simp only [setRef] at hok
      split at hok
      · simp at hok; exact hok.symm
      · simp at hok
  subst this
  rw [layersOf_eq, layersOf_eq, Heap.get_modify]
  split <;> cases h[a]? <;> rfl

/-- C05 (histories). If all references of a model point into its tree, they still do after any
sequence of `set_ref` calls (succeeding or raising) with any arguments. -/
theorem C05_refs_stay_in_tree (h : Heap V A) (self : Addr)
    (h0 : ∀ n, h[self]? = some n → ∀ name b, n.getRef name = .ok b → Reachable h self b)
    (calls : List (String × Option Addr)) :
    ∀ n, (setRefs h self calls)[self]? = some n → ∀ name b, n.getRef name = .ok b →
      Reachable (setRefs h self calls) self b := by
  induction calls generalizing h with
  | nil => exact h0
  | cons c calls ih =>
    obtain ⟨nm, v⟩ := c
    simp only [setRefs]
    cases hs : setRef h self nm v with
    | error e => exact ih h h0
    | ok h' =>
      refine ih h' ?_
      intro n' hn' name b hb
      rw [Reachable.congr (setRef_layers hs)]
      cases hn : h[self]? with
      | none =>
        have : h' = h.modify self fun n => { n with refs := n.refs.set nm v } := by
          cases v with
          | none => simp [setRef] at hs; exact hs.symm
          | some b =>
            simp only [setRef] at hs
            split at hs
            · simp at hs; exact hs.symm
            · simp at hs
        rw [this, Heap.get_modify] at hn'
        simp [hn] at hn'
      | some n =>
        by_cases hv : ∀ b, v = some b → Reachable h self b
        · obtain ⟨h'', n'', hok, hg, hr1, hr2, _, _⟩ := (C05_set_ref h self n hn nm v).1 hv
          rw [hs] at hok; injection hok with hok; subst hok
          rw [hg] at hn'; injection hn' with hn'; subst hn'
          by_cases hnm : name = nm
          · subst hnm
            rw [hr1] at hb
            cases v with
            | none => simp at hb
            | some b' => simp at hb; subst hb; exact hv b' rfl
          · rw [hr2 name hnm] at hb
            exact h0 n hn name b hb
        · simp only [not_forall] at hv
          obtain ⟨b', hb', hnr⟩ := hv
          rw [(C05_set_ref h self n hn nm v).2 b' hb' hnr] at hs
          simp at hs

/-! ## C06 -/

/-- Specification: `a` can be reached from `self` without stepping onto `node`. -/
def Spec.Survives (h : Heap V A) (node self a : Addr) : Prop :=
  Relation.ReflTransGen (fun x y => Child h x y ∧ y ≠ node) self a

theorem removedHeap_reachable_iff (h : Heap V A) (self node b : Addr) :
    Reachable (removedHeap h self node) self b ↔ Spec.Survives h node self b := by
  classical
  constructor
  · intro hr
    induction hr with
    | refl => exact Relation.ReflTransGen.refl
    | tail hx hc ih =>
      have hreach := removedHeap_reachable hx
      rw [child_iff, removedHeap_layers, if_pos hreach] at hc
      have := List.mem_filter.1 hc
      refine Relation.ReflTransGen.tail ih ⟨(child_iff _ _ _).2 this.1, by simpa using this.2⟩
  · intro hs
    have hreach : ∀ x, Spec.Survives h node self x → Reachable h self x := by
      intro x hx
      induction hx with
      | refl => exact Relation.ReflTransGen.refl
      | tail _ hc ih => exact Relation.ReflTransGen.tail ih hc.1
    induction hs with
    | refl => exact Relation.ReflTransGen.refl
    | tail hx hc ih =>
      refine Relation.ReflTransGen.tail ih ((child_iff _ _ _).2 ?_)
      rw [removedHeap_layers, if_pos (hreach _ hx)]
      exact List.mem_filter.2 ⟨(child_iff _ _ _).1 hc.1, by simpa using hc.2⟩

open Classical in
/-- C06. If no surviving node has a reference that is registered but unset, `remove_node(node)`
succeeds and: (1) the nodes reachable afterwards are those reachable without passing through
`node`; (2) `node` occurs in no `.layers` of a reachable node; (3) every node's remaining children
keep order and multiplicity, nodes outside the old tree keep everything; (4) references of
surviving nodes to surviving nodes are unchanged, all their other references become unset; nothing
but `.layers` and references changes.  The order in which Python iterates over the set of nodes is
arbitrary (`enum`).
Missing for the full property: models with a registered but unset reference, on which the code
raises (`C06_unset_ref_raises`). -/
theorem C06_remove_node_partial (enum : List Addr → List Addr) (henum : ∀ l, (enum l).Perm l)
    (h : Heap V A) (w : h.WF) (self node : Addr)
    (hset : ∀ a, Spec.Survives h node self a → ∀ n, h[a]? = some n → ∀ name, n.hasRef name ≠ none) :
    ∃ h', removeNode enum h self node = (h', .ok ()) ∧
      (∀ a, Reachable h' self a ↔ Spec.Survives h node self a) ∧
      (∀ a n', Reachable h' self a → h'[a]? = some n' → node ∉ n'.layers) ∧
      (∀ (a : Addr) n', h'[a]? = some n' → ∃ n, h[a]? = some n ∧
        n' = { n with layers := n'.layers, refs := n'.refs } ∧
        n'.layers = (if Reachable h self a then n.layers.filter (· ≠ node) else n.layers) ∧
        n'.refNames = n.refNames ∧
        (¬ Reachable h' self a → n'.refs = n.refs) ∧
        (Reachable h' self a → ∀ name b, n.getRef name = .ok b →
          (Reachable h' self b → n'.getRef name = .ok b) ∧
          (¬ Reachable h' self b → n'.hasRef name = none))) := by
  have hmem : ∀ a, a ∈ enum (walkBfs (removedHeap h self node) self) ↔
      Spec.Survives h node self a := by
    intro a
    rw [(henum _).mem_iff, mem_walkBfs, removedHeap_reachable_iff]
  have hnd : (enum (walkBfs (removedHeap h self node) self)).Nodup :=
    (henum _).nodup_iff.2 (nodup_walkBfs _ _)
  have w1 : (removedHeap h self node).WF := by
    intro a n hn
    rw [removedHeap_get] at hn
    split at hn
    · cases hh : h[a]? with
      | none => simp [hh] at hn
      | some m =>
        simp [hh] at hn; subst hn
        have := w a m hh
        exact ⟨this.refs, this.dims, this.hasParams, this.params, this.grads, this.attrs⟩
    · exact w a n hn
  obtain ⟨c1, _⟩ := cleanStep_loop (walkBfs (removedHeap h self node) self)
    (enum (walkBfs (removedHeap h self node) self)) hnd (removedHeap h self node) w1
  obtain ⟨h', hrun, hget⟩ := c1 (by
    intro a ha n hn k hk
    rw [removedHeap_get] at hn
    cases hh : h[a]? with
    | none => simp [hh] at hn
    | some m =>
      have hrefs : n.refs = m.refs := by
        split at hn <;> (simp [hh] at hn; subst hn; rfl)
      apply hset a ((hmem a).1 ha) m hh k
      simp [Node.hasRef, ← hrefs, hk])
  refine ⟨h', by rw [removeNode_eq]; exact hrun, ?_⟩
  have hlay : ∀ a, layersOf h' a = layersOf (removedHeap h self node) a := by
    intro a
    rw [layersOf_eq, hget, layersOf_eq]
    split <;> cases (removedHeap h self node)[a]? <;> rfl
  have hreach : ∀ a, Reachable h' self a ↔ Spec.Survives h node self a := by
    intro a; rw [Reachable.congr hlay, removedHeap_reachable_iff]
  refine ⟨hreach, ?_, ?_⟩
  · intro a n' ha hn'
    have hr : Reachable h self a :=
      removedHeap_reachable ((removedHeap_reachable_iff _ _ _ _).2 ((hreach a).1 ha))
    have h1 : n'.layers = layersOf h' a := by simp [layersOf, hn']
    rw [h1, hlay, removedHeap_layers, if_pos hr]
    intro hm
    have := (List.mem_filter.1 hm).2
    simp at this
  · intro a n' hn'
    rw [hget, removedHeap_get] at hn'
    cases hh : h[a]? with
    | none => simp [hh] at hn'
    | some n =>
      refine ⟨n, rfl, ?_⟩
      simp only [hh, Option.map_some] at hn'
      have hiff : a ∈ enum (walkBfs (removedHeap h self node) self) ↔ Reachable h' self a := by
        rw [hmem, hreach]
      by_cases hs : Reachable h' self a
      · have hr : Reachable h self a :=
          removedHeap_reachable ((removedHeap_reachable_iff _ _ _ _).2 ((hreach a).1 hs))
        rw [if_pos (hiff.2 hs), if_pos hr] at hn'
        simp only [Option.map_some, Option.some.injEq] at hn'
        subst hn'
        refine ⟨rfl, by simp [cleanNode, hr], by simp [cleanNode, Node.refNames, keys_mapVal],
          fun hc => absurd hs hc, ?_⟩
        intro _ name b hb
        have hgb : n.refs.get? name = some (some b) := by
          unfold Node.getRef at hb
          cases hg : n.refs.get? name with
          | none => simp [hg] at hb
          | some o => cases o with
            | none => simp [hg] at hb
            | some c => simp [hg] at hb; rw [hb]
        have hb' : b ∈ walkBfs (removedHeap h self node) self ↔ Reachable h' self b := by
          rw [mem_walkBfs, removedHeap_reachable_iff, hreach]
        constructor
        · intro hrb
          simp [Node.getRef, cleanNode_get, hgb, cleanRef, hb'.2 hrb]
        · intro hrb
          have : b ∉ walkBfs (removedHeap h self node) self := fun hc => hrb (hb'.1 hc)
          simp [Node.hasRef, cleanNode_get, hgb, cleanRef, this]
      · rw [if_neg (fun hc => hs (hiff.1 hc))] at hn'
        by_cases hr : Reachable h self a
        · rw [if_pos hr] at hn'
          simp only [Option.some.injEq] at hn'
          subst hn'
          exact ⟨rfl, by simp [hr], rfl, fun _ => rfl, fun hc => absurd hc hs⟩
        · rw [if_neg hr] at hn'
          simp only [Option.some.injEq] at hn'
          subst hn'
          exact ⟨rfl, by simp [hr], rfl, fun _ => rfl, fun hc => absurd hc hs⟩

/-- C06 fails on models with a registered but unset reference: `remove_node` always raises
ValueError if a surviving node has one, whatever node is removed. -/
theorem C06_unset_ref_raises (enum : List Addr → List Addr) (henum : ∀ l, (enum l).Perm l)
    (h : Heap V A) (w : h.WF) (self node : Addr)
    (hun : ∃ a n name, Spec.Survives h node self a ∧ h[a]? = some n ∧ n.hasRef name = none) :
    (removeNode enum h self node).2 = .error .valueError := by
  classical
  obtain ⟨a, n, name, hs, hn, hr⟩ := hun
  have hnd : (enum (walkBfs (removedHeap h self node) self)).Nodup :=
    (henum _).nodup_iff.2 (nodup_walkBfs _ _)
  have w1 : (removedHeap h self node).WF := by
    intro a n hn
    rw [removedHeap_get] at hn
    split at hn
    · cases hh : h[a]? with
      | none => simp [hh] at hn
      | some m =>
        simp [hh] at hn; subst hn
        have := w a m hh
        exact ⟨this.refs, this.dims, this.hasParams, this.params, this.grads, this.attrs⟩
    · exact w a n hn
  obtain ⟨_, c2⟩ := cleanStep_loop (walkBfs (removedHeap h self node) self)
    (enum (walkBfs (removedHeap h self node) self)) hnd (removedHeap h self node) w1
  have hun' : n.refs.get? name = some none := by
    unfold Node.hasRef at hr
    cases hg : n.refs.get? name with
    | none => simp [hg] at hr
    | some o => cases o with
      | none => rfl
      | some c => simp [hg] at hr
  obtain ⟨h', hrun⟩ := c2 ⟨a, by rw [(henum _).mem_iff, mem_walkBfs, removedHeap_reachable_iff]; exact hs,
    (if Reachable h self a then { n with layers := n.layers.filter (· ≠ node) } else n),
    by rw [removedHeap_get, hn]; split <;> rfl, name, by split <;> exact hun'⟩
  rw [removeNode_eq, hrun]

/-! ## C07 -/

/-- Specification: node `n` with every occurrence of `old` in its layers and references replaced. -/
def Spec.replaced (old new : Addr) (n : Node V A) : Node V A :=
  { n with layers := n.layers.map (fun l => if l = old then new else l)
           refs := n.refs.map (fun p => (p.1, if p.2 = some old then some new else p.2)) }

theorem replaceRef_loop (a old new : Addr) (names : List String) (hnd : names.Nodup)
    (h : Heap V A) (n : Node V A) (hn : h[a]? = some n)
    (hreg : ∀ k ∈ names, ∃ b, n.refs.get? k = some (some b))
    (hreach : ∀ k ∈ names, n.refs.get? k = some (some old) → Reachable h a new) :
    ∃ r', loopE (replaceRef a old new) names h = (List.set h a { n with refs := r' }, .ok ()) ∧
      r'.keys = n.refs.keys ∧
      ∀ k, r'.get? k = if k ∈ names ∧ n.refs.get? k = some (some old) then some (some new)
        else n.refs.get? k := by
  induction names generalizing h n with
  | nil =>
    refine ⟨n.refs, ?_, rfl, by simp⟩
    simp only [loopE]
    congr 1
    have hlt := (List.getElem?_eq_some_iff.1 hn)
    obtain ⟨hlt, he⟩ := hlt
    rw [← he]; exact (List.set_getElem_self hlt).symm
  | cons k names ih =>
    rw [List.nodup_cons] at hnd
    have hlt := (List.getElem?_eq_some_iff.1 hn).1
    obtain ⟨b, hb⟩ := hreg k (by simp)
    by_cases hbo : b = old
    · subst hbo
      have hr := hreach k (by simp) hb
      have hstep : replaceRef a b new h k =
          (List.set h a { n with refs := n.refs.set k (some new) }, .ok ()) := by
        have hmod : h.modify a (fun n => { n with refs := n.refs.set k (some new) }) =
            List.set h a { n with refs := n.refs.set k (some new) } := by
          apply List.ext_getElem?
          intro i
          rw [Heap.get_modify, get_set _ _ _ _ hlt]
          by_cases hai : a = i
          · subst hai; simp [hn]
          · simp [hai]
        simp only [replaceRef, hn, Node.getRef, hb, setRef, mem_walkBfs, hr, if_true, hmod]
      have hn1 : (List.set h a { n with refs := n.refs.set k (some new) })[a]? =
          some { n with refs := n.refs.set k (some new) } := by
        rw [get_set _ _ _ _ hlt]; simp
      have hlay : ∀ x, layersOf (List.set h a { n with refs := n.refs.set k (some new) }) x =
          layersOf h x := by
        intro x
        rw [layersOf_eq, get_set _ _ _ _ hlt, layersOf_eq]
        by_cases hax : a = x
        · subst hax; simp [hn]
        · simp [hax]
      obtain ⟨r', h1, h2, h3⟩ := ih hnd.2 _ _ hn1 (by
          intro k' hk'
          have hkk : k ≠ k' := by rintro rfl; exact hnd.1 hk'
          simp only [PyDict.get?_set_ne _ hkk]
          exact hreg k' (by simp [hk'])) (by
          intro k' hk' hold
          have hkk : k ≠ k' := by rintro rfl; exact hnd.1 hk'
          simp only [PyDict.get?_set_ne _ hkk] at hold
          rw [Reachable.congr hlay]
          exact hreach k' (by simp [hk']) hold)
      refine ⟨r', ?_, ?_, ?_⟩
      · simp only [loopE, hstep, h1, List.set_set]
      · rw [h2]
        exact PyDict.keys_set_of_mem _ ((PyDict.mem_keys_iff _ _).2 (by simp [hb])) _
      · intro k'
        rw [h3]
        simp only [PyDict.get?_set]
        by_cases hkk : k = k'
        · subst hkk
          simp [hnd.1, hb]
        · simp only [if_neg hkk, List.mem_cons, Ne.symm hkk, false_or]
    · have hstep : replaceRef a old new h k = (h, .ok ()) := by
        simp only [replaceRef, hn, Node.getRef, hb, if_neg hbo]
      obtain ⟨r', h1, h2, h3⟩ := ih hnd.2 h n hn (fun k' hk' => hreg k' (by simp [hk']))
        (fun k' hk' => hreach k' (by simp [hk']))
      refine ⟨r', by simp only [loopE, hstep, h1], h2, ?_⟩
      intro k'
      rw [h3]
      by_cases hkk : k' = k
      · subst hkk; simp [hb, hbo]
      · simp [hkk]

/-- Processing one node of the walk. -/
theorem replaceStep_ok (old new : Addr) (h : Heap V A) (seen : Bool) (a : Addr) (hao : a ≠ old)
    (n : Node V A) (hn : h[a]? = some n) (w : n.WF) (hset : ∀ k, n.refs.get? k ≠ some none)
    (hreach : (∃ k, n.refs.get? k = some (some old)) →
      Reachable (List.set h a { n with layers := n.layers.map (fun l => if l = old then new else l) }) a new) :
    replaceStep old new (h, seen) a = ((List.set h a (Spec.replaced old new n), seen), .ok ()) := by
  have hlt := (List.getElem?_eq_some_iff.1 hn).1
  have hmod : h.modify a (fun n => { n with layers := n.layers.map (fun l => if l = old then new else l) }) =
      List.set h a { n with layers := n.layers.map (fun l => if l = old then new else l) } := by
    apply List.ext_getElem?
    intro i
    rw [Heap.get_modify, get_set _ _ _ _ hlt]
    by_cases hai : a = i
    · subst hai; simp [hn]
    · simp [hai]
  have hn1 : (List.set h a { n with layers := n.layers.map (fun l => if l = old then new else l) })[a]? =
      some { n with layers := n.layers.map (fun l => if l = old then new else l) } := by
    rw [get_set _ _ _ _ hlt]; simp
  obtain ⟨r', h1, h2, h3⟩ := replaceRef_loop a old new n.refNames w.refs _ _ hn1 (by
    intro k hk
    unfold Node.refNames at hk
    rw [PyDict.mem_keys_iff] at hk
    cases hg : n.refs.get? k with
    | none => simp [hg] at hk
    | some o => cases o with
      | none => exact absurd hg (hset k)
      | some b => exact ⟨b, rfl⟩) (fun k _ hk => hreach ⟨k, hk⟩)
  have hr' : r' = n.refs.map (fun p => (p.1, if p.2 = some old then some new else p.2)) := by
    apply PyDict.ext_of_keys
    · unfold PyDict.WF; rw [h2]; exact w.refs
    · rw [h2]
      exact (keys_mapVal n.refs (fun o => if o = some old then some new else o)).symm
    · intro k
      rw [h3]
      rw [get?_mapVal n.refs (fun o => if o = some old then some new else o)]
      simp only
      cases hg : n.refs.get? k with
      | none => simp
      | some o =>
        have : k ∈ n.refNames := by unfold Node.refNames; rw [PyDict.mem_keys_iff, hg]; rfl
        by_cases ho : o = some old <;> simp [this, ho]
  have h1' : loopE (replaceRef a old new) n.refNames
      (List.set h a { n with layers := n.layers.map (fun l => if l = old then new else l) }) =
      (List.set h a (Spec.replaced old new n), .ok ()) := by
    rw [h1, hr', List.set_set]; rfl
  unfold replaceStep
  rw [if_neg hao]
  simp only [hmod, hn1]
  have : ({ n with layers := n.layers.map (fun l => if l = old then new else l) } : Node V A).refNames =
      n.refNames := rfl
  rw [this, h1']

/-- Induction over the post-order walk. -/
theorem replaceLoop (h : Heap V A) (w : h.WF) (old new : Addr)
    (post : List Addr) (hnd : post.Nodup)
    (hdesc : ∀ l₁ x l₂, post = l₁ ++ x :: l₂ → ∀ y, Descendant h x y → y ∈ l₁)
    (hset : ∀ a ∈ post, a ≠ old → ∀ n, h[a]? = some n → ∀ k, n.refs.get? k ≠ some none)
    (href : ∀ a ∈ post, a ≠ old → ∀ n, h[a]? = some n → ∀ k, n.refs.get? k = some (some old) →
      Reachable h a old) :
    ∀ (done rest : List Addr) (hc : Heap V A) (seen : Bool), post = done ++ rest →
      (∀ b : Addr, hc[b]? = if b ∈ done ∧ b ≠ old then (h[b]?).map (Spec.replaced old new) else h[b]?) →
      ∃ h', loopE (replaceStep old new) rest (hc, seen) = ((h', seen || decide (old ∈ rest)), .ok ()) ∧
        ∀ b : Addr, h'[b]? = if b ∈ post ∧ b ≠ old then (h[b]?).map (Spec.replaced old new) else h[b]? := by
  intro done rest
  induction rest generalizing done with
  | nil =>
    intro hc seen hp hget
    refine ⟨hc, by simp [loopE], ?_⟩
    simp at hp; subst hp; exact hget
  | cons a rest ih =>
    intro hc seen hp hget
    have hp' : post = (done ++ [a]) ++ rest := by simp [hp]
    have hmem : a ∈ post := by simp [hp]
    have hnotdone : a ∉ done := by
      rw [hp] at hnd
      have := (List.nodup_append.1 hnd).2.2
      intro hm; exact this a hm a (by simp) rfl
    by_cases hao : a = old
    · have hstep : replaceStep old new (hc, seen) a = ((hc, true), .ok ()) := by
        simp [replaceStep, hao]
      obtain ⟨h', h1, h2⟩ := ih (done ++ [a]) hc true hp' (by
        intro b; rw [hget]
        by_cases hb : b = old
        · simp [hb]
        · simp [hb, hao])
      refine ⟨h', ?_, h2⟩
      simp only [loopE, hstep, h1]
      simp [hao]
    · have hca : hc[a]? = h[a]? := by rw [hget]; simp [hnotdone]
      cases hn : h[a]? with
      | none =>
        have hstep : replaceStep old new (hc, seen) a = ((hc, seen), .ok ()) := by
          have hge : hc.length ≤ a := by
            rw [hn] at hca; exact List.getElem?_eq_none_iff.1 hca
          have hmod : hc.modify a (fun n => { n with layers := n.layers.map (fun l => if l = old then new else l) }) = hc := by
            apply List.ext_getElem?
            intro i
            rw [Heap.get_modify]
            by_cases hai : a = i
            · subst hai; simp [hca, hn]
            · simp [hai]
          unfold replaceStep
          rw [if_neg hao]
          simp only [hmod]
          rw [hca, hn]
        obtain ⟨h', h1, h2⟩ := ih (done ++ [a]) hc seen hp' (by
          intro b; rw [hget]
          by_cases hb : b = a
          · subst hb; simp [hn]
          · simp [hb])
        refine ⟨h', ?_, h2⟩
        simp only [loopE, hstep, h1]
        simp [Ne.symm hao]
      | some n =>
        have hcn : hc[a]? = some n := by rw [hca, hn]
        have hlt := (List.getElem?_eq_some_iff.1 hcn).1
        have hstep := replaceStep_ok old new hc seen a hao n hcn (w a n hn)
          (hset a hmem hao n hn) (by
            rintro ⟨k, hk⟩
            have hro := href a hmem hao n hn k hk
            -- reachability of `new` from every processed node that reached `old`
            have hdescA := hdesc done a rest hp
            have key : ∀ x, Reachable h x old → x ≠ old → (x = a ∨ x ∈ done) →
                Reachable (List.set hc a { n with layers := n.layers.map (fun l => if l = old then new else l) }) x new := by
              intro x hx
              induction hx using Relation.ReflTransGen.head_induction_on with
              | refl => intro hne; exact absurd rfl hne
              | head hxy hyo ihy =>
                rename_i x y
                intro hxne hxd
                have hlx : layersOf (List.set hc a { n with layers := n.layers.map (fun l => if l = old then new else l) }) x =
                    (layersOf h x).map (fun l => if l = old then new else l) := by
                  rw [layersOf_eq, get_set _ _ _ _ hlt, layersOf_eq]
                  by_cases hxa : a = x
                  · subst hxa; simp [hn]
                  · rw [if_neg hxa, hget]
                    have hxd' : x ∈ done := by
                      rcases hxd with h | h
                      · exact absurd h.symm hxa
                      · exact h
                    rw [if_pos ⟨hxd', hxne⟩]
                    cases h[x]? <;> rfl
                have hcxy := (child_iff h _ _).1 hxy
                by_cases hyo' : y = old
                · refine Relation.ReflTransGen.single ((child_iff _ _ _).2 ?_)
                  rw [hlx]
                  exact List.mem_map.2 ⟨y, hcxy, by simp [hyo']⟩
                · have hyd : y ∈ done := by
                    rcases hxd with h | h
                    · subst h; exact hdescA y (Relation.TransGen.single hxy)
                    · obtain ⟨l1, l2, hl⟩ := List.append_of_mem h
                      have := hdesc l1 x (l2 ++ a :: rest) (by rw [hp, hl]; simp) y
                        (Relation.TransGen.single hxy)
                      rw [hl]; simp [this]
                  refine Relation.ReflTransGen.head ((child_iff _ _ _).2 ?_) (ihy hyo' (Or.inr hyd))
                  rw [hlx]
                  exact List.mem_map.2 ⟨y, hcxy, by simp [hyo']⟩
            exact key a hro hao (Or.inl rfl))
        obtain ⟨h', h1, h2⟩ := ih (done ++ [a]) (List.set hc a (Spec.replaced old new n)) seen hp' (by
          intro b
          rw [get_set _ _ _ _ hlt]
          by_cases hab : a = b
          · subst hab; simp [hao, hn]
          · rw [if_neg hab, hget]
            simp [Ne.symm hab])
        refine ⟨h', ?_, h2⟩
        simp only [loopE, hstep, h1]
        simp [Ne.symm hao]

open Classical in
/-- C07. In an acyclic model in which every reference is set and each reference to `old` lies in
its own model's tree (what `set_ref` enforces), `replace_node(old, new)` succeeds, returns whether
`old` is reachable from the model, and its only effect is that in every node of the tree other than
`old` itself each occurrence of `old` among the layers and references becomes `new`.
Missing for the full property: models with unset references (`C07_unset_ref_raises`), cyclic models
(`C07_cyclic_counterexample`), and the root itself being `old`, where the code returns True but
leaves the caller's model in place. -/
theorem C07_replace_node_partial (h : Heap V A) (w : h.WF) (hac : Acyclic h) (self old new : Addr)
    (hset : ∀ a, Reachable h self a → a ≠ old → ∀ n, h[a]? = some n → ∀ name, n.hasRef name ≠ none)
    (href : ∀ a, Reachable h self a → a ≠ old → ∀ n, h[a]? = some n → ∀ name,
      n.getRef name = .ok old → Reachable h a old) :
    ∃ h', replaceNode h self old new = (h', .ok (decide (Reachable h self old))) ∧
      ∀ b : Addr, h'[b]? =
        if Reachable h self b ∧ b ≠ old then (h[b]?).map (Spec.replaced old new) else h[b]? := by
  have hmem := fun a => mem_walkDfs h self a true
  obtain ⟨h', h1, h2⟩ := replaceLoop h w old new (walkDfs h self true) (nodup_walkDfs h self true)
    (C02_post_descendants_first h self hac _ (by simp [walk]))
    (fun a ha hne n hn k hk => hset a ((hmem a).1 ha) hne n hn k (by simp [Node.hasRef, hk]))
    (fun a ha hne n hn k hk => href a ((hmem a).1 ha) hne n hn k (by simp [Node.getRef, hk]))
    [] (walkDfs h self true) h false (by simp) (by simp)
  refine ⟨h', ?_, ?_⟩
  · unfold replaceNode
    rw [h1]
    simp only [Bool.false_or, hmem]
  · intro b; rw [h2]; simp only [hmem]

/-! ## Non-vacuity and counterexamples -/

def exN (ls : List Addr) (rs : PyDict String (Option Addr)) : Node Nat Nat :=
  { name := "n", id := 0, layers := ls, refs := rs, dims := [], hasParams := [], params := [],
    grads := [], attrs := [], shims := [] }

/-- 0 → 1, 2; 1 → 3; 2 → 3, 3, 4; node 0 refers to 3 and 4, node 2 to 3; 5 is outside. -/
def exTree : Heap Nat Nat :=
  [exN [1, 2] [("a", some 3), ("b", some 4)], exN [3] [], exN [3, 3, 4] [("r", some 3)], exN [] [],
   exN [] [], exN [] []]

/-- The hypotheses of `C06_remove_node_partial` and `C07_replace_node_partial` hold of `exTree`. -/
example : exTree.WF ∧ ∀ (a : Addr) n, exTree[a]? = some n → ∀ name, n.hasRef name ≠ none := by
  constructor
  · intro a n hn
    have := List.mem_of_getElem? hn
    simp [exTree] at this
    rcases this with rfl | rfl | rfl | rfl <;> constructor <;> simp [exN, PyDict.WF, PyDict.keys]
  · intro a n hn name
    have := List.mem_of_getElem? hn
    simp [exTree] at this
    rcases this with rfl | rfl | rfl | rfl
    · by_cases h1 : "a" = name
      · simp [exN, Node.hasRef, PyDict.get?, h1]
      · by_cases h2 : "b" = name <;> simp [exN, Node.hasRef, PyDict.get?, h1, h2]
    · simp [exN, Node.hasRef, PyDict.get?]
    · by_cases h1 : "r" = name <;> simp [exN, Node.hasRef, PyDict.get?, h1]
    · simp [exN, Node.hasRef, PyDict.get?]

/-- Removing node 2 keeps the reference to 3 (still reachable through 1) and clears the one to 4. -/
example : removeNode id exTree 0 2 = ([exN [1] [("a", some 3), ("b", none)], exN [3] [],
    exN [3, 3, 4] [("r", some 3)], exN [] [], exN [] [], exN [] []], .ok ()) := by
  simp [removeNode, walkBfs, bfsLoop, exTree, exN, layersOf, Heap.modify, List.modify, removeAll_eq_filter,
    loopE, cleanRefs, Node.getRef, Node.refNames, PyDict.keys, PyDict.get?, PyDict.set]

/-- After that, a second `remove_node` on the same model raises. -/
example : (removeNode id (removeNode id exTree 0 2).1 0 3).2 = .error .valueError := by
  simp [removeNode, walkBfs, bfsLoop, exTree, exN, layersOf, Heap.modify, List.modify, removeAll_eq_filter,
    loopE, cleanRefs, Node.getRef, Node.refNames, PyDict.keys, PyDict.get?, PyDict.set]

/-- Replacing 3 by 5 everywhere. -/
example : replaceNode exTree 0 3 5 = ([exN [1, 2] [("a", some 5), ("b", some 4)], exN [5] [],
    exN [5, 5, 4] [("r", some 5)], exN [] [], exN [] [], exN [] []], .ok true) := by
  simp [replaceNode, replaceStep, replaceRef, setRef, walkDfs, dfsLoop, walkBfs, bfsLoop, exTree, exN,
    layersOf, Heap.modify, List.modify, loopE, Node.getRef, Node.refNames, PyDict.keys, PyDict.get?,
    PyDict.set]

/-- C07 fails when a node has a registered but unset reference. -/
theorem C07_unset_ref_raises : ∃ h : Heap Nat Nat, h.WF ∧
    replaceNode h 0 1 2 = ([exN [2] [("a", none)], exN [] [], exN [] []], .error .valueError) := by
  refine ⟨[exN [1] [("a", none)], exN [] [], exN [] []], ?_, ?_⟩
  · intro a n hn
    have : n ∈ [exN [1] [("a", none)], exN [] [], exN [] []] := List.mem_of_getElem? hn
    simp at this
    rcases this with rfl | rfl <;>
      (constructor <;> simp [exN, PyDict.WF, PyDict.keys])
  · simp [replaceNode, replaceStep, replaceRef, walkDfs, dfsLoop, exN,
      layersOf, Heap.modify, List.modify, loopE, Node.getRef, Node.refNames, PyDict.keys, PyDict.get?]

/-- C07 fails on a cyclic model whose references are all valid: 0 → 1, 2; 1 → 0; node 1 refers to 2
(reachable through 0).  `replace_node(2, 3)` raises. -/
theorem C07_cyclic_counterexample : ∃ h : Heap Nat Nat, Reachable h 1 2 ∧
    (replaceNode h 0 2 3).2 = .error .valueError := by
  refine ⟨[exN [1, 2] [], exN [0] [("r", some 2)], exN [] [], exN [] []], ?_, ?_⟩
  · refine Relation.ReflTransGen.tail (b := 0) (Relation.ReflTransGen.single ?_) ?_ <;>
      simp [Child, exN]
  · simp [replaceNode, replaceStep, replaceRef, setRef, walkDfs, dfsLoop, walkBfs, bfsLoop, exN,
      layersOf, Heap.modify, List.modify, loopE, Node.getRef, Node.refNames, PyDict.keys, PyDict.get?]

end Thinc
