import Verif.Model.FinishUpdate
import Verif.Lemmas.Serialize
import Verif.Props.Walk
/-!
# C15: `Model.finish_update`
-/
namespace Thinc
open Spec
variable {V A O T : Type}

/-! ## Specification -/

/-- One call of the optimizer. -/
structure Spec.OptCall (V : Type) where
  node : Addr
  id : Nat
  name : String
  param : V
  grad : V

/-- Calling the optimizer on a list of calls, in order: final state, and per call the returned
parameter and the contents of the gradient array afterwards. -/
def Spec.runCalls (opt : OptFn O V) : O → List (OptCall V) → O × List (V × V)
  | o, [] => (o, [])
  | o, c :: cs =>
    let r := opt o (c.id, c.name) c.param c.grad
    let q := runCalls opt r.1 cs
    (q.1, r.2 :: q.2)

/-- The calls that `finish_update` owes: one for each reachable node and each of its parameters
that has a gradient, with the node's id and the current parameter and gradient. -/
structure Spec.Owed (h : Heap V A) (root : Addr) (calls : List (OptCall V)) : Prop where
  once : (calls.map fun c => (c.node, c.name)).Nodup
  exact : ∀ c, c ∈ calls ↔ Reachable h root c.node ∧ ∃ n, h[c.node]? = some n ∧ c.id = n.id ∧
    c.name ∈ n.paramNames ∧ n.getParam c.name = .ok c.param ∧ n.getGrad c.name = .ok c.grad

/-! ## Lemmas -/

theorem runCalls_append (opt : OptFn O V) (o : O) (xs ys : List (OptCall V)) :
    runCalls opt o (xs ++ ys) = ((runCalls opt (runCalls opt o xs).1 ys).1,
      (runCalls opt o xs).2 ++ (runCalls opt (runCalls opt o xs).1 ys).2) := by
  induction xs generalizing o with
  | nil => rfl
  | cons c xs ih => simp only [List.cons_append, runCalls, ih]

theorem runCalls_length (opt : OptFn O V) (o : O) (xs : List (OptCall V)) : (runCalls opt o xs).2.length = xs.length := by
  induction xs generalizing o with
  | nil => rfl
  | cons c xs ih => simp only [runCalls, List.length_cons, ih]

/-- Relation between the start state and the state after the calls `calls`. -/
structure FUInv (opt : OptFn O V) (h : Heap V A) (o : O) (calls : List (OptCall V)) (s : FUState O V A) : Prop where
  state : s.opt = (runCalls opt o calls).1
  node : ∀ (b : Addr) n, h[b]? = some n → ∃ n', s.nodes[b]? = some n' ∧
    n' = { n with params := n'.params, hasParams := n'.hasParams, grads := n'.grads } ∧
    n'.paramNames = n.paramNames ∧
    ∀ k, (∀ c ∈ calls, ¬ (c.node = b ∧ c.name = k)) →
      n'.getParam k = n.getParam k ∧ n'.hasParam k = n.hasParam k ∧ n'.getGrad k = n.getGrad k
  called : ∀ (i : Nat) c r, calls[i]? = some c → (runCalls opt o calls).2[i]? = some r →
    ∃ n', s.nodes[c.node]? = some n' ∧ n'.hasParam c.name = some true ∧ n'.getParam c.name = .ok r.1 ∧
      n'.getGrad c.name = .ok r.2
  none : ∀ b : Addr, h[b]? = none → s.nodes[b]? = none

theorem upd_get (n : Node V A) (k k' : String) (p g : V) :
    ((n.setGrad k g).setParam k (some p)).getParam k' = if k = k' then .ok p else n.getParam k' := by
  simp only [Node.getParam, Node.setParam, Node.setGrad, PyDict.get?_set, PyDict.contains]
  by_cases h : k = k'
  · simp [h]
  · simp [h]; rfl

theorem upd_has (n : Node V A) (k k' : String) (p g : V) :
    ((n.setGrad k g).setParam k (some p)).hasParam k' = if k = k' then some true else n.hasParam k' := by
  simp only [Node.hasParam, Node.setParam, Node.setGrad, PyDict.get?_set]
  by_cases h : k = k' <;> simp [h]

theorem upd_grad (n : Node V A) (k k' : String) (p g : V) :
    ((n.setGrad k g).setParam k (some p)).getGrad k' = if k = k' then .ok g else n.getGrad k' := by
  simp only [Node.getGrad, Node.setParam, Node.setGrad, PyDict.get?_set]
  by_cases h : k = k' <;> simp [h]

theorem upd_names (n : Node V A) {k : String} (hk : k ∈ n.paramNames) (p g : V) :
    ((n.setGrad k g).setParam k (some p)).paramNames = n.paramNames := by
  simp only [Node.paramNames, Node.setParam, Node.setGrad]
  exact PyDict.keys_set_of_mem _ hk _

theorem hasGrad_iff (n : Node V A) (k : String) : n.hasGrad k = true ↔ ∃ g, n.getGrad k = .ok g := by
  unfold Node.hasGrad Node.getGrad PyDict.contains
  cases n.grads.get? (n.id, k) <;> simp

/-- One iteration on a parameter that has a gradient. -/
theorem FUInv.step {opt : OptFn O V} {h : Heap V A} {o : O} {calls : List (OptCall V)} {s : FUState O V A}
    (i : FUInv opt h o calls s) (a : Addr) (n : Node V A) (hn : h[a]? = some n) (k : String) (hk : k ∈ n.paramNames)
    (p g : V) (hp : n.getParam k = .ok p) (hg : n.getGrad k = .ok g)
    (hnew : ∀ c ∈ calls, ¬ (c.node = a ∧ c.name = k)) :
    ∃ s', updateParam opt a s k = (s', .ok ()) ∧ FUInv opt h o (calls ++ [⟨a, n.id, k, p, g⟩]) s' := by
  obtain ⟨n', h1, h2, h3, h4⟩ := i.node a n hn
  obtain ⟨g1, g2, g3⟩ := h4 k hnew
  have hid : n'.id = n.id := by rw [h2]
  have hk' : k ∈ n'.paramNames := h3 ▸ hk
  obtain ⟨⟨o', p', g'⟩, hr⟩ : ∃ r, opt s.opt (n.id, k) p g = r := ⟨_, rfl⟩
  refine ⟨{ nodes := s.nodes.modify a fun n => (n.setGrad k g').setParam k (some p'), opt := o' }, ?_, ?_⟩
  · unfold updateParam
    rw [h1]
    simp only [(hasGrad_iff n' k).2 ⟨g, g3.trans hg⟩, if_true, g1.trans hp, g3.trans hg, hid, hr]
  · have hruns : runCalls opt o (calls ++ [⟨a, n.id, k, p, g⟩]) = (o', (runCalls opt o calls).2 ++ [(p', g')]) := by
      rw [runCalls_append, ← i.state]
      simp [runCalls, hr]
    have hget : ∀ b : Addr, (s.nodes.modify a fun n => (n.setGrad k g').setParam k (some p'))[b]? =
        if a = b then some ((n'.setGrad k g').setParam k (some p')) else s.nodes[b]? := by
      intro b
      rw [Heap.get_modify]
      by_cases hab : a = b
      · subst hab; simp [h1]
      · simp [hab]
    refine ⟨by rw [hruns], ?_, ?_, ?_⟩
    · intro b m hm
      rw [hget]
      by_cases hab : a = b
      · subst hab
        rw [hn] at hm; injection hm with hm; subst hm
        refine ⟨(n'.setGrad k g').setParam k (some p'), by simp, ?_, ?_, ?_⟩
        · rw [h2]; rfl
        · rw [upd_names n' hk' p' g', h3]
        · intro k' hk''
          have hkk : k ≠ k' := fun e => hk'' ⟨a, n.id, k, p, g⟩ (by simp) ⟨rfl, e⟩
          rw [upd_get, upd_has, upd_grad, if_neg hkk, if_neg hkk, if_neg hkk]
          exact h4 k' (fun c hc => hk'' c (by simp [hc]))
      · obtain ⟨m', e1, e2, e3, e4⟩ := i.node b m hm
        refine ⟨m', by simp [hab, e1], e2, e3, fun k' hk' => e4 k' (fun c hc => hk' c (by simp [hc]))⟩
    · intro j c r hc hr'
      rw [hruns] at hr'
      simp only at hr'
      by_cases hj : j < calls.length
      · rw [List.getElem?_append_left hj] at hc
        rw [List.getElem?_append_left (by rw [runCalls_length]; exact hj)] at hr'
        obtain ⟨m, e1, e2, e3, e4⟩ := i.called j c r hc hr'
        rw [hget]
        by_cases hab : a = c.node
        · have hkc : k ≠ c.name := fun e => hnew c (List.mem_of_getElem? hc) ⟨hab.symm, e.symm⟩
          rw [← hab, h1] at e1; injection e1 with e1; subst e1
          refine ⟨(n'.setGrad k g').setParam k (some p'), by simp [hab], ?_⟩
          rw [upd_has, upd_get, upd_grad, if_neg hkc, if_neg hkc, if_neg hkc]
          exact ⟨e2, e3, e4⟩
        · exact ⟨m, by simp [hab, e1], e2, e3, e4⟩
      · rw [List.getElem?_append_right (by omega)] at hc
        rw [List.getElem?_append_right (by rw [runCalls_length]; omega), runCalls_length] at hr'
        cases hjj : j - calls.length with
        | zero =>
          rw [hjj] at hc hr'
          simp at hc hr'
          subst hc hr'
          rw [hget]
          refine ⟨(n'.setGrad k g').setParam k (some p'), by simp, ?_⟩
          rw [upd_has, upd_get, upd_grad]
          simp
        | succ q => rw [hjj] at hc; simp at hc
    · intro b hb
      rw [hget]
      have hab : a ≠ b := by rintro rfl; rw [hn] at hb; simp at hb
      simp [hab, i.none b hb]

/-- The calls owed for one node, for the names in `ks`. -/
def nodeCalls (a : Addr) (n : Node V A) (ks : List String) : List (OptCall V) :=
  ks.filterMap fun k => match n.getParam k, n.getGrad k with
    | .ok p, .ok g => some ⟨a, n.id, k, p, g⟩
    | _, _ => none

theorem mem_nodeCalls {a : Addr} {n : Node V A} {ks : List String} {c : OptCall V} :
    c ∈ nodeCalls a n ks ↔ c.node = a ∧ c.id = n.id ∧ c.name ∈ ks ∧ n.getParam c.name = .ok c.param ∧
      n.getGrad c.name = .ok c.grad := by
  unfold nodeCalls
  rw [List.mem_filterMap]
  constructor
  · rintro ⟨k, hk, he⟩
    split at he
    · rename_i p g hp hg
      injection he with he; subst he
      exact ⟨rfl, rfl, hk, hp, hg⟩
    · simp at he
  · rintro ⟨h1, h2, h3, h4, h5⟩
    exact ⟨c.name, h3, by rw [h4, h5]; cases c; simp_all⟩

theorem updateNames_spec {opt : OptFn O V} {h : Heap V A} {o : O} (a : Addr) (n : Node V A) (hn : h[a]? = some n)
    (hpar : ∀ k ∈ n.paramNames, n.hasGrad k = true → ∃ p, n.getParam k = .ok p)
    (ks : List String) (hks : ∀ k ∈ ks, k ∈ n.paramNames) (hnd : ks.Nodup)
    {calls : List (OptCall V)} {s : FUState O V A} (i : FUInv opt h o calls s)
    (hnew : ∀ c ∈ calls, ∀ k ∈ ks, ¬ (c.node = a ∧ c.name = k)) :
    ∃ s', loopE (updateParam opt a) ks s = (s', .ok ()) ∧ FUInv opt h o (calls ++ nodeCalls a n ks) s' := by
  induction ks generalizing calls s with
  | nil => exact ⟨s, rfl, by simpa [nodeCalls] using i⟩
  | cons k ks ih =>
    rw [List.nodup_cons] at hnd
    by_cases hgr : n.hasGrad k = true
    · obtain ⟨p, hp⟩ := hpar k (hks k (by simp)) hgr
      obtain ⟨g, hg⟩ := (hasGrad_iff n k).1 hgr
      obtain ⟨s1, e1, i1⟩ := i.step a n hn k (hks k (by simp)) p g hp hg (fun c hc => hnew c hc k (by simp))
      obtain ⟨s2, e2, i2⟩ := ih (fun k hk => hks k (by simp [hk])) hnd.2 i1 (by
        intro c hc k' hk'
        rcases List.mem_append.1 hc with hc | hc
        · exact hnew c hc k' (by simp [hk'])
        · simp at hc; subst hc
          rintro ⟨_, e⟩
          exact hnd.1 ((show k = k' from e) ▸ hk'))
      refine ⟨s2, by simp only [loopE, e1, e2], ?_⟩
      have : nodeCalls a n (k :: ks) = ⟨a, n.id, k, p, g⟩ :: nodeCalls a n ks := by
        simp [nodeCalls, hp, hg]
      rw [this]
      simpa using i2
    · obtain ⟨s2, e2, i2⟩ := ih (fun k hk => hks k (by simp [hk])) hnd.2 i
        (fun c hc k' hk' => hnew c hc k' (by simp [hk']))
      obtain ⟨n', f1, f2, f3, f4⟩ := i.node a n hn
      obtain ⟨_, _, g3⟩ := f4 k (fun c hc => hnew c hc k (by simp))
      have hng : ¬ n'.hasGrad k = true := by
        rw [hasGrad_iff, g3, ← hasGrad_iff]; exact hgr
      have hstep : updateParam opt a s k = (s, .ok ()) := by
        unfold updateParam
        rw [f1]; simp only [hng]; rfl
      refine ⟨s2, by simp only [loopE, hstep, e2], ?_⟩
      have : nodeCalls a n (k :: ks) = nodeCalls a n ks := by
        have : ∀ g, n.getGrad k ≠ .ok g := fun g hg => hgr ((hasGrad_iff n k).2 ⟨g, hg⟩)
        simp only [nodeCalls, List.filterMap_cons]
        split
        · rfl
        · rename_i heq
          split at heq
          · rename_i p g hp hg; exact absurd hg (this g)
          · simp at heq
      rw [this]; exact i2

/-- All calls owed for a list of nodes. -/
def listCalls (h : Heap V A) (as : List Addr) : List (OptCall V) :=
  as.flatMap fun a => match h[a]? with
    | some n => nodeCalls a n n.paramNames
    | none => []

theorem updateNodes_spec {opt : OptFn O V} {h : Heap V A} {o : O} (as : List Addr) (hnd : as.Nodup)
    (hall : ∀ a ∈ as, ∃ n, h[a]? = some n ∧ n.paramNames.Nodup ∧
      ∀ k ∈ n.paramNames, n.hasGrad k = true → ∃ p, n.getParam k = .ok p)
    {calls : List (OptCall V)} {s : FUState O V A} (i : FUInv opt h o calls s)
    (hnew : ∀ c ∈ calls, c.node ∉ as) :
    ∃ s', loopE (updateNode opt) as s = (s', .ok ()) ∧ FUInv opt h o (calls ++ listCalls h as) s' := by
  induction as generalizing calls s with
  | nil => exact ⟨s, rfl, by simpa [listCalls] using i⟩
  | cons a as ih =>
    rw [List.nodup_cons] at hnd
    obtain ⟨n, hn, hnn, hpar⟩ := hall a (by simp)
    obtain ⟨n', f1, f2, f3, f4⟩ := i.node a n hn
    obtain ⟨s1, e1, i1⟩ := updateNames_spec (opt := opt) a n hn hpar n.paramNames (fun _ h => h) hnn i
      (fun c hc k _ hck => hnew c hc (by simp [hck.1]))
    obtain ⟨s2, e2, i2⟩ := ih hnd.2 (fun b hb => hall b (by simp [hb])) i1 (by
      intro c hc
      rcases List.mem_append.1 hc with hc | hc
      · exact fun h => hnew c hc (by simp [h])
      · rw [(mem_nodeCalls.1 hc).1]; exact hnd.1)
    refine ⟨s2, ?_, ?_⟩
    · have : updateNode opt s a = (s1, .ok ()) := by
        unfold updateNode; rw [f1]; simp only; rw [f3]; exact e1
      simp only [loopE, this, e2]
    · simpa [listCalls, hn] using i2

theorem nodup_nodeCalls (a : Addr) (n : Node V A) (ks : List String) (hnd : ks.Nodup) :
    ((nodeCalls a n ks).map fun c => (c.node, c.name)).Nodup := by
  induction ks with
  | nil => simp [nodeCalls]
  | cons k ks ih =>
    rw [List.nodup_cons] at hnd
    have hsplit : nodeCalls a n (k :: ks) = nodeCalls a n [k] ++ nodeCalls a n ks := by
      simp only [nodeCalls, ← List.filterMap_append]; rfl
    rw [hsplit, List.map_append, List.nodup_append]
    refine ⟨?_, ih hnd.2, ?_⟩
    · have : (nodeCalls a n [k]).length ≤ 1 := List.length_filterMap_le _ _
      match h : nodeCalls a n [k] with
      | [] => simp
      | [_] => simp
      | _ :: _ :: _ => rw [h] at this; simp at this
    · intro x hx y hy hxy
      subst hxy
      obtain ⟨c, hc, rfl⟩ := List.mem_map.1 hx
      obtain ⟨d, hd, he⟩ := List.mem_map.1 hy
      have h1 := (mem_nodeCalls.1 hc).2.2.1
      have h2 := (mem_nodeCalls.1 hd).2.2.1
      simp at h1 he
      rw [← h1, ← he.2] at hnd
      exact hnd.1 h2

theorem mem_listCalls {h : Heap V A} {as : List Addr} {c : OptCall V} : c ∈ listCalls h as ↔
    c.node ∈ as ∧ ∃ n, h[c.node]? = some n ∧ c ∈ nodeCalls c.node n n.paramNames := by
  unfold listCalls
  rw [List.mem_flatMap]
  constructor
  · rintro ⟨a, ha, hc⟩
    split at hc
    · rename_i n hn
      have := (mem_nodeCalls.1 hc).1
      subst this
      exact ⟨ha, n, hn, hc⟩
    · simp at hc
  · rintro ⟨ha, n, hn, hc⟩
    exact ⟨_, ha, by rw [hn]; exact hc⟩

theorem nodup_listCalls (h : Heap V A) (as : List Addr) (hnd : as.Nodup)
    (hall : ∀ (a : Addr) n, a ∈ as → h[a]? = some n → n.paramNames.Nodup) :
    ((listCalls h as).map fun c => (c.node, c.name)).Nodup := by
  induction as with
  | nil => simp [listCalls]
  | cons a as ih =>
    rw [List.nodup_cons] at hnd
    have hsplit : listCalls h (a :: as) = listCalls h [a] ++ listCalls h as := by simp [listCalls]
    rw [hsplit, List.map_append, List.nodup_append]
    refine ⟨?_, ih hnd.2 (fun b n hb => hall b n (by simp [hb])), ?_⟩
    · cases hn : h[a]? with
      | none => simp [listCalls, hn]
      | some n => simpa [listCalls, hn] using nodup_nodeCalls a n n.paramNames (hall a n (by simp) hn)
    · intro x hx y hy hxy
      subst hxy
      obtain ⟨c, hc, rfl⟩ := List.mem_map.1 hx
      obtain ⟨d, hd, he⟩ := List.mem_map.1 hy
      have h1 := (mem_listCalls.1 hc).1
      have h2 := (mem_listCalls.1 hd).1
      simp at h1 he
      rw [he.1, h1] at h2
      exact hnd.1 h2

/-! ## The property -/

/-- C15. Let every reachable node exist and every parameter with a gradient be allocated, and let
the shims' own updates succeed.  Then `finish_update` succeeds; it first runs `finish_update` of
every shim of every reachable node, in walk order, and then calls the optimizer on a list of calls
that contains exactly one call per reachable node and parameter with a gradient (`Owed`), with the
node's key, value and gradient.  Each parameter called for then holds what the optimizer returned;
every other parameter, gradient and everything else is untouched. -/
theorem C15_finish_update (opt : OptFn O V) (shimFU : O × T → Addr → (O × T) × Except PyErr Unit) (h : Heap V A)
    (o o1 : O) (t t1 : T) (self : Addr)
    (hall : ∀ a, Reachable h self a → ∃ n, h[a]? = some n ∧ n.paramNames.Nodup ∧
      ∀ k ∈ n.paramNames, n.hasGrad k = true → ∃ p, n.getParam k = .ok p)
    (hshim : loopE (updateShims shimFU h) (walkBfs h self) (o, t) = ((o1, t1), .ok ())) :
    ∃ (calls : List (OptCall V)) (s : FUState O V A), Owed h self calls ∧
      finishUpdate opt shimFU h o t self = ((s, t1), .ok ()) ∧
      s.opt = (runCalls opt o1 calls).1 ∧
      (∀ (i : Nat) c r, calls[i]? = some c → (runCalls opt o1 calls).2[i]? = some r →
        ∃ n', s.nodes[c.node]? = some n' ∧ n'.hasParam c.name = some true ∧ n'.getParam c.name = .ok r.1 ∧
          n'.getGrad c.name = .ok r.2) ∧
      (∀ (b : Addr) n, h[b]? = some n → ∃ n', s.nodes[b]? = some n' ∧
        n' = { n with params := n'.params, hasParams := n'.hasParams, grads := n'.grads } ∧
        n'.paramNames = n.paramNames ∧
        ∀ k, (∀ c ∈ calls, ¬ (c.node = b ∧ c.name = k)) →
          n'.getParam k = n.getParam k ∧ n'.hasParam k = n.hasParam k ∧ n'.getGrad k = n.getGrad k) ∧
      ∀ b : Addr, h[b]? = none → s.nodes[b]? = none := by
  have hW : ∀ a ∈ walkBfs h self, Reachable h self a := fun a ha => (mem_walkBfs h self a).1 ha
  have i0 : FUInv opt h o1 [] ({ nodes := h, opt := o1 } : FUState O V A) :=
    ⟨rfl, fun b n hn => ⟨n, hn, rfl, rfl, fun _ _ => ⟨rfl, rfl, rfl⟩⟩, by simp, fun _ h => h⟩
  obtain ⟨s, e, i⟩ := updateNodes_spec (opt := opt) (walkBfs h self) (nodup_walkBfs h self)
    (fun a ha => hall a (hW a ha)) i0 (by simp)
  rw [List.nil_append] at i
  refine ⟨listCalls h (walkBfs h self), s, ⟨?_, ?_⟩, ?_, i.state, i.called, i.node, i.none⟩
  · refine nodup_listCalls h _ (nodup_walkBfs h self) ?_
    intro a n ha hn
    obtain ⟨n', hn', hnd, _⟩ := hall a (hW a ha)
    rw [hn] at hn'; injection hn' with hn'; subst hn'; exact hnd
  · intro c
    rw [mem_listCalls, mem_walkBfs]
    refine and_congr_right fun _ => ?_
    constructor
    · rintro ⟨n, hn, hc⟩
      obtain ⟨_, h2, h3, h4, h5⟩ := mem_nodeCalls.1 hc
      exact ⟨n, hn, h2, h3, h4, h5⟩
    · rintro ⟨n, hn, h2, h3, h4, h5⟩
      exact ⟨n, hn, mem_nodeCalls.2 ⟨rfl, h2, h3, h4, h5⟩⟩
  · simp only [finishUpdate, hshim, e]

/-- The shim calls of C15 written out: every shim of every reachable node, in walk order. -/
theorem C15_shims_in_walk_order (shimFU : O × T → Addr → (O × T) × Except PyErr Unit) (h : Heap V A) (s : O × T)
    (as : List Addr) (hall : ∀ a ∈ as, ∃ n, h[a]? = some n) :
    loopE (updateShims shimFU h) as s =
      loopE shimFU (as.flatMap fun a => match h[a]? with | some n => n.shims | none => []) s := by
  have happ : ∀ (xs ys : List Addr) (s : O × T), loopE shimFU (xs ++ ys) s =
      match loopE shimFU xs s with
      | (s', .ok ()) => loopE shimFU ys s'
      | (s', .error e) => (s', .error e) := by
    intro xs ys
    induction xs with
    | nil => intro s; rfl
    | cons x xs ih =>
      intro s
      simp only [List.cons_append, loopE]
      rcases shimFU s x with ⟨s', r | r⟩
      · rfl
      · exact ih s'
  induction as generalizing s with
  | nil => rfl
  | cons a as ih =>
    obtain ⟨n, hn⟩ := hall a (by simp)
    have ih' := fun s => ih s (fun b hb => hall b (by simp [hb]))
    rw [List.flatMap_cons, happ]
    simp only [loopE, updateShims, hn]
    rcases loopE shimFU n.shims s with ⟨s', r | r⟩
    · rfl
    · exact ih' s'

/-- C15. A parameter with a gradient but no allocated value makes `finish_update` raise KeyError
(at that parameter). -/
theorem C15_unallocated_raises (opt : OptFn O V) (s : FUState O V A) (a : Addr) (n : Node V A) (k : String)
    (hn : s.nodes[a]? = some n) (hg : n.hasGrad k = true) (hp : n.getParam k = .error .keyError) :
    updateParam opt a s k = (s, .error .keyError) := by
  simp [updateParam, hn, hg, hp]

/-- A shared layer (1, twice) with two parameters, one with a gradient; an SGD step that counts its
calls and zeroes the gradient. -/
def exFU : Heap Int Int :=
  [{ name := "root", id := 10, layers := [1, 2] },
   { name := "shared", id := 11, layers := [], hasParams := [("W", some ()), ("b", some ())],
     params := [((11, "W"), 5), ((11, "b"), 6)], grads := [((11, "W"), 3)] },
   { name := "mid", id := 12, layers := [1] }]

def exSgd : OptFn (List (Nat × String)) Int := fun o k p g => (o ++ [k], p - g, 0)

/-- Non-vacuity: the hypotheses hold and the shared parameter is updated once. -/
example : ∃ s, finishUpdate exSgd (fun s _ => (s, .ok ())) exFU [] () 0 = ((s, ()), .ok ()) ∧ s.opt = [(11, "W")] ∧
    (s.nodes[1]?).map (fun n => (n.getParam "W", n.getParam "b", n.getGrad "W")) = some (.ok 2, .ok 6, .ok 0) := by
  have hw : walkBfs exFU 0 = [0, 1, 2] := by simp [walkBfs, bfsLoop, exFU, layersOf]
  have h1 : loopE (updateShims (fun (s : List (Nat × String) × Unit) _ => (s, .ok ())) exFU) [0, 1, 2] ([], ()) =
    (([], ()), .ok ()) := by decide
  obtain ⟨calls, s, ho, he, hs⟩ := C15_finish_update exSgd (fun s _ => (s, .ok ())) exFU [] [] () () 0 (by
    intro a ha
    rw [← mem_walkBfs, hw] at ha
    simp at ha
    rcases ha with rfl | rfl | rfl
    · exact ⟨_, rfl, by decide, by simp [Node.paramNames, PyDict.keys]⟩
    · refine ⟨_, rfl, by decide, ?_⟩
      intro k hk _
      simp [Node.paramNames, PyDict.keys] at hk
      rcases hk with rfl | rfl
      · exact ⟨5, by decide⟩
      · exact ⟨6, by decide⟩
    · exact ⟨_, rfl, by decide, by simp [Node.paramNames, PyDict.keys]⟩) (by rw [hw]; exact h1)
  refine ⟨s, he, ?_⟩
  unfold finishUpdate at he
  rw [hw, h1] at he
  simp only at he
  have e2 : loopE (updateNode exSgd) [0, 1, 2] ({ nodes := exFU, opt := [] } : FUState _ Int Int) = (s, .ok ()) := by
    have := congrArg (fun p => (p.1.1, p.2)) he
    exact this
  have : s = (loopE (updateNode exSgd) [0, 1, 2] ({ nodes := exFU, opt := [] } : FUState _ Int Int)).1 := by rw [e2]
  subst this
  constructor <;> decide

end Thinc
