import Verif.Lemmas.Serialize
import Mathlib.Data.List.Basic
namespace Thinc
open Spec
variable {V A S B Sh : Type}

/-- No two `Model` objects have the same id (see `C16_ids_unique`). -/
def Spec.UniqueIds (h : Heap V A) : Prop :=
  ∀ (a b : Addr) n m, h[a]? = some n → h[b]? = some m → n.id = m.id → a = b

/-- Every address stored in an object is the address of an object (Python has no dangling
references). -/
def Spec.Closed (s : LoadState V A S) : Prop :=
  ∀ (a : Addr) n, s.nodes[a]? = some n →
    (∀ l : Nat, l ∈ n.layers → l < s.nodes.length) ∧
    (∀ name (r : Nat), n.refs.get? name = some (some r) → r < s.nodes.length) ∧
    (∀ t : Nat, t ∈ n.shims → t < s.shims.length)

theorem reachable_lt {s : LoadState V A S} (hc : Closed s) {a : Nat} (ha : a < s.nodes.length) {b : Addr}
    (hr : Reachable s.nodes a b) : (b : Nat) < s.nodes.length := by
  induction hr with
  | refl => exact ha
  | tail _ hx _ =>
    obtain ⟨n, hn, hl⟩ := hx
    exact (hc _ n hn).1 _ hl

theorem nodeToI_other (h : Heap V A) (as : List Addr) (i : Nat) (d : PyDict Nat Nat) (k : Nat)
    (hk : ∀ a ∈ as, ∀ n, h[a]? = some n → n.id ≠ k) : (nodeToI h as i d).get? k = d.get? k := by
  induction as generalizing i d with
  | nil => rfl
  | cons a as ih =>
    simp only [nodeToI]
    rw [ih _ _ (fun b hb => hk b (by simp [hb]))]
    cases ha : h[a]? with
    | none => rfl
    | some n => exact PyDict.get?_set_ne _ (hk a (by simp) n ha) _

theorem nodeToI_mem {h : Heap V A} (hu : UniqueIds h) (as : List Addr) (hnd : as.Nodup) (i : Nat)
    (d : PyDict Nat Nat) (a : Addr) (ha : a ∈ as) (n : Node V A) (hn : h[a]? = some n) :
    (nodeToI h as i d).get? n.id = some (i + as.idxOf a) := by
  induction as generalizing i d with
  | nil => simp at ha
  | cons b as ih =>
    simp only [nodeToI]
    rw [List.nodup_cons] at hnd
    by_cases hab : b = a
    · subst hab
      rw [nodeToI_other]
      · simp [hn]
      · intro c hc m hm hid
        have := hu c b m n hm hn hid
        subst this
        exact hnd.1 hc
    · rcases List.mem_cons.1 ha with h1 | h1
      · exact absurd h1.symm hab
      · rw [ih hnd.2 (i + 1) _ h1, List.idxOf_cons_ne _ hab]
        congr 1; omega

/-! ### refs -/

theorem refsToDict_spec {h : Heap V A} (hu : UniqueIds h) (nodes : List Addr) (hnd : nodes.Nodup)
    (n : Node V A) (hc : ∀ name (r : Nat), n.refs.get? name = some (some r) → r < h.length) (ks : List String)
    (hks : ∀ k ∈ ks, k ∈ n.refs.keys) :
    (∀ k, k ∈ (refsToDict h (nodeToI h nodes 0 []) n ks).2 ↔
      k ∈ ks ∧ ∃ r, n.refs.get? k = some (some r) ∧ r ∉ nodes) ∧
    ((∀ k ∈ ks, ∀ r, n.refs.get? k = some (some r) → r ∈ nodes) →
      (refsToDict h (nodeToI h nodes 0 []) n ks).1 =
        ks.map fun k => (k, ((n.refs.get? k).getD none).map fun r => (nodes.idxOf r : Int))) := by
  induction ks with
  | nil => simp [refsToDict]
  | cons k ks ih =>
    obtain ⟨ih1, ih2⟩ := ih (fun k' hk' => hks k' (by simp [hk']))
    have hmem := hks k (by simp)
    rw [PyDict.mem_keys_iff] at hmem
    cases hk : n.refs.get? k with
    | none => simp [hk] at hmem
    | some o =>
      cases o with
      | none =>
        have hh : n.hasRef k = none := by simp [Node.hasRef, hk]
        simp only [refsToDict, hh]
        refine ⟨?_, ?_⟩
        · intro k'
          simp only [reduceCtorEq, if_false, ih1, List.mem_cons]
          constructor
          · rintro ⟨h1, h2⟩; exact ⟨Or.inr h1, h2⟩
          · rintro ⟨rfl | h1, r, h2, h3⟩
            · rw [hk] at h2; simp at h2
            · exact ⟨h1, r, h2, h3⟩
        · intro hv
          simp only [reduceCtorEq, if_false, List.map_cons, hk, Option.getD_some, Option.map_none]
          rw [ih2 (fun k' hk' => hv k' (by simp [hk']))]
      | some r =>
        have hh : n.hasRef k = some true := by simp [Node.hasRef, hk]
        have hg : n.getRef k = .ok r := by simp [Node.getRef, hk]
        have hlt := hc k r hk
        have hr : h[r]? = some h[r] := List.getElem?_eq_getElem hlt
        simp only [refsToDict, hh, hg, if_true]
        rw [hr]
        simp only
        by_cases hin : r ∈ nodes
        · rw [nodeToI_mem hu nodes hnd 0 [] r hin _ hr]
          simp only [Nat.zero_add]
          refine ⟨?_, ?_⟩
          · intro k'
            rw [ih1]
            constructor
            · rintro ⟨h1, h2⟩; exact ⟨List.mem_cons_of_mem _ h1, h2⟩
            · rintro ⟨h1, r', h2, h3⟩
              rcases List.mem_cons.1 h1 with rfl | h1
              · rw [hk] at h2; simp at h2; subst h2; exact absurd hin h3
              · exact ⟨h1, r', h2, h3⟩
          · intro hv
            simp only [List.map_cons, hk, Option.getD_some, Option.map_some]
            rw [ih2 (fun k' hk' => hv k' (by simp [hk']))]
        · have : (nodeToI h nodes 0 []).get? h[r].id = none := by
            rw [nodeToI_other]
            · rfl
            · intro a ha m hm hid
              have := hu a r m _ hm hr hid
              subst this; exact hin ha
          rw [this]
          simp only
          refine ⟨?_, ?_⟩
          · intro k'
            simp only [List.mem_cons, ih1]
            constructor
            · rintro (rfl | ⟨h1, h2⟩)
              · exact ⟨Or.inl rfl, r, hk, hin⟩
              · exact ⟨Or.inr h1, h2⟩
            · rintro ⟨rfl | h1, h2⟩
              · exact Or.inl rfl
              · exact Or.inr ⟨h1, h2⟩
          · intro hv
            exact absurd (hv k (by simp) r hk) hin

/-- A dict listed from keys. -/
theorem get?_keyMap {κ α : Type} [DecidableEq κ] (ks : List κ) (hnd : ks.Nodup) (f : κ → α) :
    PyDict.WF (ks.map fun k => (k, f k)) ∧
    ∀ k, PyDict.get? (ks.map fun k => (k, f k)) k = if k ∈ ks then some (f k) else none := by
  have hkeys : PyDict.keys (ks.map fun k => (k, f k)) = ks := by simp [PyDict.keys, Function.comp_def]
  have hw : PyDict.WF (ks.map fun k => (k, f k)) := by unfold PyDict.WF; rw [hkeys]; exact hnd
  refine ⟨hw, fun k => ?_⟩
  by_cases hk : k ∈ ks
  · rw [if_pos hk]
    exact hw.get?_of_mem (List.mem_map.2 ⟨k, hk, rfl⟩)
  · rw [if_neg hk, PyDict.get?_eq_none_iff, hkeys]; exact hk

theorem nodeInfo_spec {h : Heap V A} (hu : UniqueIds h) (nodes : List Addr) (hnd : nodes.Nodup)
    (a : Addr) (n : Node V A) (hn : h[a]? = some n) (w : n.WF)
    (hc : ∀ name (r : Nat), n.refs.get? name = some (some r) → r < h.length) :
    ((∃ k r, n.refs.get? k = some (some r) ∧ r ∉ nodes) →
      nodeInfo h (nodeToI h nodes 0 []) a = .error .valueError) ∧
    ((∀ k r, n.refs.get? k = some (some r) → r ∈ nodes) →
      ∃ info, nodeInfo h (nodeToI h nodes 0 []) a = .ok info ∧ info.name = n.name ∧
        PyDict.WF info.dims ∧ (∀ k, info.dims.get? k = n.dims.get? k) ∧
        PyDict.WF info.refs ∧
        (∀ k, info.refs.get? k = (n.refs.get? k).map (Option.map fun r => (nodes.idxOf r : Int)))) := by
  obtain ⟨h1, h2⟩ := refsToDict_spec hu nodes hnd n hc n.refNames (fun k hk => hk)
  constructor
  · rintro ⟨k, r, hk, hr⟩
    have hmem : k ∈ n.refNames := by
      show k ∈ n.refs.keys
      rw [PyDict.mem_keys_iff, hk]; rfl
    have : (refsToDict h (nodeToI h nodes 0 []) n n.refNames).2 ≠ [] := by
      intro he
      have := (h1 k).2 ⟨hmem, r, hk, hr⟩
      rw [he] at this; simp at this
    simp only [nodeInfo, hn]
    rw [if_pos this]
  · intro hv
    have : (refsToDict h (nodeToI h nodes 0 []) n n.refNames).2 = [] := by
      rw [List.eq_nil_iff_forall_not_mem]
      intro k hk
      obtain ⟨_, r, hr, hnr⟩ := (h1 k).1 hk
      exact hnr (hv k r hr)
    refine ⟨_, by simp only [nodeInfo, hn]; rw [if_neg (by simp [this])], rfl, ?_, ?_, ?_, ?_⟩
    · exact (get?_keyMap n.dimNames w.dims _).1
    · intro k
      simp only
      rw [(get?_keyMap n.dimNames w.dims _).2 k]
      by_cases hk : k ∈ n.dimNames
      · rw [if_pos hk]
        have : (n.dims.get? k).isSome := (PyDict.mem_keys_iff _ _).1 hk
        cases hd : n.dims.get? k with
        | none => simp [hd] at this
        | some o => cases o <;> simp [Node.hasDim, Node.getDim, hd]
      · rw [if_neg hk]
        exact ((PyDict.get?_eq_none_iff n.dims k).2 hk).symm
    · rw [h2 (fun k _ r hr => hv k r hr)]
      exact (get?_keyMap n.refNames w.refs _).1
    · intro k
      simp only
      rw [h2 (fun k _ r hr => hv k r hr), (get?_keyMap n.refNames w.refs _).2 k]
      by_cases hk : k ∈ n.refNames
      · rw [if_pos hk]
        have : (n.refs.get? k).isSome := (PyDict.mem_keys_iff _ _).1 hk
        cases hd : n.refs.get? k with
        | none => simp [hd] at this
        | some o => simp
      · rw [if_neg hk, (PyDict.get?_eq_none_iff n.refs k).2 hk]; rfl

theorem attrsToDict_spec (ops : SerOps V A S B Sh) (hser : ∀ v e, ops.ser v = .error e → e = .typeError)
    (d : PyDict String A) (w : PyDict.WF d) :
    ∃ r, attrsToDict ops d = .ok r ∧ PyDict.WF r ∧ (∀ k ∈ r.keys, k ∈ d.keys) ∧
      ∀ k, r.get? k = (d.get? k).bind fun v => (ops.ser v).toOption := by
  induction d with
  | nil => exact ⟨[], rfl, PyDict.WF.nil, by simp [PyDict.keys], fun k => rfl⟩
  | cons p d ih =>
    obtain ⟨k0, v0⟩ := p
    obtain ⟨w', hk0⟩ := dict_cons w
    obtain ⟨r, h1, h2, h3, h4⟩ := ih w'
    cases hv : ops.ser v0 with
    | error e =>
      have := hser v0 e hv
      subst this
      refine ⟨r, by simp [attrsToDict, hv, h1], h2, fun k hk => by
        have := h3 k hk; simp [PyDict.keys] at this ⊢; exact Or.inr this, ?_⟩
      intro k
      rw [h4 k, PyDict.get?_cons]
      by_cases hk : k0 = k
      · subst hk; simp [hk0, hv, Except.toOption]
      · simp [hk]
    | ok b =>
      refine ⟨(k0, b) :: r, by simp [attrsToDict, hv, h1], ?_, ?_, ?_⟩
      · have : k0 ∉ r.keys := fun h => (PyDict.get?_eq_none_iff d k0).1 hk0 (h3 k0 h)
        unfold PyDict.WF PyDict.keys at h2 ⊢
        simp only [List.map_cons, List.nodup_cons]
        exact ⟨this, h2⟩
      · intro k hk
        simp only [PyDict.keys, List.map_cons, List.mem_cons] at hk ⊢
        rcases hk with rfl | hk
        · exact Or.inl rfl
        · exact Or.inr (h3 k hk)
      · intro k
        rw [PyDict.get?_cons, PyDict.get?_cons]
        by_cases hk : k0 = k
        · subst hk; simp [hv, Except.toOption]
        · simp [hk, h4 k]

theorem paramsToDict_spec (n : Node V A) (w : n.WF) (hok : n.ParamsOk) :
    ∃ r, paramsToDict n n.paramNames = .ok r ∧ PyDict.WF r ∧
      ∀ k, r.get? k = (n.hasParams.get? k).map fun o => o.bind fun _ => n.params.get? (n.id, k) := by
  have key : ∀ ks : List String, paramsToDict n ks =
      .ok (ks.map fun k => (k, if n.hasParam k = some true then n.params.get? (n.id, k) else none)) := by
    intro ks
    induction ks with
    | nil => rfl
    | cons k ks ih =>
      unfold paramsToDict
      by_cases hk : n.hasParam k = some true
      · obtain ⟨v, hv⟩ := hok k hk
        have hp : n.params.get? (n.id, k) = some v := by
          unfold Node.getParam at hv
          split at hv
          · split at hv
            · simp at hv
            · rename_i v' hv'; simp at hv; subst hv; exact hv'
          · simp at hv
        rw [if_pos hk, hv, ih]
        simp [Except.map, hk, hp]
      · rw [if_neg hk, ih]
        simp [Except.map, hk]
  refine ⟨_, key _, (get?_keyMap n.paramNames w.hasParams _).1, ?_⟩
  intro k
  rw [(get?_keyMap n.paramNames w.hasParams _).2 k]
  by_cases hk : k ∈ n.paramNames
  · rw [if_pos hk]
    have : (n.hasParams.get? k).isSome := (PyDict.mem_keys_iff _ _).1 hk
    cases hd : n.hasParams.get? k with
    | none => simp [hd] at this
    | some o => cases o <;> simp [Node.hasParam, hd]
  · rw [if_neg hk, (PyDict.get?_eq_none_iff n.hasParams k).2 hk]; rfl

/-- What the message says about one node. -/
structure Described (ops : SerOps V A S B Sh) (s : LoadState V A S) (nodes : List Addr) (n : Node V A)
    (info : NodeInfo) (attrs : PyDict String B) (params : PyDict String (Option V)) (bs : List B) : Prop where
  name : info.name = n.name
  dimsWF : PyDict.WF info.dims
  dims : ∀ k, info.dims.get? k = n.dims.get? k
  refsWF : PyDict.WF info.refs
  refs : ∀ k, info.refs.get? k = (n.refs.get? k).map (Option.map fun r => (nodes.idxOf r : Int))
  attrsWF : PyDict.WF attrs
  attrs : ∀ k, attrs.get? k = (n.attrs.get? k).bind fun v => (ops.ser v).toOption
  paramsWF : PyDict.WF params
  params : ∀ k, params.get? k = (n.hasParams.get? k).map fun o => o.bind fun _ => n.params.get? (n.id, k)
  shimsLen : bs.length = n.shims.length
  shims : ∀ (i : Nat) t, n.shims[i]? = some t → ∃ x b, s.shims[t]? = some x ∧ bs[i]? = some b ∧ ops.toBytes x = .ok b

/-- Everything the serialization theorems assume about a model. -/
structure Serializable (ops : SerOps V A S B Sh) (s : LoadState V A S) (root : Addr) : Prop where
  self_lt : (root : Nat) < s.nodes.length
  closed : Closed s
  uniq : UniqueIds s.nodes
  wf : s.nodes.WF
  params : ∀ (a : Addr) n, s.nodes[a]? = some n → n.ParamsOk
  ser : ∀ v e, ops.ser v = .error e → e = .typeError
  toBytes : ∀ x, ∃ b, ops.toBytes x = .ok b

theorem toDict_spec (ops : SerOps V A S B Sh) (s : LoadState V A S) (self : Addr) (hs : Serializable ops s self) :
    ((∃ a n k r, Reachable s.nodes self a ∧ s.nodes[a]? = some n ∧ n.refs.get? k = some (some r) ∧
        ¬ Reachable s.nodes self r) → toDict ops s self = .error .valueError) ∧
    ((∀ (a : Addr) n k r, Reachable s.nodes self a → s.nodes[a]? = some n → n.refs.get? k = some (some r) →
        Reachable s.nodes self r) →
      ∃ infos attrs params shims,
        toDict ops s self = .ok { nodes := some infos, attrs := attrs, params := params, shims := shims } ∧
        infos.length = (walkBfs s.nodes self).length ∧ attrs.length = (walkBfs s.nodes self).length ∧
        params.length = (walkBfs s.nodes self).length ∧ shims.length = (walkBfs s.nodes self).length ∧
        ∀ (i : Nat) a, (walkBfs s.nodes self)[i]? = some a → ∃ n info at' pa bs, s.nodes[a]? = some n ∧
          infos[i]? = some info ∧ attrs[i]? = some at' ∧ params[i]? = some pa ∧ shims[i]? = some bs ∧
          Described ops s (walkBfs s.nodes self) n info at' pa bs) := by
  have hnode : ∀ a ∈ walkBfs s.nodes self, ∃ n, s.nodes[a]? = some n := by
    intro a ha
    exact ⟨_, List.getElem?_eq_getElem (reachable_lt hs.closed hs.self_lt ((mem_walkBfs _ _ _).1 ha))⟩
  have hnd := nodup_walkBfs s.nodes self
  have hinfo := fun a n (hn : s.nodes[a]? = some n) =>
    nodeInfo_spec hs.uniq (walkBfs s.nodes self) hnd a n hn (hs.wf a n hn) (hs.closed a n hn).2.1
  constructor
  · rintro ⟨a, n, k, r, ha, hn, hk, hr⟩
    have herr : mapE (nodeInfo s.nodes (nodeToI s.nodes (walkBfs s.nodes self) 0 [])) (walkBfs s.nodes self)
        = .error .valueError := by
      apply mapE_error
      · intro b hb
        obtain ⟨m, hm⟩ := hnode b hb
        by_cases hbad : ∃ k r, m.refs.get? k = some (some r) ∧ r ∉ walkBfs s.nodes self
        · exact Or.inl ((hinfo b m hm).1 hbad)
        · obtain ⟨info, hi, _⟩ := (hinfo b m hm).2 (fun k r hkr => by
            by_contra hne; exact hbad ⟨k, r, hkr, hne⟩)
          exact Or.inr ⟨info, hi⟩
      · exact ⟨a, (mem_walkBfs _ _ _).2 ha, (hinfo a n hn).1 ⟨k, r, hk, fun h => hr ((mem_walkBfs _ _ _).1 h)⟩⟩
    simp only [toDict, herr, bind, Except.bind]
  · intro hall
    obtain ⟨infos, h1⟩ := mapE_ok (f := nodeInfo s.nodes (nodeToI s.nodes (walkBfs s.nodes self) 0 []))
      (l := walkBfs s.nodes self) (by
        intro b hb
        obtain ⟨m, hm⟩ := hnode b hb
        obtain ⟨info, hi, _⟩ := (hinfo b m hm).2 (fun k r hkr =>
          (mem_walkBfs _ _ _).2 (hall b m k r ((mem_walkBfs _ _ _).1 hb) hm hkr))
        exact ⟨info, hi⟩)
    obtain ⟨attrs, h2⟩ := mapE_ok (f := nodeAttrs ops s) (l := walkBfs s.nodes self) (by
      intro b hb
      obtain ⟨m, hm⟩ := hnode b hb
      obtain ⟨r, hr, _⟩ := attrsToDict_spec ops hs.ser m.attrs (hs.wf b m hm).attrs
      exact ⟨r, by simp only [nodeAttrs, hm]; exact hr⟩)
    obtain ⟨shims, h3⟩ := mapE_ok (f := nodeShims ops s) (l := walkBfs s.nodes self) (by
      intro b hb
      obtain ⟨m, hm⟩ := hnode b hb
      simp only [nodeShims, hm]
      apply mapE_ok
      intro t ht
      have htl := (hs.closed b m hm).2.2 t ht
      obtain ⟨by', hby⟩ := hs.toBytes s.shims[t]
      exact ⟨by', by simp only [shimBytes, List.getElem?_eq_getElem htl]; exact hby⟩)
    obtain ⟨params, h4⟩ := mapE_ok (f := nodeParams s) (l := walkBfs s.nodes self) (by
      intro b hb
      obtain ⟨m, hm⟩ := hnode b hb
      obtain ⟨r, hr, _⟩ := paramsToDict_spec m (hs.wf b m hm) (hs.params b m hm)
      exact ⟨r, by simp only [nodeParams, hm]; exact hr⟩)
    obtain ⟨l1, g1⟩ := mapE_get h1
    obtain ⟨l2, g2⟩ := mapE_get h2
    obtain ⟨l3, g3⟩ := mapE_get h3
    obtain ⟨l4, g4⟩ := mapE_get h4
    refine ⟨infos, attrs, params, shims, ?_, l1, l2, l4, l3, ?_⟩
    · simp only [toDict, h1, h2, h3, h4, bind, Except.bind, pure, Except.pure]
    · intro i a hia
      have hmem : a ∈ walkBfs s.nodes self := List.mem_of_getElem? hia
      obtain ⟨n, hn⟩ := hnode a hmem
      obtain ⟨info, k1, q1⟩ := g1 i a hia
      obtain ⟨at', k2, q2⟩ := g2 i a hia
      obtain ⟨bs, k3, q3⟩ := g3 i a hia
      obtain ⟨pa, k4, q4⟩ := g4 i a hia
      simp only [nodeAttrs, nodeShims, nodeParams, hn] at q2 q3 q4
      obtain ⟨info', e1, i1, i2, i3, i4, i5⟩ := (hinfo a n hn).2 (fun k r hkr =>
          (mem_walkBfs _ _ _).2 (hall a n k r ((mem_walkBfs _ _ _).1 hmem) hn hkr))
      rw [q1] at e1; injection e1 with e1; subst e1
      obtain ⟨r, hr, a1, _, a2⟩ := attrsToDict_spec ops hs.ser n.attrs (hs.wf a n hn).attrs
      rw [q2] at hr; injection hr with hr; subst hr
      obtain ⟨r, hr, p1, p2⟩ := paramsToDict_spec n (hs.wf a n hn) (hs.params a n hn)
      rw [q4] at hr; injection hr with hr; subst hr
      obtain ⟨b1, b2⟩ := mapE_get q3
      refine ⟨n, info, at', pa, bs, hn, k1, k2, k4, k3, ⟨i1, i2, i3, i4, i5, a1, a2, p1, p2, b1, ?_⟩⟩
      intro j t ht
      obtain ⟨y, y1, y2⟩ := b2 j t ht
      have htl := (hs.closed a n hn).2.2 t (List.mem_of_getElem? ht)
      simp only [shimBytes, List.getElem?_eq_getElem htl] at y2
      exact ⟨_, y, List.getElem?_eq_getElem htl, y1, y2⟩

end Thinc
