import Verif.Lemmas.CanLoad
import Verif.Props.Walk
/-!
# C09 - C12: serialization
-/
namespace Thinc
open Spec
variable {V A S B Sh : Type}

/-! ## C10 -/

/-- C10. For a well-formed model whose attribute serializers raise at most TypeError and whose
shims serialize, `to_dict` raises ValueError iff some reachable node has a reference that is set
to a node not reachable from the model; in every other case it returns a message. -/
theorem C10_to_dict_iff (ops : SerOps V A S B Sh) (s : LoadState V A S) (self : Addr)
    (hs : Serializable ops s self) :
    (toDict ops s self = .error .valueError ↔
      ∃ (a : Addr) (n : Node V A) (name : String) (r : Addr), Reachable s.nodes self a ∧ s.nodes[a]? = some n ∧
        n.getRef name = .ok r ∧ ¬ Reachable s.nodes self r) ∧
    (toDict ops s self ≠ .error .valueError → ∃ msg, toDict ops s self = .ok msg) := by
  have hget : ∀ (n : Node V A) k r, n.getRef k = .ok r ↔ n.refs.get? k = some (some r) := by
    intro n k r
    unfold Node.getRef
    split <;> simp_all
  obtain ⟨h1, h2⟩ := toDict_spec ops s self hs
  have hdi : (∃ (a : Addr) (n : Node V A) (name : String) (r : Addr), Reachable s.nodes self a ∧
      s.nodes[a]? = some n ∧ n.getRef name = .ok r ∧ ¬ Reachable s.nodes self r) ∨
      ∃ msg, toDict ops s self = .ok msg := by
    by_cases hb : ∃ (a : Addr) (n : Node V A) (name : String) (r : Addr), Reachable s.nodes self a ∧
      s.nodes[a]? = some n ∧ n.getRef name = .ok r ∧ ¬ Reachable s.nodes self r
    · exact Or.inl hb
    · obtain ⟨_, _, _, _, h, _⟩ := h2 (by
        intro a n k r ha hn hk
        by_contra hne
        exact hb ⟨a, n, k, r, ha, hn, (hget n k r).2 hk, hne⟩)
      exact Or.inr ⟨_, h⟩
  have hto : (∃ (a : Addr) (n : Node V A) (name : String) (r : Addr), Reachable s.nodes self a ∧
      s.nodes[a]? = some n ∧ n.getRef name = .ok r ∧ ¬ Reachable s.nodes self r) →
      toDict ops s self = .error .valueError := by
    rintro ⟨a, n, k, r, h3, h4, h5, h6⟩
    exact h1 ⟨a, n, k, r, h3, h4, (hget n k r).1 h5, h6⟩
  refine ⟨⟨?_, hto⟩, ?_⟩
  · intro he
    rcases hdi with h | ⟨m, hm⟩
    · exact h
    · rw [hm] at he; simp at he
  · intro hne
    rcases hdi with h | h
    · exact absurd (hto h) hne
    · exact h

theorem attrsToDict_raises (ops : SerOps V A S B Sh) (attrs : PyDict String A) (k : String) (v : A) (e : PyErr)
    (hv : (k, v) ∈ attrs) (he : ops.ser v = .error e) (hne : e ≠ .typeError) :
    ∀ r, attrsToDict ops attrs ≠ .ok r := by
  induction attrs with
  | nil => simp at hv
  | cons p rest ih =>
    obtain ⟨k', v'⟩ := p
    intro r hr
    rcases List.mem_cons.1 hv with h | h
    · obtain ⟨rfl, rfl⟩ := Prod.mk.injEq .. ▸ h
      simp only [attrsToDict, he] at hr
      cases e <;> simp_all
    · have h3 := ih h
      simp only [attrsToDict] at hr
      split at hr
      · exact h3 _ hr
      · simp at hr
      · split at hr
        · simp at hr
        · exact h3 _ (by assumption)

/-- C10, the other side of the hypotheses above: an attribute serializer that raises something other
than TypeError, or a shim that cannot be serialized, makes `to_dict` raise; no message is returned. -/
theorem C10_other_errors_propagate (ops : SerOps V A S B Sh) (s : LoadState V A S) (self a : Addr)
    (n : Node V A) (ha : Reachable s.nodes self a) (hn : s.nodes[a]? = some n)
    (hbad : (∃ k v e, (k, v) ∈ n.attrs ∧ ops.ser v = .error e ∧ e ≠ .typeError) ∨
      (∃ t x e, t ∈ n.shims ∧ s.shims[t]? = some x ∧ ops.toBytes x = .error e)) :
    ∀ msg, toDict ops s self ≠ .ok msg := by
  intro msg hmsg
  have hmem := (mem_walkBfs s.nodes self a).2 ha
  obtain ⟨i, hi⟩ := List.mem_iff_getElem?.1 hmem
  unfold toDict at hmsg
  simp only [bind, Except.bind] at hmsg
  split at hmsg
  · simp at hmsg
  split at hmsg
  · simp at hmsg
  rename_i attrs hattrs
  split at hmsg
  · simp at hmsg
  rename_i shims hshims
  rcases hbad with ⟨k, v, e, h1, h2, h3⟩ | ⟨t, x, e, h1, h2, h3⟩
  · obtain ⟨y, _, hy⟩ := (mapE_get hattrs).2 i a hi
    simp only [nodeAttrs, hn] at hy
    exact attrsToDict_raises ops n.attrs k v e h1 h2 h3 y hy
  · obtain ⟨y, _, hy⟩ := (mapE_get hshims).2 i a hi
    simp only [nodeShims, hn] at hy
    obtain ⟨j, hj⟩ := List.mem_iff_getElem?.1 h1
    obtain ⟨z, _, hz⟩ := (mapE_get hy).2 j t hj
    simp only [shimBytes, h2, h3] at hz
    simp at hz

/-! ## C09 -/

/-- Specification: node `m` (in a loaded model) carries the same data as node `n` (in the source
model); `φ` maps source nodes to target nodes. -/
structure Spec.SameData (φ : Addr → Addr) (n m : Node V A) : Prop where
  name : m.name = n.name
  hasDim : ∀ k, m.hasDim k = n.hasDim k
  getDim : ∀ k, m.getDim k = n.getDim k
  hasRef : ∀ k, m.hasRef k = n.hasRef k
  getRef : ∀ k, m.getRef k = (n.getRef k).map φ
  attrs : ∀ k, m.attrs.get? k = n.attrs.get? k
  hasParam : ∀ k, m.hasParam k = n.hasParam k
  param : ∀ k, m.maybeGetParam k = n.maybeGetParam k

/-- Specification: target node `m` has the same registered names as source node `n`, its dims are
unset or equal to the source's, and each attribute value survives serialization (or is not
serializable and already equal in the target). -/
structure Spec.Compatible (ops : SerOps V A S B Sh) (ψ : Addr → Addr) (n m : Node V A) : Prop where
  dims : ∀ k, (k ∈ m.dimNames ↔ k ∈ n.dimNames) ∧ (m.hasDim k = some true → m.getDim k = n.getDim k)
  refs : ∀ k, k ∈ m.refNames ↔ k ∈ n.refNames
  params : ∀ k, k ∈ m.paramNames ↔ k ∈ n.paramNames
  attrNames : ∀ k, k ∈ m.attrs.keys ↔ k ∈ n.attrs.keys
  attrs : ∀ k v, n.attrs.get? k = some v →
    (∃ b, ops.ser v = .ok b ∧ ops.deser (m.attrs.get? k) b = .ok v) ∨
    ((∃ e, ops.ser v = .error e) ∧ m.attrs.get? k = some v)
  shims : m.shims = n.shims.map ψ

/-- Specification: equality of the messages as Python values (dicts are compared without order). -/
def Spec.MsgEq (m m' : Msg V B) : Prop :=
  (∃ l l', m.nodes = some l ∧ m'.nodes = some l' ∧ List.Forall₂ (fun x y : NodeInfo => x.name = y.name ∧
    (∀ k, x.dims.get? k = y.dims.get? k) ∧ ∀ k, x.refs.get? k = y.refs.get? k) l l') ∧
  List.Forall₂ (fun x y => ∀ k, PyDict.get? x k = PyDict.get? y k) m.attrs m'.attrs ∧
  List.Forall₂ (fun x y => ∀ k, PyDict.get? x k = PyDict.get? y k) m.params m'.params ∧
  m.shims = m'.shims

theorem forall₂_of_get {α β : Type} {R : α → β → Prop} {l : List α} {l' : List β} (hlen : l.length = l'.length)
    (h : ∀ (i : Nat) x y, l[i]? = some x → l'[i]? = some y → R x y) : List.Forall₂ R l l' := by
  induction l generalizing l' with
  | nil =>
    have : l' = [] := List.length_eq_zero_iff.1 (by simpa using hlen.symm)
    subst this; exact List.Forall₂.nil
  | cons x l ih =>
    cases l' with
    | nil => simp at hlen
    | cons y l' =>
      exact List.Forall₂.cons (h 0 x y rfl rfl)
        (ih (by simpa using hlen) (fun i x y h1 h2 => h (i + 1) x y (by simpa using h1) (by simpa using h2)))

theorem getParam_ok_get {n : Node V A} {k : String} {v : V} (hv : n.getParam k = .ok v) :
    n.params.get? (n.id, k) = some v := by
  unfold Node.getParam at hv
  split at hv
  · split at hv
    · simp at hv
    · rename_i v' hv'; simp at hv; subst hv; exact hv'
  · simp at hv

theorem hasParam_true {n : Node V A} {k : String} (h : n.hasParam k = some true) :
    n.hasParams.get? k = some (some ()) := by
  unfold Node.hasParam at h
  split at h
  · simp at h
  · rename_i u hu; exact hu
  · simp at h

/-- C09 (round trip; partial).  Take a serializable source model `self` in state `s`, all of whose
set references point into the subtree of the node that holds them, and a target model `self'` in
state `s'` whose layer graph is isomorphic, whose nodes are `Compatible` with their counterparts,
and where shims restore what they saved.  Then `to_dict` of the source succeeds, `from_dict` of
that message on the target succeeds, afterwards every target node has exactly its counterpart's
name, dims, references (through the isomorphism), attributes and parameters, its shims have the
source's contents, its id, layers, shims and gradients are what they were, nothing outside the target model changed, and `to_dict` of the target gives an
equal message.
Missing from the full property: references that point into the model's tree but outside the
subtree of the node holding them; `C09_sibling_ref_counterexample` shows loading raises for them. -/
theorem C09_round_trip_partial (ops : SerOps V A S B Sh) (s s' : LoadState V A S) (self self' : Addr)
    (φ ψ : Addr → Addr) (hs : Serializable ops s self) (hs' : Serializable ops s' self')
    (hrefs : ∀ (a : Addr) n name r, Reachable s.nodes self a → s.nodes[a]? = some n → n.getRef name = .ok r →
      Reachable s.nodes a r)
    (iso : GraphIso s.nodes self s'.nodes self' φ)
    (hcomp : ∀ (a : Addr) n m, Reachable s.nodes self a → s.nodes[a]? = some n → s'.nodes[φ a]? = some m →
      Compatible ops ψ n m)
    (hψ : ∀ (a b : Addr) n m t u, Reachable s.nodes self a → Reachable s.nodes self b → s.nodes[a]? = some n →
      s.nodes[b]? = some m → t ∈ n.shims → u ∈ m.shims → ψ t = ψ u → t = u)
    (hbytes : ∀ x y b, ops.toBytes x = .ok b → ops.fromBytes y b = .ok x) :
    ∃ msg s'' msg', toDict ops s self = .ok msg ∧ fromDict ops s' self' msg = (s'', .ok ()) ∧
      (∀ (a : Addr) n, Reachable s.nodes self a → s.nodes[a]? = some n →
        ∃ m, s''.nodes[φ a]? = some m ∧ SameData φ n m ∧ ∀ t ∈ n.shims, s''.shims[ψ t]? = s.shims[t]?) ∧
      (∀ (b : Addr) m, Reachable s'.nodes self' b → s'.nodes[b]? = some m → ∃ m', s''.nodes[b]? = some m' ∧ m'.id = m.id ∧
        m'.layers = m.layers ∧ m'.shims = m.shims ∧ m'.grads = m.grads ∧ m'.paramNames.Nodup) ∧
      (∀ b : Addr, ¬ Reachable s'.nodes self' b → s''.nodes[b]? = s'.nodes[b]?) ∧
      toDict ops s'' self' = .ok msg' ∧ MsgEq msg msg' := by
  have hex : ∀ a, Reachable s.nodes self a → ∃ n, s.nodes[a]? = some n := fun a ha =>
    ⟨_, List.getElem?_eq_getElem (reachable_lt hs.closed hs.self_lt ha)⟩
  have hget : ∀ (n : Node V A) k r, n.getRef k = .ok r ↔ n.refs.get? k = some (some r) := by
    intro n k r
    unfold Node.getRef
    split <;> simp_all
  have hin : ∀ (a : Addr) n k r, Reachable s.nodes self a → s.nodes[a]? = some n → n.refs.get? k = some (some r) →
        Reachable s.nodes self r := fun a n k r ha hn hk =>
    Reachable.trans ha (hrefs a n k r ha hn ((hget n k r).2 hk))
  obtain ⟨infos, attrs, params, shims, hmsg, l1, l2, l3, l4, hd⟩ := (toDict_spec ops s self hs).2 hin
  have hwalk := walkBfs_iso iso hex
  have hmem : ∀ {i : Nat} {a : Addr}, (walkBfs s.nodes self)[i]? = some a → Reachable s.nodes self a :=
    fun h => (mem_walkBfs _ _ _).1 (List.mem_of_getElem? h)
  generalize hW : walkBfs s.nodes self = W at *
  have hWnd : W.Nodup := hW ▸ nodup_walkBfs s.nodes self
  -- the loop
  let P : Nat → LoadState V A S → Prop := fun i st =>
    (∀ b : Addr, (∀ j a, j < i → W[j]? = some a → φ a ≠ b) → st.nodes[b]? = s'.nodes[b]?) ∧
    (∀ j a n info at' pa m0, j < i → W[j]? = some a → s.nodes[a]? = some n → infos[j]? = some info →
      attrs[j]? = some at' → params[j]? = some pa → s'.nodes[φ a]? = some m0 →
      ∃ m, st.nodes[φ a]? = some m ∧ NodeLoaded ops (W.map φ) info at' pa m0 m) ∧
    (∀ b, layersOf st.nodes b = layersOf s'.nodes b) ∧
    st.nodes.length = s'.nodes.length ∧
    st.shims.length = s'.shims.length ∧
    (∀ j a n, j < i → W[j]? = some a → s.nodes[a]? = some n → ∀ t ∈ n.shims, st.shims[ψ t]? = s.shims[t]?)
  have hloop := loopE_ok (f := loadNode ops (W.map φ) { nodes := some infos, attrs := attrs, params := params, shims := shims } infos)
    (xs := enumFrom' 0 (W.map φ)) P (by
    intro i p st hp hP
    obtain ⟨P1, P2, P3, P4, P5, P6⟩ := hP
    rw [enumFrom'_get, List.getElem?_map] at hp
    cases hWi : W[i]? with
    | none => simp [hWi] at hp
    | some a =>
      rw [hWi] at hp
      simp only [Option.map_some, Option.some.injEq, Nat.zero_add] at hp
      subst hp
      obtain ⟨n, info, at', pa, bs, hn, k1, k2, k3, k4, desc⟩ := hd i a hWi
      have ha := hmem hWi
      obtain ⟨m0, hm0, hlay⟩ := iso.layers a n ha hn
      have hc := hcomp a n m0 ha hn hm0
      have hst : st.nodes[φ a]? = some m0 := by
        rw [P1 (φ a), hm0]
        intro j b hj hb heq
        have := iso.inj b a (hmem hb) ha heq
        subst this
        have := nodup_get_inj hWnd hb hWi
        omega
      have hload : Loadable ops st (W.map φ) (φ a) m0 info at' pa bs := by
        refine ⟨hs'.wf _ _ hm0, desc.dimsWF, desc.refsWF, desc.attrsWF, desc.paramsWF, ?_, ?_, ?_, ?_, ?_, ?_⟩
        · intro k v hkv
          rw [desc.dims] at hkv
          have hkn : k ∈ n.dimNames := (PyDict.mem_keys_iff _ _).2 (by rw [hkv]; rfl)
          have hkm := ((hc.dims k).1).2 hkn
          have hd2 := (hc.dims k).2
          have : (m0.dims.get? k).isSome := (PyDict.mem_keys_iff _ _).1 hkm
          cases hq : m0.dims.get? k with
          | none => simp [hq] at this
          | some o =>
            cases o with
            | none => exact Or.inl rfl
            | some v' =>
              right
              have := hd2 (by simp [Node.hasDim, hq])
              simp [Node.getDim, hq, hkv] at this
              rw [this]
        · intro k j hkj
          rw [desc.refs] at hkj
          cases hr : n.refs.get? k with
          | none => simp [hr] at hkj
          | some o =>
            cases o with
            | none => simp [hr] at hkj
            | some r =>
              simp [hr] at hkj
              subst hkj
              have hreach := hrefs a n k r ha hn ((hget n k r).2 hr)
              have hrW : r ∈ W := by rw [← hW]; exact (mem_walkBfs _ _ _).2 (Reachable.trans ha hreach)
              refine ⟨φ r, ?_, ?_⟩
              · rw [← idxOf_map (φ := φ) W r hrW (fun b hb hbe => by
                  refine iso.inj b r ?_ (Reachable.trans ha hreach) hbe
                  rw [← hW] at hb; exact (mem_walkBfs _ _ _).1 hb)]
                exact pyGet_idxOf _ _ (List.mem_map_of_mem hrW)
              · exact (Reachable.congr P3 _ _).2 (reachable_iso iso ha hreach)
        · intro k b hkb
          rw [desc.attrs] at hkb
          cases hv : n.attrs.get? k with
          | none => simp [hv] at hkb
          | some v =>
            rw [hv] at hkb
            rcases hc.attrs k v hv with ⟨b', h1, h2⟩ | ⟨⟨e, h1⟩, _⟩
            · simp [h1, Except.toOption] at hkb; subst hkb; exact ⟨v, h2⟩
            · simp [h1, Except.toOption] at hkb
        · rw [desc.shimsLen, hc.shims, List.length_map]
        · intro t ht
          rw [P5]; exact (hs'.closed _ _ hm0).2.2 t ht
        · intro b hb
          obtain ⟨j, hj, hbj⟩ := List.mem_iff_getElem.1 hb
          have hjn : j < n.shims.length := by rw [← desc.shimsLen]; exact hj
          obtain ⟨x, b', _, hb', hx⟩ := desc.shims j n.shims[j] (List.getElem?_eq_getElem hjn)
          rw [List.getElem?_eq_getElem hj, hbj] at hb'
          simp at hb'; subst hb'
          exact ⟨x, fun y => hbytes x y b hx⟩
      obtain ⟨m, sh', e, nl, q1, q2, q3⟩ := loadNode_ok ops st (W.map φ)
        { nodes := some infos, attrs := attrs, params := params, shims := shims } infos i (φ a) m0 info at' pa bs
        hst k1 k2 k3 k4 hload
      refine ⟨_, e, ?_, ?_, ?_, ?_, ?_, ?_⟩
      · intro b hb
        rw [get_put st.nodes (φ a) b m0 m hst, if_neg (hb i a (Nat.lt_succ_self i) hWi)]
        exact P1 b (fun j c hj hc => hb j c (Nat.lt_succ_of_lt hj) hc)
      · intro j b n' info' at'' pa' m0' hj hb hn' j1 j2 j3 hm0'
        simp only
        rw [get_put st.nodes (φ a) (φ b) m0 m hst]
        by_cases hji : j = i
        · subst hji
          rw [hWi] at hb; simp at hb; subst hb
          rw [hm0] at hm0'; simp at hm0'; subst hm0'
          rw [k1] at j1; rw [k2] at j2; rw [k3] at j3
          simp at j1 j2 j3; subst j1 j2 j3
          exact ⟨m, by simp, nl⟩
        · have hne : φ a ≠ φ b := by
            intro heq
            have := iso.inj a b ha (hmem hb) heq
            subst this
            exact hji (nodup_get_inj hWnd hb hWi)
          rw [if_neg hne]
          exact P2 j b n' info' at'' pa' m0' (by omega) hb hn' j1 j2 j3 hm0'
      · intro b
        simp only
        rw [layersOf_put st.nodes (φ a) m0 m hst nl.layers b]
        exact P3 b
      · simp only [Heap.modify, List.length_modify]; exact P4
      · simp only; rw [q1, P5]
      · intro j b n' hj hb hn' t ht
        simp only
        have hψm : ∀ u, u ∈ m0.shims ↔ ∃ v ∈ n.shims, ψ v = u := by
          intro u; rw [hc.shims]; simp
        by_cases hin' : ψ t ∈ m0.shims
        · obtain ⟨v, hv, hvt⟩ := (hψm _).1 hin'
          have hvt' := hψ a b n n' v t ha (hmem hb) hn hn' hv ht hvt
          subst hvt'
          obtain ⟨x, hx, hPx⟩ := q3 (fun u x => ∀ v, v ∈ n.shims → ψ v = u → s.shims[v]? = some x) (by
            intro j' u b' x' hu hb' hx' v' hv' hvu
            rw [hc.shims, List.getElem?_map] at hu
            cases hj' : n.shims[j']? with
            | none => simp [hj'] at hu
            | some w =>
              simp [hj'] at hu
              obtain ⟨y, b'', y1, y2, y3⟩ := desc.shims j' w hj'
              rw [hb'] at y2; simp at y2; subst y2
              have : x' = y := by
                have h1 := hbytes y x' b' y3
                rw [hx' x'] at h1; simpa using h1
              subst this
              have : v' = w := hψ a a n n v' w ha ha hn hn hv' (List.mem_of_getElem? hj') (hvu.trans hu.symm)
              subst this; exact y1) (ψ v) hin'
          rw [hx, hPx v hv rfl]
        · rw [q2 (ψ t) hin']
          by_cases hji : j = i
          · subst hji
            rw [hWi] at hb; simp at hb; subst hb
            rw [hn] at hn'; simp at hn'; subst hn'
            exact absurd ((hψm _).2 ⟨t, ht, rfl⟩) hin'
          · exact P6 j b n' (by omega) hb hn' t ht)
    (s := s') ⟨fun _ _ => rfl, by intro j a n info at' pa m0 hj; omega, fun _ => rfl, rfl, rfl,
      by intro j a n hj; omega⟩
  obtain ⟨s'', hrun, P1, P2, P3, P4, P5, P6⟩ := hloop
  rw [enumFrom'_length, List.length_map] at *
  have hfrom : fromDict ops s' self' { nodes := some infos, attrs := attrs, params := params, shims := shims }
      = (s'', .ok ()) := by
    simp only [fromDict, hwalk]
    rw [if_neg (by simp [l1])]
    exact hrun
  -- per node
  have hnode : ∀ (a : Addr) n, Reachable s.nodes self a → s.nodes[a]? = some n →
      ∃ (i : Nat) (m0 m : Node V A) (info : NodeInfo) (at' : PyDict String B) (pa : PyDict String (Option V))
        (bs : List B), W[i]? = some a ∧ s'.nodes[φ a]? = some m0 ∧ s''.nodes[φ a]? = some m ∧
        infos[i]? = some info ∧ attrs[i]? = some at' ∧ params[i]? = some pa ∧ shims[i]? = some bs ∧
        NodeLoaded ops (W.map φ) info at' pa m0 m ∧ Described ops s W n info at' pa bs ∧
        Compatible ops ψ n m0 := by
    intro a n ha hn
    have haW : a ∈ W := by rw [← hW]; exact (mem_walkBfs _ _ _).2 ha
    obtain ⟨i, hi, hia⟩ := List.mem_iff_getElem.1 haW
    have hWi : W[i]? = some a := by rw [List.getElem?_eq_getElem hi, hia]
    obtain ⟨n', info, at', pa, bs, hn', k1, k2, k3, k4, desc⟩ := hd i a hWi
    rw [hn] at hn'; simp at hn'; subst hn'
    obtain ⟨m0, hm0, _⟩ := iso.layers a n ha hn
    obtain ⟨m, hm, nl⟩ := P2 i a n info at' pa m0 hi hWi hn k1 k2 k3 hm0
    exact ⟨i, m0, m, info, at', pa, bs, hWi, hm0, hm, k1, k2, k3, k4, nl, desc, hcomp a n m0 ha hn hm0⟩
  -- dict-level equalities
  have hdata : ∀ (a : Addr) n m0 m info at' pa bs, Reachable s.nodes self a → s.nodes[a]? = some n →
      NodeLoaded ops (W.map φ) info at' pa m0 m → Described ops s W n info at' pa bs → Compatible ops ψ n m0 →
      m.name = n.name ∧ (∀ k, m.dims.get? k = n.dims.get? k) ∧
      (∀ k, m.refs.get? k = (n.refs.get? k).map (Option.map φ)) ∧ (∀ k, m.attrs.get? k = n.attrs.get? k) ∧
      (∀ k, m.hasParams.get? k = n.hasParams.get? k) ∧
      (∀ k, n.hasParams.get? k = some (some ()) → m.params.get? (m.id, k) = n.params.get? (n.id, k)) := by
    intro a n m0 m info at' pa bs ha hn nl desc hc
    refine ⟨nl.name.trans desc.name, ?_, ?_, ?_, ?_, ?_⟩
    · intro k
      rw [nl.dims, desc.dims]
      cases hq : n.dims.get? k with
      | none =>
        simp only
        have : k ∉ m0.dimNames := fun h => (PyDict.get?_eq_none_iff _ _).1 hq (((hc.dims k).1).1 h)
        exact (PyDict.get?_eq_none_iff _ _).2 this
      | some o =>
        cases o with
        | some v => rfl
        | none =>
          simp only
          have hk : k ∈ m0.dimNames := ((hc.dims k).1).2 ((PyDict.mem_keys_iff _ _).2 (by rw [hq]; rfl))
          have : (m0.dims.get? k).isSome := (PyDict.mem_keys_iff _ _).1 hk
          cases hq' : m0.dims.get? k with
          | none => simp [hq'] at this
          | some o' =>
            cases o' with
            | none => rfl
            | some v' =>
              have := (hc.dims k).2 (by simp [Node.hasDim, hq'])
              simp [Node.getDim, hq', hq] at this
    · intro k
      cases hq : n.refs.get? k with
      | none =>
        have h1 : info.refs.get? k = none := by rw [desc.refs, hq]; rfl
        rw [nl.refsOther k h1]
        have : k ∉ m0.refNames := fun h => (PyDict.get?_eq_none_iff _ _).1 hq ((hc.refs k).1 h)
        rw [(PyDict.get?_eq_none_iff m0.refs k).2 this]; rfl
      | some o =>
        cases o with
        | none =>
          have h1 : info.refs.get? k = some none := by rw [desc.refs, hq]; rfl
          rw [nl.refsNone k h1]; rfl
        | some r =>
          have h1 : info.refs.get? k = some (some (W.idxOf r : Int)) := by rw [desc.refs, hq]; rfl
          obtain ⟨r', hr', hm⟩ := nl.refsSome k _ h1
          have hreach := hin a n k r ha hn hq
          have hrW : r ∈ W := by rw [← hW]; exact (mem_walkBfs _ _ _).2 hreach
          rw [← idxOf_map (φ := φ) W r hrW (fun b hb hbe => by
              refine iso.inj b r ?_ hreach hbe
              rw [← hW] at hb; exact (mem_walkBfs _ _ _).1 hb),
            pyGet_idxOf _ _ (List.mem_map_of_mem hrW)] at hr'
          injection hr' with hr'
          rw [hm, ← hr']; rfl
    · intro k
      cases hq : n.attrs.get? k with
      | none =>
        have h1 : at'.get? k = none := by rw [desc.attrs, hq]; rfl
        rw [nl.attrsOther k h1]
        exact (PyDict.get?_eq_none_iff _ _).2 (fun h => (PyDict.get?_eq_none_iff _ _).1 hq ((hc.attrNames k).1 h))
      | some v =>
        rcases hc.attrs k v hq with ⟨b, h1, h2⟩ | ⟨⟨e, h1⟩, h2⟩
        · have h3 : at'.get? k = some b := by rw [desc.attrs, hq]; simp [h1, Except.toOption]
          obtain ⟨v', hv', hm⟩ := nl.attrsSome k b h3
          rw [h2] at hv'; injection hv' with hv'; rw [hm, hv']
        · have h3 : at'.get? k = none := by rw [desc.attrs, hq]; simp [h1, Except.toOption]
          rw [nl.attrsOther k h3, h2]
    · intro k
      rw [nl.hasParams, desc.params]
      cases hq : n.hasParams.get? k with
      | none =>
        simp only [Option.map_none]
        exact (PyDict.get?_eq_none_iff _ _).2 (fun h => (PyDict.get?_eq_none_iff _ _).1 hq ((hc.params k).1 h))
      | some o =>
        cases o with
        | none => rfl
        | some u =>
          simp only [Option.map_some, Option.bind_some]
          obtain ⟨v, hv⟩ := hs.params a n hn k (by simp [Node.hasParam, hq])
          have : n.params.get? (n.id, k) = some v := getParam_ok_get hv
          rw [this]; rfl
    · intro k hq
      rw [nl.id, nl.params, desc.params, hq]
      simp only [Option.map_some, Option.bind_some]
      obtain ⟨v, hv⟩ := hs.params a n hn k (by simp [Node.hasParam, hq])
      have : n.params.get? (n.id, k) = some v := getParam_ok_get hv
      rw [this]
  -- the loaded model is serializable
  have horig : ∀ (b : Addr) m, s''.nodes[b]? = some m → ∃ m0, s'.nodes[b]? = some m0 ∧ m.id = m0.id ∧
      m.layers = m0.layers ∧ m.shims = m0.shims ∧ ((s''.nodes[b]? = s'.nodes[b]?) ∨
        ∃ a n, Reachable s.nodes self a ∧ s.nodes[a]? = some n ∧ φ a = b) := by
    intro b m hm
    by_cases hb : ∃ j a, j < W.length ∧ W[j]? = some a ∧ φ a = b
    · obtain ⟨j, a, hj, hWj, rfl⟩ := hb
      have ha := hmem hWj
      obtain ⟨n, hn⟩ := hex a ha
      obtain ⟨i, m0, m', info, at', pa, bs, _, h2, h3, _, _, _, _, nl, _, _⟩ := hnode a n ha hn
      rw [hm] at h3; simp at h3; subst h3
      exact ⟨m0, h2, nl.id, nl.layers, nl.shims, Or.inr ⟨a, n, ha, hn, rfl⟩⟩
    · have : s''.nodes[b]? = s'.nodes[b]? := P1 b (fun j a hj hWj heq => hb ⟨j, a, hj, hWj, heq⟩)
      exact ⟨m, by rw [← this]; exact hm, rfl, rfl, rfl, Or.inl this⟩
  have hs'' : Serializable ops s'' self' := by
    refine ⟨by rw [P4]; exact hs'.self_lt, ?_, ?_, ?_, ?_, hs'.ser, hs'.toBytes⟩
    · intro b m hm
      obtain ⟨m0, hm0, _, h2, h3, h4⟩ := horig b m hm
      refine ⟨?_, ?_, ?_⟩
      · intro l hl; rw [P4]; rw [h2] at hl; exact (hs'.closed b m0 hm0).1 l hl
      · intro name r hr
        rw [P4]
        rcases h4 with h4 | ⟨a, n, ha, hn, rfl⟩
        · rw [hm] at h4
          exact (hs'.closed b m h4.symm).2.1 name r hr
        · obtain ⟨i, m0', m', info, at', pa, bs, _, _, g3, _, _, _, _, nl, desc, hc⟩ := hnode a n ha hn
          rw [hm] at g3; simp at g3; subst g3
          rw [(hdata a n m0' m info at' pa bs ha hn nl desc hc).2.2.1 name] at hr
          cases hq : n.refs.get? name with
          | none => simp [hq] at hr
          | some o =>
            cases o with
            | none => simp [hq] at hr
            | some r0 =>
              simp [hq] at hr
              subst hr
              have hre := hin a n name r0 ha hn hq
              obtain ⟨n0, hn0⟩ := hex r0 hre
              obtain ⟨m1, hm1, _⟩ := iso.layers r0 n0 hre hn0
              exact (List.getElem?_eq_some_iff.1 hm1).1
      · intro t ht; rw [P5]; rw [h3] at ht; exact (hs'.closed b m0 hm0).2.2 t ht
    · intro a b n m hn hm hid
      obtain ⟨n0, hn0, h1, _⟩ := horig a n hn
      obtain ⟨m0, hm0, h2, _⟩ := horig b m hm
      exact hs'.uniq a b n0 m0 hn0 hm0 (by rw [← h1, ← h2, hid])
    · intro b m hm
      obtain ⟨m0, hm0, _, _, _, h4⟩ := horig b m hm
      rcases h4 with h4 | ⟨a, n, ha, hn, rfl⟩
      · rw [hm] at h4; exact hs'.wf b m h4.symm
      · obtain ⟨i, m0', m', info, at', pa, bs, _, _, g3, _, _, _, _, nl, _, _⟩ := hnode a n ha hn
        rw [hm] at g3; simp at g3; subst g3; exact nl.wf
    · intro b m hm
      obtain ⟨m0, hm0, _, _, _, h4⟩ := horig b m hm
      rcases h4 with h4 | ⟨a, n, ha, hn, rfl⟩
      · rw [hm] at h4; exact hs'.params b m h4.symm
      · obtain ⟨i, m0', m', info, at', pa, bs, _, _, g3, _, _, _, _, nl, desc, hc⟩ := hnode a n ha hn
        rw [hm] at g3; simp at g3; subst g3
        obtain ⟨_, _, _, _, d5, d6⟩ := hdata a n m0' m info at' pa bs ha hn nl desc hc
        intro k hk
        have hq : n.hasParams.get? k = some (some ()) := by
          rw [← d5 k]
          exact hasParam_true hk
        obtain ⟨v, hv⟩ := hs.params a n hn k (by simp [Node.hasParam, hq])
        have hpv : n.params.get? (n.id, k) = some v := getParam_ok_get hv
        exact ⟨v, by simp [Node.getParam, PyDict.contains, d5 k, hq, d6 k hq, hpv]⟩
  have hin'' : ∀ (b : Addr) m k r, Reachable s''.nodes self' b → s''.nodes[b]? = some m →
      m.refs.get? k = some (some r) → Reachable s''.nodes self' r := by
    intro b m k r hb hm hr
    have hb' : Reachable s'.nodes self' b := (Reachable.congr P3 _ _).1 hb
    have : b ∈ W.map φ := by rw [← hwalk]; exact (mem_walkBfs _ _ _).2 hb'
    obtain ⟨a, haW, rfl⟩ := List.mem_map.1 this
    have ha : Reachable s.nodes self a := by rw [← hW] at haW; exact (mem_walkBfs _ _ _).1 haW
    obtain ⟨n, hn⟩ := hex a ha
    obtain ⟨i, m0', m', info, at', pa, bs, _, _, g3, _, _, _, _, nl, desc, hc⟩ := hnode a n ha hn
    rw [hm] at g3; simp at g3; subst g3
    rw [(hdata a n m0' m info at' pa bs ha hn nl desc hc).2.2.1 k] at hr
    cases hq : n.refs.get? k with
    | none => simp [hq] at hr
    | some o =>
      cases o with
      | none => simp [hq] at hr
      | some r0 =>
        simp [hq] at hr
        subst hr
        have := hin a n k r0 ha hn hq
        have h2 := reachable_iso iso Relation.ReflTransGen.refl this
        rw [iso.root] at h2
        exact (Reachable.congr P3 _ _).2 h2
  obtain ⟨infos2, attrs2, params2, shims2, hmsg2, z1, z2, z3, z4, hd2⟩ := (toDict_spec ops s'' self' hs'').2 hin''
  have hwalk2 : walkBfs s''.nodes self' = W.map φ := by rw [walkBfs_congr P3]; exact hwalk
  rw [hwalk2, List.length_map] at z1 z2 z3 z4
  -- compare entry by entry
  have hcmp : ∀ (i : Nat), i < W.length → ∃ a n m0 m info at' pa bs info2 at2 pa2 bs2,
      W[i]? = some a ∧ Reachable s.nodes self a ∧ s.nodes[a]? = some n ∧ s''.nodes[φ a]? = some m ∧
      infos[i]? = some info ∧ attrs[i]? = some at' ∧ params[i]? = some pa ∧ shims[i]? = some bs ∧
      infos2[i]? = some info2 ∧ attrs2[i]? = some at2 ∧ params2[i]? = some pa2 ∧ shims2[i]? = some bs2 ∧
      NodeLoaded ops (W.map φ) info at' pa m0 m ∧
      Described ops s W n info at' pa bs ∧ Described ops s'' (W.map φ) m info2 at2 pa2 bs2 ∧
      Compatible ops ψ n m0 := by
    intro i hi
    have hWi : W[i]? = some W[i] := List.getElem?_eq_getElem hi
    generalize W[i] = a at hWi
    have ha := hmem hWi
    obtain ⟨n, info, at', pa, bs, hn, k1, k2, k3, k4, desc⟩ := hd i a hWi
    obtain ⟨m0, hm0, _⟩ := iso.layers a n ha hn
    obtain ⟨m, hm, nl⟩ := P2 i a n info at' pa m0 hi hWi hn k1 k2 k3 hm0
    obtain ⟨m', info2, at2, pa2, bs2, hm', j1, j2, j3, j4, desc2⟩ := hd2 i (φ a) (by
      rw [hwalk2, List.getElem?_map, hWi]; rfl)
    rw [hm] at hm'; simp at hm'; subst hm'
    rw [hwalk2] at desc2
    exact ⟨a, n, m0, m, info, at', pa, bs, info2, at2, pa2, bs2, hWi, ha, hn, hm, k1, k2, k3, k4, j1, j2, j3, j4,
      nl, desc, desc2, hcomp a n m0 ha hn hm0⟩
  refine ⟨_, s'', _, hmsg, hfrom, ?_, ?_, ?_, hmsg2, ?_⟩
  · intro a n ha hn
    obtain ⟨i, m0, m, info, at', pa, bs, hWi, hm0, hm, k1, k2, k3, k4, nl, desc, hc⟩ := hnode a n ha hn
    obtain ⟨d1, d2, d3, d4, d5, d6⟩ := hdata a n m0 m info at' pa bs ha hn nl desc hc
    refine ⟨m, hm, ⟨d1, ?_, ?_, ?_, ?_, d4, ?_, ?_⟩, ?_⟩
    · intro k; simp only [Node.hasDim, d2]
    · intro k; simp only [Node.getDim, d2]
    · intro k
      simp only [Node.hasRef, d3]
      cases n.refs.get? k with
      | none => rfl
      | some o => cases o <;> rfl
    · intro k
      simp only [Node.getRef, d3]
      cases n.refs.get? k with
      | none => rfl
      | some o => cases o <;> rfl
    · intro k; simp only [Node.hasParam, d5]
    · intro k
      unfold Node.maybeGetParam Node.getParam Node.hasParam PyDict.contains
      rw [d5 k]
      cases hq : n.hasParams.get? k with
      | none => rfl
      | some o =>
        cases o with
        | none => rfl
        | some u => simp only [d6 k hq]
    · have hi := (List.getElem?_eq_some_iff.1 hWi).1
      exact P6 i a n hi hWi hn
  · intro b m0 hb hm0
    have h1 : b ∈ W.map φ := by rw [← hwalk]; exact (mem_walkBfs _ _ _).2 hb
    obtain ⟨a, haW, rfl⟩ := List.mem_map.1 h1
    have ha : Reachable s.nodes self a := by rw [← hW] at haW; exact (mem_walkBfs _ _ _).1 haW
    obtain ⟨n, hn⟩ := hex a ha
    obtain ⟨i, m0', m, info, at', pa, bs, _, g2, g3, _, _, _, _, nl, _, _⟩ := hnode a n ha hn
    rw [hm0] at g2; simp at g2; subst g2
    exact ⟨m, g3, nl.id, nl.layers, nl.shims, nl.grads, nl.wf.hasParams⟩
  · intro b hb
    apply P1 b
    intro j a _ hWj heq
    subst heq
    have h2 := reachable_iso iso Relation.ReflTransGen.refl (hmem hWj)
    rw [iso.root] at h2
    exact hb h2
  · refine ⟨⟨infos, infos2, rfl, rfl, ?_⟩, ?_, ?_, ?_⟩
    · refine forall₂_of_get (by rw [l1, z1]) ?_
      intro i x y hx hy
      have hi : i < W.length := by rw [← l1]; exact (List.getElem?_eq_some_iff.1 hx).1
      obtain ⟨a, n, m0, m, info, at', pa, bs, info2, at2, pa2, bs2, hWi, ha, hn, hm, k1, k2, k3, k4, j1, j2, j3, j4,
        nl, desc, desc2, hc⟩ := hcmp i hi
      obtain ⟨d1, d2, d3, d4, d5, d6⟩ := hdata a n m0 m info at' pa bs ha hn nl desc hc
      rw [hx] at k1; rw [hy] at j1; simp at k1 j1; subst k1 j1
      refine ⟨by rw [desc.name, desc2.name, d1], fun k => by rw [desc.dims, desc2.dims, d2], ?_⟩
      intro k
      rw [desc.refs, desc2.refs, d3]
      cases hq : n.refs.get? k with
      | none => rfl
      | some o =>
        cases o with
        | none => rfl
        | some r =>
          have hreach := hin a n k r ha hn hq
          have hrW : r ∈ W := by rw [← hW]; exact (mem_walkBfs _ _ _).2 hreach
          simp only [Option.map_some]
          rw [idxOf_map (φ := φ) W r hrW (fun b hb hbe => by
              refine iso.inj b r ?_ hreach hbe
              rw [← hW] at hb; exact (mem_walkBfs _ _ _).1 hb)]
    · refine forall₂_of_get (by simp only; rw [l2, z2]) ?_
      intro i x y hx hy k
      have hi : i < W.length := by rw [← l2]; exact (List.getElem?_eq_some_iff.1 hx).1
      obtain ⟨a, n, m0, m, info, at', pa, bs, info2, at2, pa2, bs2, hWi, ha, hn, hm, k1, k2, k3, k4, j1, j2, j3, j4,
        nl, desc, desc2, hc⟩ := hcmp i hi
      obtain ⟨d1, d2, d3, d4, d5, d6⟩ := hdata a n m0 m info at' pa bs ha hn nl desc hc
      rw [hx] at k2; rw [hy] at j2; simp at k2 j2; subst k2 j2
      rw [desc.attrs, desc2.attrs, d4]
    · refine forall₂_of_get (by simp only; rw [l3, z3]) ?_
      intro i x y hx hy k
      have hi : i < W.length := by rw [← l3]; exact (List.getElem?_eq_some_iff.1 hx).1
      obtain ⟨a, n, m0, m, info, at', pa, bs, info2, at2, pa2, bs2, hWi, ha, hn, hm, k1, k2, k3, k4, j1, j2, j3, j4,
        nl, desc, desc2, hc⟩ := hcmp i hi
      obtain ⟨d1, d2, d3, d4, d5, d6⟩ := hdata a n m0 m info at' pa bs ha hn nl desc hc
      rw [hx] at k3; rw [hy] at j3; simp at k3 j3; subst k3 j3
      rw [desc.params, desc2.params, d5]
      cases hq : n.hasParams.get? k with
      | none => rfl
      | some o =>
        cases o with
        | none => rfl
        | some u => simp [d6 k hq]
    · simp only
      apply List.ext_getElem?
      intro i
      by_cases hi : i < W.length
      · obtain ⟨a, n, m0, m, info, at', pa, bs, info2, at2, pa2, bs2, hWi, ha, hn, hm, k1, k2, k3, k4, j1, j2, j3, j4,
          nl, desc, desc2, hc⟩ := hcmp i hi
        rw [k4, j4]
        have hsh : m.shims = n.shims.map ψ := by rw [nl.shims, hc.shims]
        congr 1
        apply List.ext_getElem?
        intro j
        by_cases hj : j < n.shims.length
        · have hnj : n.shims[j]? = some n.shims[j] := List.getElem?_eq_getElem hj
          generalize n.shims[j] = t at hnj
          obtain ⟨x, b, x1, x2, x3⟩ := desc.shims j t hnj
          obtain ⟨y, b', y1, y2, y3⟩ := desc2.shims j (ψ t) (by rw [hsh, List.getElem?_map, hnj]; rfl)
          rw [x2, y2]
          rw [P6 i a n hi hWi hn t (List.mem_of_getElem? hnj), x1] at y1
          simp at y1; subst y1
          rw [x3] at y3; injection y3 with y3; rw [y3]
        · rw [List.getElem?_eq_none (by rw [desc.shimsLen]; omega),
            List.getElem?_eq_none (by rw [desc2.shimsLen, hsh, List.length_map]; omega)]
      · rw [List.getElem?_eq_none (by rw [l4]; omega), List.getElem?_eq_none (by rw [z4]; omega)]

/-- A simple choice of the pluggable operations: attributes are integers, negative ones raise
TypeError when serialized; shims are integers that store their content. -/
def exOps : SerOps Int Int Int Int Nat where
  ser v := if v < 0 then .error .typeError else .ok (v + 100)
  deser _ b := .ok (b - 100)
  toBytes x := .ok x
  fromBytes _ b := .ok b
  shape v := v.natAbs

/-- C09 fails for references that point to a sibling: node 1 refers to node 2, both layers of
node 0.  `to_dict` accepts the model, but loading the message back into the very same model
raises ValueError. -/
theorem C09_sibling_ref_counterexample : ∃ (s : LoadState Int Int Int) (msg : Msg Int Int),
    Serializable exOps s 0 ∧ toDict exOps s 0 = .ok msg ∧ (fromDict exOps s 0 msg).2 = .error .valueError := by
  let s : LoadState Int Int Int := { nodes := [{ name := "root", id := 1, layers := [1, 2] },
    { name := "a", id := 2, layers := [], refs := [("r", some 2)] }, { name := "b", id := 3, layers := [] }], shims := [] }
  have hall : ∀ (a : Addr) n, s.nodes[a]? = some n → (a = 0 ∧ n = { name := "root", id := 1, layers := [1, 2] }) ∨
      (a = 1 ∧ n = { name := "a", id := 2, layers := [], refs := [("r", some 2)] }) ∨
      (a = 2 ∧ n = { name := "b", id := 3, layers := [] }) := by
    intro a n hn
    match a with
    | 0 => simp [s] at hn; exact Or.inl ⟨rfl, hn.symm⟩
    | 1 => simp [s] at hn; exact Or.inr (Or.inl ⟨rfl, hn.symm⟩)
    | 2 => simp [s] at hn; exact Or.inr (Or.inr ⟨rfl, hn.symm⟩)
    | _ + 3 => simp [s] at hn
  refine ⟨s, ⟨some [⟨"root", [], []⟩, ⟨"a", [], [("r", some 2)]⟩, ⟨"b", [], []⟩], [[], [], []], [[], [], []], [[], [], []]⟩, ?_, ?_, ?_⟩
  · refine ⟨by decide, ?_, ?_, ?_, ?_, ?_, ?_⟩
    · intro a n hn
      rcases hall a n hn with ⟨rfl, rfl⟩ | ⟨rfl, rfl⟩ | ⟨rfl, rfl⟩
      · simp [s, PyDict.get?]
      · refine ⟨by simp, ?_, by simp⟩
        intro name r hr
        by_cases h : "r" = name
        · simp [PyDict.get?, h] at hr; subst hr; decide
        · simp [PyDict.get?, h] at hr
      · simp [PyDict.get?]
    · intro a b n m hn hm hid
      rcases hall a n hn with ⟨rfl, rfl⟩ | ⟨rfl, rfl⟩ | ⟨rfl, rfl⟩ <;>
        rcases hall b m hm with ⟨rfl, rfl⟩ | ⟨rfl, rfl⟩ | ⟨rfl, rfl⟩ <;> simp at hid ⊢
    · intro a n hn
      rcases hall a n hn with ⟨rfl, rfl⟩ | ⟨rfl, rfl⟩ | ⟨rfl, rfl⟩ <;> constructor <;> simp [PyDict.WF, PyDict.keys]
    · intro a n hn k hk
      rcases hall a n hn with ⟨rfl, rfl⟩ | ⟨rfl, rfl⟩ | ⟨rfl, rfl⟩ <;> simp [Node.hasParam, PyDict.get?] at hk
    · intro v e hv
      simp only [exOps] at hv
      split at hv
      · injection hv with hv; exact hv.symm
      · simp at hv
    · intro x; exact ⟨x, rfl⟩
  · simp [s, toDict, walkBfs, bfsLoop, layersOf, nodeToI, mapE, nodeInfo, refsToDict, Node.refNames, Node.dimNames,
      PyDict.keys, PyDict.get?, PyDict.set, Node.hasRef, Node.getRef, nodeAttrs, attrsToDict, nodeShims, nodeParams,
      paramsToDict, Node.paramNames, bind, Except.bind, pure, Except.pure]
  · simp [s, fromDict, walkBfs, bfsLoop, layersOf, enumFrom', loopE, loadNode, seqE, onNode, loadRef, pyGet, setRef, loadShims,
      Heap.modify, List.modify]

/-- Source model of the example below: a root with a reference, a dim, two attributes (one not
serializable) and a shim, and a child with one allocated and one unallocated parameter. -/
def exSrc : LoadState Int Int Int where
  nodes := [⟨"root", 1, [1], [("c", some 1), ("u", none)], [("nO", some 3)], [], [], [], [("x", 5), ("y", -1)], [0]⟩,
    ⟨"child", 2, [], [], [], [("W", some ()), ("b", none)], [((2, "W"), 7)], [], [], []⟩]
  shims := [42]

/-- Target model: same structure, other ids, nothing loaded yet. -/
def exTgt : LoadState Int Int Int where
  nodes := [⟨"old", 11, [1], [("c", none), ("u", none)], [("nO", none)], [], [], [], [("x", 0), ("y", -1)], [0]⟩,
    ⟨"child", 12, [], [], [], [("W", none), ("b", none)], [], [], [], []⟩]
  shims := [0]

theorem exSrc_nodes (a : Addr) (n) (h : exSrc.nodes[a]? = some n) :
    (a = 0 ∧ n = ⟨"root", 1, [1], [("c", some 1), ("u", none)], [("nO", some 3)], [], [], [], [("x", 5), ("y", -1)], [0]⟩) ∨
    (a = 1 ∧ n = ⟨"child", 2, [], [], [], [("W", some ()), ("b", none)], [((2, "W"), 7)], [], [], []⟩) := by
  match a with
  | 0 => simp [exSrc] at h; exact Or.inl ⟨rfl, h.symm⟩
  | 1 => simp [exSrc] at h; exact Or.inr ⟨rfl, h.symm⟩
  | _ + 2 => simp [exSrc] at h

theorem exTgt_nodes (a : Addr) (n) (h : exTgt.nodes[a]? = some n) :
    (a = 0 ∧ n = ⟨"old", 11, [1], [("c", none), ("u", none)], [("nO", none)], [], [], [], [("x", 0), ("y", -1)], [0]⟩) ∨
    (a = 1 ∧ n = ⟨"child", 12, [], [], [], [("W", none), ("b", none)], [], [], [], []⟩) := by
  match a with
  | 0 => simp [exTgt] at h; exact Or.inl ⟨rfl, h.symm⟩
  | 1 => simp [exTgt] at h; exact Or.inr ⟨rfl, h.symm⟩
  | _ + 2 => simp [exTgt] at h

theorem exOps_ser (v : Int) (e) (hv : exOps.ser v = .error e) : e = .typeError := by
  simp only [exOps] at hv
  split at hv
  · injection hv with hv; exact hv.symm
  · simp at hv

theorem exSrc_ok : Serializable exOps exSrc 0 := by
  refine ⟨by decide, ?_, ?_, ?_, ?_, exOps_ser, fun x => ⟨x, rfl⟩⟩
  · intro a n hn
    rcases exSrc_nodes a n hn with ⟨rfl, rfl⟩ | ⟨rfl, rfl⟩
    · refine ⟨by simp [exSrc], ?_, by simp [exSrc]⟩
      intro name r hr
      by_cases h : "c" = name
      · simp [PyDict.get?, h] at hr; subst hr; decide
      · by_cases h' : "u" = name <;> simp [PyDict.get?, h, h'] at hr
    · simp [PyDict.get?]
  · intro a b n m hn hm hid
    rcases exSrc_nodes a n hn with ⟨rfl, rfl⟩ | ⟨rfl, rfl⟩ <;>
      rcases exSrc_nodes b m hm with ⟨rfl, rfl⟩ | ⟨rfl, rfl⟩ <;> simp at hid ⊢
  · intro a n hn
    rcases exSrc_nodes a n hn with ⟨rfl, rfl⟩ | ⟨rfl, rfl⟩ <;> constructor <;> simp [PyDict.WF, PyDict.keys]
  · intro a n hn k hk
    rcases exSrc_nodes a n hn with ⟨rfl, rfl⟩ | ⟨rfl, rfl⟩
    · simp [Node.hasParam, PyDict.get?] at hk
    · by_cases h : "W" = k
      · subst h; exact ⟨7, by decide⟩
      · by_cases h' : "b" = k <;> simp [Node.hasParam, PyDict.get?, h, h'] at hk

theorem exTgt_ok : Serializable exOps exTgt 0 := by
  refine ⟨by decide, ?_, ?_, ?_, ?_, exOps_ser, fun x => ⟨x, rfl⟩⟩
  · intro a n hn
    rcases exTgt_nodes a n hn with ⟨rfl, rfl⟩ | ⟨rfl, rfl⟩
    · refine ⟨by simp [exTgt], ?_, by simp [exTgt]⟩
      intro name r hr
      by_cases h : "c" = name
      · simp [PyDict.get?, h] at hr
      · by_cases h' : "u" = name <;> simp [PyDict.get?, h, h'] at hr
    · simp [PyDict.get?]
  · intro a b n m hn hm hid
    rcases exTgt_nodes a n hn with ⟨rfl, rfl⟩ | ⟨rfl, rfl⟩ <;>
      rcases exTgt_nodes b m hm with ⟨rfl, rfl⟩ | ⟨rfl, rfl⟩ <;> simp at hid ⊢
  · intro a n hn
    rcases exTgt_nodes a n hn with ⟨rfl, rfl⟩ | ⟨rfl, rfl⟩ <;> constructor <;> simp [PyDict.WF, PyDict.keys]
  · intro a n hn k hk
    rcases exTgt_nodes a n hn with ⟨rfl, rfl⟩ | ⟨rfl, rfl⟩
    · simp [Node.hasParam, PyDict.get?] at hk
    · by_cases h : "W" = k
      · simp [Node.hasParam, PyDict.get?, h] at hk
      · by_cases h' : "b" = k <;> simp [Node.hasParam, PyDict.get?, h, h'] at hk

/-- Non-vacuity of `C10_other_errors_propagate`: with a serializer that raises ValueError. -/
example : ∀ msg, toDict { exOps with ser := fun _ => .error .valueError } exSrc 0 ≠ .ok msg :=
  C10_other_errors_propagate _ exSrc 0 0 _ Relation.ReflTransGen.refl rfl
    (Or.inl ⟨"x", 5, .valueError, by simp, rfl, by simp⟩)

/-- Non-vacuity of C09 and C10: the hypotheses of `C09_round_trip_partial` hold of this pair. -/
example : ∃ msg s'' msg', toDict exOps exSrc 0 = .ok msg ∧ fromDict exOps exTgt 0 msg = (s'', .ok ()) ∧
    toDict exOps s'' 0 = .ok msg' ∧ MsgEq msg msg' ∧ s''.shims[(0 : Nat)]? = some 42 := by
  have hreach : Reachable exSrc.nodes 0 1 :=
    Relation.ReflTransGen.single ⟨_, rfl, by simp⟩
  obtain ⟨msg, s'', msg', h1, h2, h3, _, _, h4, h5⟩ := C09_round_trip_partial exOps exSrc exTgt 0 0 (fun a => a) (fun a => a)
    exSrc_ok exTgt_ok
    (by
      intro a n name r _ hn hr
      rcases exSrc_nodes a n hn with ⟨rfl, rfl⟩ | ⟨rfl, rfl⟩
      · by_cases h : "c" = name
        · simp [Node.getRef, PyDict.get?, h] at hr; subst hr; exact hreach
        · by_cases h' : "u" = name <;> simp [Node.getRef, PyDict.get?, h, h'] at hr
      · simp [Node.getRef, PyDict.get?] at hr)
    ⟨rfl, fun _ _ _ _ h => h, by
      intro a n _ hn
      rcases exSrc_nodes a n hn with ⟨rfl, rfl⟩ | ⟨rfl, rfl⟩
      · exact ⟨_, rfl, rfl⟩
      · exact ⟨_, rfl, rfl⟩⟩
    (by
      intro a n m _ hn hm
      rcases exSrc_nodes a n hn with ⟨rfl, rfl⟩ | ⟨rfl, rfl⟩ <;>
        rcases exTgt_nodes _ m hm with ⟨h, rfl⟩ | ⟨h, rfl⟩ <;> first | (exact absurd h (by decide)) | skip
      · refine ⟨?_, ?_, ?_, ?_, ?_, ?_⟩ <;> intros <;> first | rfl | skip
        · refine ⟨Iff.rfl, ?_⟩
          rename_i k
          by_cases hk : "nO" = k <;> simp [Node.hasDim, PyDict.get?, hk]
        · rename_i k v hv
          by_cases hk : "x" = k
          · simp [PyDict.get?, hk] at hv; subst hv; subst hk
            exact Or.inl ⟨105, by decide, by decide⟩
          · by_cases hk' : "y" = k
            · simp [PyDict.get?, hk, hk'] at hv; subst hv; subst hk'
              exact Or.inr ⟨⟨.typeError, by decide⟩, by decide⟩
            · simp [PyDict.get?, hk, hk'] at hv
      · refine ⟨?_, ?_, ?_, ?_, ?_, ?_⟩ <;> intros <;> first | rfl | skip
        · exact ⟨Iff.rfl, by simp [Node.hasDim, PyDict.get?]⟩
        · rename_i k v hv
          simp [PyDict.get?] at hv)
    (fun _ _ _ _ _ _ _ _ _ _ _ _ h => h)
    (by intro x y b hb; simp only [exOps] at hb ⊢; injection hb with hb; rw [hb])
  obtain ⟨_, _, _, hsh⟩ := h3 0 _ Relation.ReflTransGen.refl rfl
  exact ⟨msg, s'', msg', h1, h2, h4, h5, (hsh 0 (by simp)).trans (by decide)⟩

/-! ## C11 -/

/-- What `from_dict` never touches, on any path: identity, layers, shims and gradients of every
node, everything about nodes outside the model, the number of objects, and dims that were set. -/
structure Spec.LoadFrame (s : LoadState V A S) (self : Addr) (s' : LoadState V A S) : Prop where
  other : ∀ b : Addr, ¬ Reachable s.nodes self b → s'.nodes[b]? = s.nodes[b]?
  node : ∀ (b : Addr) n, s.nodes[b]? = some n → ∃ n', s'.nodes[b]? = some n' ∧ n'.id = n.id ∧
    n'.layers = n.layers ∧ n'.shims = n.shims ∧ n'.grads = n.grads ∧
    (∀ d v, n.getDim d = .ok v → n'.getDim d = .ok v) ∧ (∀ d, n'.hasDim d = some false ↔ n.hasDim d = some false)
  count : s'.nodes.length = s.nodes.length ∧ s'.shims.length = s.shims.length

/-- The per-node part of `LoadFrame`. -/
def SameFrame (n n' : Node V A) : Prop := n'.id = n.id ∧ n'.layers = n.layers ∧ n'.shims = n.shims ∧ n'.grads = n.grads ∧
    (∀ d v, n.getDim d = .ok v → n'.getDim d = .ok v) ∧ (∀ d, n'.hasDim d = some false ↔ n.hasDim d = some false)

theorem SameFrame.refl (n : Node V A) : SameFrame n n := ⟨rfl, rfl, rfl, rfl, fun _ _ h => h, fun _ => Iff.rfl⟩
theorem SameFrame.trans {n m k : Node V A} (h1 : SameFrame n m) (h2 : SameFrame m k) : SameFrame n k := by
  obtain ⟨a1, a2, a3, a4, a5, a6⟩ := h1
  obtain ⟨b1, b2, b3, b4, b5, b6⟩ := h2
  exact ⟨b1.trans a1, b2.trans a2, b3.trans a3, b4.trans a4, fun d v h => b5 d v (a5 d v h),
    fun d => (b6 d).trans (a6 d)⟩

theorem sameFrame_loadDim (n : Node V A) (p) : SameFrame n (loadDim n p).1 := by
  obtain ⟨d, o⟩ := p
  cases o with
  | none => exact SameFrame.refl n
  | some v =>
    simp only [loadDim]
    cases hs : n.setDim d v with
    | error e => exact SameFrame.refl n
    | ok n' =>
      simp only [Node.setDim] at hs
      cases hd : n.dims.get? d with
      | none => simp [hd] at hs
      | some old =>
        simp only [hd] at hs
        split at hs
        · simp at hs
        · rename_i hne
          injection hs with hs
          subst hs
          refine ⟨rfl, rfl, rfl, rfl, ?_, ?_⟩
          · intro d' v' hv'
            by_cases hdd : d = d'
            · subst hdd
              simp only [Node.getDim, hd] at hv'
              cases old with
              | none => simp at hv'
              | some w =>
                injection hv' with hv'; subst hv'
                simp only [Node.getDim, PyDict.get?_set_self]
                simp at hne
                rw [hne]
            · simp only [Node.getDim, PyDict.get?_set_ne _ hdd]; exact hv'
          · intro d'
            by_cases hdd : d = d'
            · subst hdd; simp only [Node.hasDim, PyDict.get?_set_self, hd]; cases old <;> simp
            · simp only [Node.hasDim, PyDict.get?_set_ne _ hdd]

theorem sameFrame_loadAttr (ops : SerOps V A S B Sh) (n : Node V A) (p) : SameFrame n (loadAttr ops n p).1 := by
  unfold loadAttr
  split
  · exact SameFrame.refl n
  · exact ⟨rfl, rfl, rfl, rfl, fun _ _ h => h, fun _ => Iff.rfl⟩

theorem sameFrame_loadParam (n : Node V A) (p : String × Option V) : SameFrame n (loadParam n p).1 := by
  obtain ⟨k, o⟩ := p
  cases o <;> exact ⟨rfl, rfl, rfl, rfl, fun _ _ h => h, fun _ => Iff.rfl⟩

/-- Frame condition relative to a starting state: only nodes in `W` change, and those keep their
frame. -/
def StFrame (s : LoadState V A S) (W : List Addr) (s' : LoadState V A S) : Prop :=
  (∀ b : Addr, b ∉ W → s'.nodes[b]? = s.nodes[b]?) ∧
  (∀ (b : Addr) n, s.nodes[b]? = some n → ∃ n', s'.nodes[b]? = some n' ∧ SameFrame n n') ∧
  s'.nodes.length = s.nodes.length ∧ s'.shims.length = s.shims.length

theorem stFrame_onNode {s st : LoadState V A S} {W : List Addr} (h : StFrame s W st) {a : Addr} (ha : a ∈ W)
    (f : Node V A → Node V A × Except PyErr Unit) (hf : ∀ n, SameFrame n (f n).1) : StFrame s W (onNode a f st).1 := by
  unfold onNode
  cases hn : st.nodes[a]? with
  | none => exact h
  | some n =>
    obtain ⟨h1, h2, h3, h4⟩ := h
    refine ⟨?_, ?_, by simp [Heap.modify]; exact h3, h4⟩
    · intro b hb
      have : a ≠ b := fun e => hb (e ▸ ha)
      simp only
      rw [get_put st.nodes a b n _ hn, if_neg this]; exact h1 b hb
    · intro b n0 hn0
      simp only
      rw [get_put st.nodes a b n _ hn]
      obtain ⟨n', hn', hfr⟩ := h2 b n0 hn0
      by_cases hab : a = b
      · subst hab
        rw [hn] at hn'; injection hn' with hn'; subst hn'
        exact ⟨_, by simp, hfr.trans (hf n)⟩
      · exact ⟨n', by simp [hab, hn'], hfr⟩

theorem stFrame_setRef {s st : LoadState V A S} {W : List Addr} (h : StFrame s W st) {a : Addr} (ha : a ∈ W)
    (k : String) (v : Option Addr) (h' : Heap V A) (hs : setRef st.nodes a k v = .ok h') :
    StFrame s W { st with nodes := h' } := by
  have : h' = st.nodes.modify a fun n => { n with refs := n.refs.set k v } := by
    cases v with
    | none => simp [setRef] at hs; exact hs.symm
    | some b =>
      simp only [setRef] at hs
      split at hs
      · simp at hs; exact hs.symm
      · simp at hs
  subst this
  obtain ⟨h1, h2, h3, h4⟩ := h
  refine ⟨?_, ?_, by simp [Heap.modify]; exact h3, h4⟩
  · intro b hb
    have : a ≠ b := fun e => hb (e ▸ ha)
    simp only
    rw [Heap.get_modify, if_neg this]; exact h1 b hb
  · intro b n0 hn0
    obtain ⟨n', hn', hfr⟩ := h2 b n0 hn0
    simp only
    rw [Heap.get_modify]
    by_cases hab : a = b
    · subst hab
      refine ⟨{ n' with refs := n'.refs.set k v }, by simp [hn'], hfr.trans ?_⟩
      exact ⟨rfl, rfl, rfl, rfl, fun _ _ h => h, fun _ => Iff.rfl⟩
    · exact ⟨n', by simp [hab, hn'], hfr⟩

theorem stFrame_loadShims (ops : SerOps V A S B Sh) {s : LoadState V A S} {W : List Addr} (ts : List Addr) (bs : List B)
    {st : LoadState V A S} (h : StFrame s W st) : StFrame s W (loadShims ops ts bs st).1 := by
  induction ts generalizing bs st with
  | nil => cases bs <;> exact h
  | cons t ts ih =>
    cases bs with
    | nil => exact h
    | cons b bs =>
      unfold loadShims
      split
      · exact h
      · split
        · exact h
        · refine ih bs ⟨h.1, h.2.1, h.2.2.1, ?_⟩
          simp only [List.length_set]; exact h.2.2.2

/-- C11 (partial).  `from_dict` raises ValueError and changes nothing at all when the message has
no "nodes" or the wrong number of nodes.  For every message and every outcome, including failure
part way through, the following is unchanged: everything outside the model; and the identity,
layers, shims and gradients of each of its nodes, the set of its dims, and all dims already set.
Missing from the full property: names, references, attributes, parameters, unset dims and shim
contents of nodes processed before the failure do change; `C11_not_atomic` is the witness. -/
theorem C11_failed_load_partial (ops : SerOps V A S B Sh) (s : LoadState V A S) (self : Addr) (msg : Msg V B) :
    ((msg.nodes = none ∨ ∃ infos, msg.nodes = some infos ∧ infos.length ≠ (walkBfs s.nodes self).length) →
      fromDict ops s self msg = (s, .error .valueError)) ∧
    LoadFrame s self (fromDict ops s self msg).1 := by
  constructor
  · rintro (h | ⟨infos, h, hne⟩)
    · simp [fromDict, h]
    · simp [fromDict, h, hne]
  · suffices hf : StFrame s (walkBfs s.nodes self) (fromDict ops s self msg).1 by
      refine ⟨fun b hb => hf.1 b (fun h => hb ((mem_walkBfs _ _ _).1 h)), hf.2.1, hf.2.2⟩
    have h0 : StFrame s (walkBfs s.nodes self) s :=
      ⟨fun _ _ => rfl, fun b n hn => ⟨n, hn, SameFrame.refl n⟩, rfl, rfl⟩
    unfold fromDict
    split
    · exact h0
    · rename_i infos hi
      simp only
      split
      · exact h0
      · refine loopE_inv _ ?_ h0
        intro p hp st hst
        have hmem : p.2 ∈ walkBfs s.nodes self := List.mem_of_getElem? (enumFrom'_mem hp)
        unfold loadNode
        split
        · exact hst
        · rename_i info _
          refine seqE_inv (StFrame s (walkBfs s.nodes self)) (fun st h => stFrame_onNode h hmem _ fun n => ⟨rfl, rfl, rfl, rfl, fun _ _ h => h, fun _ => Iff.rfl⟩) ?_ hst
          intro st h
          refine seqE_inv (StFrame s (walkBfs s.nodes self)) (fun st h => stFrame_onNode h hmem _ fun n =>
            loopE_inv (SameFrame n) (fun x _ m hm => hm.trans (sameFrame_loadDim m x)) (SameFrame.refl n)) ?_ h
          intro st h
          refine seqE_inv (StFrame s (walkBfs s.nodes self)) (fun st h => loopE_inv _ ?_ h) ?_ h
          · rintro ⟨k, o⟩ _ st h
            cases o with
            | none =>
              simp only [loadRef]
              split
              · rename_i h' he; exact stFrame_setRef h hmem k none h' he
              · exact h
            | some i =>
              simp only [loadRef]
              split
              · exact h
              · rename_i r _
                split
                · rename_i h' he; exact stFrame_setRef h hmem k (some r) h' he
                · exact h
          intro st h
          refine seqE_inv (StFrame s (walkBfs s.nodes self)) (fun st h => ?_) ?_ h
          · split
            · exact h
            · exact stFrame_onNode h hmem _ fun n =>
                loopE_inv (SameFrame n) (fun x _ m hm => hm.trans (sameFrame_loadAttr ops m x)) (SameFrame.refl n)
          intro st h
          refine seqE_inv (StFrame s (walkBfs s.nodes self)) (fun st h => ?_) ?_ h
          · split
            · exact h
            · exact stFrame_onNode h hmem _ fun n =>
                loopE_inv (SameFrame n) (fun x _ m hm => hm.trans (sameFrame_loadParam m x)) (SameFrame.refl n)
          intro st h
          split
          · exact h
          · split
            · exact h
            · exact stFrame_loadShims ops _ _ h

/-- C11 fails: a message for the right number of nodes whose dim does not fit raises ValueError
after the node's name has been changed. -/
theorem C11_not_atomic : ∃ (s s' : LoadState Int Int Int) (msg : Msg Int Int),
    fromDict exOps s 0 msg = (s', .error .valueError) ∧ s'.nodes ≠ s.nodes := by
  refine ⟨{ nodes := [{ name := "old", id := 1, layers := [], dims := [("nO", some 2)] }], shims := [] },
    { nodes := [{ name := "new", id := 1, layers := [], dims := [("nO", some 2)] }], shims := [] },
    ⟨some [⟨"new", [("nO", some 3)], []⟩], [[]], [[]], [[]]⟩, ?_, by simp⟩
  simp [fromDict, walkBfs, bfsLoop, layersOf, enumFrom', loopE, loadNode, seqE, onNode, loadDim, Node.setDim,
    PyDict.get?, Heap.modify, List.modify]

/-! ## C12 -/

/-- C12 (partial).  Let `msg` be a message (with proper dicts) for which `can_from_dict` returns
True, in strict or lax mode.  If in addition its references are indices of nodes in the subtree of
the node that holds them, its attributes deserialize, and shims accept their bytes, then
`from_dict` succeeds, and every parameter that was set and still is set keeps its shape.
Missing from the full property: `can_from_dict` checks neither references nor (in lax mode)
attributes; `C12_refs_not_checked` is a message it accepts and on which `from_dict` raises. -/
theorem C12_can_from_dict_partial [DecidableEq B] [DecidableEq Sh] (ops : SerOps V A S B Sh) (s : LoadState V A S)
    (self : Addr) (msg : Msg V B) (strict : Bool) (hs : Serializable ops s self)
    (hcan : canFromDict ops s self msg strict = .ok true)
    (hwf : ∀ infos, msg.nodes = some infos → (∀ info ∈ infos, PyDict.WF info.dims ∧ PyDict.WF info.refs))
    (hwa : ∀ d ∈ msg.attrs, PyDict.WF d) (hwp : ∀ d ∈ msg.params, PyDict.WF d)
    (hlen : (walkBfs s.nodes self).length ≤ msg.attrs.length)
    (hrefs : ∀ infos, msg.nodes = some infos → ∀ (i : Nat) a info, (walkBfs s.nodes self)[i]? = some a →
      infos[i]? = some info → ∀ k j, info.refs.get? k = some (some j) →
      ∃ r, pyGet (walkBfs s.nodes self) j = .ok r ∧ Reachable s.nodes a r)
    (hattrs : ∀ at' ∈ msg.attrs, ∀ k b d, at'.get? k = some b → ∃ v, ops.deser d b = .ok v)
    (hshims : ∀ bs ∈ msg.shims, ∀ b ∈ bs, ∃ x', ∀ x, ops.fromBytes x b = .ok x') :
    ∃ s', fromDict ops s self msg = (s', .ok ()) ∧
      ∀ (a : Addr) n k p, Reachable s.nodes self a → s.nodes[a]? = some n → n.hasParam k = some true →
        n.getParam k = .ok p → ∃ n', s'.nodes[a]? = some n' ∧
          ∀ p', n'.hasParam k = some true → n'.getParam k = .ok p' → ops.shape p' = ops.shape p := by
  unfold canFromDict at hcan
  cases hi : msg.nodes with
  | none => simp [hi] at hcan
  | some infos =>
    rw [hi] at hcan
    simp only at hcan
    split at hcan
    · simp at hcan
    · rename_i hl
      have hl : infos.length = (walkBfs s.nodes self).length := by simpa using hl
      have hc : ∀ (i : Nat) a, (walkBfs s.nodes self)[i]? = some a → _ := fun i a hWi =>
        canNode_true (allE_true hcan (i, a) (by
          have := enumFrom'_get (walkBfs s.nodes self) 0 i
          rw [hWi] at this
          simp only [Nat.zero_add, Option.map_some] at this
          exact List.mem_of_getElem? this))
      obtain ⟨s', h1, h2⟩ := fromDict_ok ops s self msg infos hi hl (by
        intro i a hWi
        obtain ⟨n, info, pa, bs, hn, k1, k3, k4, k5, k6, k7⟩ := hc i a hWi
        have hil : i < msg.attrs.length := Nat.lt_of_lt_of_le (List.getElem?_eq_some_iff.1 hWi).1 hlen
        refine ⟨n, info, msg.attrs[i], pa, bs, hn, k1, List.getElem?_eq_getElem hil, k3, k4, ?_⟩
        have w1 := hwf infos hi info (List.mem_of_getElem? k1)
        refine ⟨hs.wf a n hn, w1.1, w1.2, hwa _ (List.getElem_mem hil), hwp _ (List.mem_of_getElem? k3), ?_,
          hrefs infos hi i a info hWi k1, fun k b hb => hattrs _ (List.getElem_mem hil) k b _ hb, k5, (hs.closed a n hn).2.2,
          hshims bs (List.mem_of_getElem? k4)⟩
        intro k v hkv
        exact canDims_true k6 k (some v) hkv)
      refine ⟨s', h1, ?_⟩
      intro a n k p ha hn hk hp
      obtain ⟨i, hi', hia⟩ := List.mem_iff_getElem.1 ((mem_walkBfs _ _ _).2 ha)
      have hWi : (walkBfs s.nodes self)[i]? = some a := by rw [List.getElem?_eq_getElem hi', hia]
      obtain ⟨n', info, pa, bs, hn', k1, k3, k4, k5, k6, k7⟩ := hc i a hWi
      rw [hn] at hn'; injection hn' with hn'; subst hn'
      have hil : i < msg.attrs.length := Nat.lt_of_lt_of_le hi' hlen
      obtain ⟨m, hm, nl⟩ := h2 i a n info msg.attrs[i] pa hWi hn k1 (List.getElem?_eq_getElem hil) k3
      refine ⟨m, hm, ?_⟩
      intro p' hk' hp'
      have g1 := hasParam_true hk'
      have g2 := getParam_ok_get hp'
      rw [nl.id, nl.params] at g2
      rw [nl.hasParams] at g1
      cases hq : pa.get? k with
      | none =>
        rw [hq] at g2
        simp only at g2
        rw [getParam_ok_get hp] at g2
        injection g2 with g2; rw [g2]
      | some o =>
        cases o with
        | none => simp [hq] at g1
        | some v =>
          simp only [hq] at g2
          injection g2 with g2; subst g2
          exact (canParams_true k7 k v p hq hk hp).symm

/-- Non-vacuity of C12: a message for `exTgt` that `can_from_dict` accepts in strict mode and that
meets the other hypotheses. -/
example : ∃ s', fromDict exOps exTgt 0 ⟨some [⟨"old", [("nO", some 4)], [("c", some 1)]⟩, ⟨"child", [], []⟩],
    [[("x", 100)], []], [[], [("W", some 3)]], [[9], []]⟩ = (s', .ok ()) := by
  have hw : walkBfs exTgt.nodes 0 = [0, 1] := by simp [walkBfs, bfsLoop, exTgt, layersOf]
  obtain ⟨s', h, _⟩ := C12_can_from_dict_partial exOps exTgt 0
    ⟨some [⟨"old", [("nO", some 4)], [("c", some 1)]⟩, ⟨"child", [], []⟩],
      [[("x", 100)], []], [[], [("W", some 3)]], [[9], []]⟩ true exTgt_ok
    (by simp only [canFromDict, hw]
        simp [exTgt, enumFrom', allE, canNode, canDims, canParams, canAttrs, Node.hasDim, Node.hasParam,
          PyDict.get?, exOps])
    (by intro infos hi info hinfo
        injection hi with hi; subst hi
        simp at hinfo
        rcases hinfo with rfl | rfl <;> simp [PyDict.WF, PyDict.keys])
    (by intro d hd; simp at hd; rcases hd with rfl | rfl <;> simp [PyDict.WF, PyDict.keys])
    (by intro d hd; simp at hd; rcases hd with rfl | rfl <;> simp [PyDict.WF, PyDict.keys])
    (by simp [hw])
    (by intro infos hi i a info ha hinfo k j hj
        injection hi with hi; subst hi
        rw [hw] at ha ⊢
        match i with
        | 0 =>
          simp at ha hinfo; subst ha hinfo
          by_cases hk : "c" = k
          · simp [PyDict.get?, hk] at hj; subst hj
            exact ⟨1, by decide, Relation.ReflTransGen.single ⟨_, rfl, by simp⟩⟩
          · simp [PyDict.get?, hk] at hj
        | 1 => simp at ha hinfo; subst ha hinfo; simp [PyDict.get?] at hj
        | _ + 2 => simp at ha)
    (fun _ _ _ b _ _ => ⟨b - 100, rfl⟩) (fun _ _ b _ => ⟨b, fun _ => rfl⟩)
  exact ⟨s', h⟩

/-- C12 fails: `can_from_dict` returns True for a message with a sibling reference, or with a
reference index that does not exist, and `from_dict` raises (ValueError, IndexError). -/
theorem C12_refs_not_checked : ∃ (s : LoadState Int Int Int) (msg msg' : Msg Int Int),
    canFromDict exOps s 0 msg = .ok true ∧ (fromDict exOps s 0 msg).2 = .error .valueError ∧
    canFromDict exOps s 0 msg' = .ok true ∧ (fromDict exOps s 0 msg').2 = .error .indexError := by
  refine ⟨{ nodes := [{ name := "root", id := 1, layers := [1, 2] },
    { name := "a", id := 2, layers := [] }, { name := "b", id := 3, layers := [] }], shims := [] },
    ⟨some [⟨"root", [], []⟩, ⟨"a", [], [("r", some 2)]⟩, ⟨"b", [], []⟩], [[], [], []], [[], [], []], [[], [], []]⟩,
    ⟨some [⟨"root", [], [("r", some 7)]⟩, ⟨"a", [], []⟩, ⟨"b", [], []⟩], [[], [], []], [[], [], []], [[], [], []]⟩, ?_, ?_, ?_, ?_⟩
  · simp [canFromDict, walkBfs, bfsLoop, layersOf, enumFrom', allE, canNode, canDims, canParams, canAttrs]
  · simp [fromDict, walkBfs, bfsLoop, layersOf, enumFrom', loopE, loadNode, seqE, onNode, loadRef, pyGet, setRef, loadShims,
      Heap.modify, List.modify]
  · simp [canFromDict, walkBfs, bfsLoop, layersOf, enumFrom', allE, canNode, canDims, canParams, canAttrs]
  · simp [fromDict, walkBfs, bfsLoop, layersOf, enumFrom', loopE, loadNode, seqE, onNode, loadRef, pyGet, setRef, loadShims,
      Heap.modify, List.modify]

end Thinc
