import Verif.Lemmas.ToDict
import Verif.Props.Serialize
namespace Thinc
open Spec
open scoped List
variable {V A S B Sh : Type}

/-! ## Sublists of one list without duplicates -/

theorem sublist_ext {α : Type} {L l l' : List α} (hL : L.Nodup) (h : l <+ L) (h' : l' <+ L) (hm : ∀ x, x ∈ l ↔ x ∈ l') : l = l' := by
  induction L generalizing l l' with
  | nil => rw [List.sublist_nil.1 h, List.sublist_nil.1 h']
  | cons a L ih =>
    obtain ⟨ha, hL⟩ := List.nodup_cons.1 hL
    cases h with
    | cons _ h =>
      cases h' with
      | cons _ h' => exact ih hL h h' hm
      | cons_cons _ h' =>
        exact absurd (h.subset ((hm a).2 (by simp))) ha
    | cons_cons _ h =>
      cases h' with
      | cons _ h' => exact absurd (h'.subset ((hm a).1 (by simp))) ha
      | cons_cons _ h' =>
        rename_i l1 l2
        refine congrArg (a :: ·) (ih hL h h' (fun x => ?_))
        by_cases hx : x = a
        · subst hx
          exact ⟨fun hh => absurd (h.subset hh) ha, fun hh => absurd (h'.subset hh) ha⟩
        · have := hm x
          simp only [List.mem_cons, hx, false_or] at this
          exact this

/-- Two dicts with the same entries whose keys come in the order of one list are equal. -/
theorem dict_eq_of_sublist {κ α : Type} [DecidableEq κ] {d e : PyDict κ α} {L : List κ} (hL : L.Nodup) (hd : d.keys <+ L) (he : e.keys <+ L)
    (h : ∀ k, d.get? k = e.get? k) : d = e := by
  have hw : PyDict.WF d := hL.sublist hd
  refine PyDict.ext_of_keys hw (sublist_ext hL hd he fun k => ?_) h
  rw [PyDict.mem_keys_iff, PyDict.mem_keys_iff, h k]

/-! ## The order of the keys of a message -/

theorem refsToDict_keys (h : Heap V A) (toI : PyDict Nat Nat) (n : Node V A) (ks : List String) : (refsToDict h toI n ks).1.keys <+ ks := by
  induction ks with
  | nil => exact List.Sublist.refl _
  | cons k ks ih =>
    simp only [refsToDict]
    split
    · split
      · exact ih.cons _
      · split
        · exact ih.cons _
        · split
          · exact ih.cons_cons _
          · exact ih.cons _
    · exact ih.cons_cons _

theorem nodeInfo_keys {h : Heap V A} {toI : PyDict Nat Nat} {a : Addr} {n : Node V A} {info : NodeInfo} (hn : h[a]? = some n)
    (hi : nodeInfo h toI a = .ok info) : info.dims.keys <+ n.dims.keys ∧ info.refs.keys <+ n.refs.keys := by
  simp only [nodeInfo, hn] at hi
  split at hi
  · cases hi
  · cases hi
    refine ⟨?_, refsToDict_keys h toI n n.refNames⟩
    simp only [PyDict.keys, List.map_map, Function.comp_def, List.map_id']
    exact List.Sublist.refl _

theorem attrsToDict_keys (ops : SerOps V A S B Sh) (d : PyDict String A) {r : PyDict String B} (h : attrsToDict ops d = .ok r) :
    r.keys <+ d.keys := by
  induction d generalizing r with
  | nil => cases h; exact List.Sublist.refl _
  | cons p d ih =>
    obtain ⟨k, v⟩ := p
    simp only [attrsToDict] at h
    split at h
    · exact (ih h).cons _
    · cases h
    · split at h
      · cases h
      · rename_i r' hr'
        cases h
        exact (ih hr').cons_cons _

theorem paramsToDict_keys (n : Node V A) (ks : List String) {r : PyDict String (Option V)} (h : paramsToDict n ks = .ok r) :
    r.keys <+ ks := by
  induction ks generalizing r with
  | nil => cases h; exact List.Sublist.refl _
  | cons k ks ih =>
    unfold paramsToDict at h
    split at h
    · split at h
      · cases h
      · cases hp : paramsToDict n ks with
        | error e => rw [hp] at h; cases h
        | ok r' => rw [hp] at h; cases h; exact (ih hp).cons_cons _
    · cases hp : paramsToDict n ks with
      | error e => rw [hp] at h; cases h
      | ok r' => rw [hp] at h; cases h; exact (ih hp).cons_cons _

theorem toDict_keys {ops : SerOps V A S B Sh} {s : LoadState V A S} {self : Addr} {msg : Msg V B} (h : toDict ops s self = .ok msg) :
    ∃ infos, msg.nodes = some infos ∧ infos.length = (walkBfs s.nodes self).length ∧ msg.attrs.length = (walkBfs s.nodes self).length ∧
      msg.params.length = (walkBfs s.nodes self).length ∧
      ∀ (i : Nat) a n, (walkBfs s.nodes self)[i]? = some a → s.nodes[a]? = some n → ∃ info at' pa, infos[i]? = some info ∧
        msg.attrs[i]? = some at' ∧ msg.params[i]? = some pa ∧ info.dims.keys <+ n.dims.keys ∧ info.refs.keys <+ n.refs.keys ∧
        at'.keys <+ n.attrs.keys ∧ pa.keys <+ n.hasParams.keys := by
  unfold toDict at h
  simp only [bind, Except.bind] at h
  split at h
  · cases h
  · rename_i infos h1
    split at h
    · cases h
    · rename_i attrs h2
      split at h
      · cases h
      · rename_i shims h3
        split at h
        · cases h
        · rename_i params h4
          cases h
          obtain ⟨l1, g1⟩ := mapE_get h1
          obtain ⟨l2, g2⟩ := mapE_get h2
          obtain ⟨l4, g4⟩ := mapE_get h4
          refine ⟨infos, rfl, l1, l2, l4, fun i a n hi hn => ?_⟩
          obtain ⟨info, k1, q1⟩ := g1 i a hi
          obtain ⟨at', k2, q2⟩ := g2 i a hi
          obtain ⟨pa, k4, q4⟩ := g4 i a hi
          simp only [nodeAttrs, nodeParams, hn] at q2 q4
          obtain ⟨r1, r2⟩ := nodeInfo_keys hn q1
          exact ⟨info, at', pa, k1, k2, k4, r1, r2, attrsToDict_keys ops _ q2, paramsToDict_keys n _ q4⟩

/-! ## Loading keeps the order of the keys -/

/-- The dicts of the node grew at the end only. -/
def KeysGrow (n n' : Node V A) : Prop := (n.WF → n'.WF) ∧ n.dims.keys <+: n'.dims.keys ∧ n.refs.keys <+: n'.refs.keys ∧
  n.attrs.keys <+: n'.attrs.keys ∧ n.hasParams.keys <+: n'.hasParams.keys

theorem KeysGrow.refl (n : Node V A) : KeysGrow n n := ⟨id, List.prefix_refl _, List.prefix_refl _, List.prefix_refl _, List.prefix_refl _⟩

theorem KeysGrow.trans {n m k : Node V A} (h1 : KeysGrow n m) (h2 : KeysGrow m k) : KeysGrow n k := by
  obtain ⟨a1, a2, a3, a4, a5⟩ := h1
  obtain ⟨b1, b2, b3, b4, b5⟩ := h2
  exact ⟨fun w => b1 (a1 w), a2.trans b2, a3.trans b3, a4.trans b4, a5.trans b5⟩

theorem keys_set_prefix {κ α : Type} [DecidableEq κ] (d : PyDict κ α) (k : κ) (v : α) : d.keys <+: (d.set k v).keys := by
  rw [PyDict.keys_set]
  split
  · exact List.prefix_refl _
  · exact List.prefix_append _ _

theorem keysGrow_loadDim (n : Node V A) (p) : KeysGrow n (loadDim n p).1 := by
  obtain ⟨d, o⟩ := p
  cases o with
  | none => exact KeysGrow.refl n
  | some v =>
    simp only [loadDim]
    cases hs : n.setDim d v with
    | error e => exact KeysGrow.refl n
    | ok n' =>
      refine ⟨fun w => w.setDim hs, ?_⟩
      rw [Node.setDim_ok hs]
      exact ⟨keys_set_prefix _ _ _, List.prefix_refl _, List.prefix_refl _, List.prefix_refl _⟩

theorem keysGrow_loadAttr (ops : SerOps V A S B Sh) (n : Node V A) (p) : KeysGrow n (loadAttr ops n p).1 := by
  unfold loadAttr
  split
  · exact KeysGrow.refl n
  · exact ⟨fun w => ⟨w.refs, w.dims, w.hasParams, w.params, w.grads, w.attrs.set _ _⟩, List.prefix_refl _, List.prefix_refl _,
      keys_set_prefix _ _ _, List.prefix_refl _⟩

theorem keysGrow_loadParam (n : Node V A) (p : String × Option V) : KeysGrow n (loadParam n p).1 := by
  refine ⟨fun w => w.setParam _ _, ?_⟩
  obtain ⟨k, o⟩ := p
  cases o <;> exact ⟨List.prefix_refl _, List.prefix_refl _, List.prefix_refl _, keys_set_prefix _ _ _⟩

/-- The nodes of a state grew from those of another. -/
def StKeys (s s' : LoadState V A S) : Prop := ∀ (b : Addr) n, s.nodes[b]? = some n → ∃ n', s'.nodes[b]? = some n' ∧ KeysGrow n n'

theorem stKeys_onNode {s st : LoadState V A S} (h : StKeys s st) {a : Addr}
    (f : Node V A → Node V A × Except PyErr Unit) (hf : ∀ n, KeysGrow n (f n).1) : StKeys s (onNode a f st).1 := by
  unfold onNode
  cases hn : st.nodes[a]? with
  | none => exact h
  | some n =>
    intro b n0 hn0
    simp only
    rw [get_put st.nodes a b n _ hn]
    obtain ⟨n', hn', hfr⟩ := h b n0 hn0
    by_cases hab : a = b
    · subst hab
      rw [hn] at hn'; injection hn' with hn'; subst hn'
      exact ⟨_, by simp, hfr.trans (hf n)⟩
    · exact ⟨n', by simp [hab, hn'], hfr⟩

theorem stKeys_setRef {s st : LoadState V A S} (h : StKeys s st) {a : Addr}
    (k : String) (v : Option Addr) (h' : Heap V A) (hs : setRef st.nodes a k v = .ok h') :
    StKeys s { st with nodes := h' } := by
  have : h' = st.nodes.modify a fun n => { n with refs := n.refs.set k v } := by
    cases v with
    | none => simp [setRef] at hs; exact hs.symm
    | some b =>
      simp only [setRef] at hs
      split at hs
      · simp at hs; exact hs.symm
      · simp at hs
  subst this
  intro b n0 hn0
  obtain ⟨n', hn', hfr⟩ := h b n0 hn0
  simp only
  rw [Heap.get_modify]
  by_cases hab : a = b
  · subst hab
    refine ⟨{ n' with refs := n'.refs.set k v }, by simp [hn'], hfr.trans ?_⟩
    exact ⟨fun w => ⟨w.refs.set _ _, w.dims, w.hasParams, w.params, w.grads, w.attrs⟩, List.prefix_refl _, keys_set_prefix _ _ _,
      List.prefix_refl _, List.prefix_refl _⟩
  · exact ⟨n', by simp [hab, hn'], hfr⟩

theorem stKeys_loadShims (ops : SerOps V A S B Sh) {s : LoadState V A S} (ts : List Addr) (bs : List B)
    {st : LoadState V A S} (h : StKeys s st) : StKeys s (loadShims ops ts bs st).1 := by
  induction ts generalizing bs st with
  | nil => cases bs <;> exact h
  | cons t ts ih =>
    cases bs with
    | nil => exact h
    | cons b bs =>
      unfold loadShims
      split
      · exact h
      · split
        · exact h
        · exact ih bs h

theorem stKeys_fromDict (ops : SerOps V A S B Sh) (s : LoadState V A S) (self : Addr) (msg : Msg V B) :
    StKeys s (fromDict ops s self msg).1 := by
  have h0 : StKeys s s := fun b n hn => ⟨n, hn, KeysGrow.refl n⟩
  unfold fromDict
  split
  · exact h0
  · simp only
    split
    · exact h0
    · refine loopE_inv _ ?_ h0
      intro p hp st hst
      unfold loadNode
      split
      · exact hst
      · rename_i info _
        refine seqE_inv (StKeys s) (fun st h => stKeys_onNode h _ fun n => ?_) ?_ hst
        · exact ⟨fun w => ⟨w.refs, w.dims, w.hasParams, w.params, w.grads, w.attrs⟩, List.prefix_refl _, List.prefix_refl _,
            List.prefix_refl _, List.prefix_refl _⟩
        intro st h
        refine seqE_inv (StKeys s) (fun st h => stKeys_onNode h _ fun n =>
          loopE_inv (KeysGrow n) (fun x _ m hm => hm.trans (keysGrow_loadDim m x)) (KeysGrow.refl n)) ?_ h
        intro st h
        refine seqE_inv (StKeys s) (fun st h => loopE_inv _ ?_ h) ?_ h
        · rintro ⟨k, o⟩ _ st h
          cases o with
          | none =>
            simp only [loadRef]
            split
            · rename_i h' he; exact stKeys_setRef h k none h' he
            · exact h
          | some i =>
            simp only [loadRef]
            split
            · exact h
            · rename_i r _
              split
              · rename_i h' he; exact stKeys_setRef h k (some r) h' he
              · exact h
        intro st h
        refine seqE_inv (StKeys s) (fun st h => ?_) ?_ h
        · split
          · exact h
          · exact stKeys_onNode h _ fun n =>
              loopE_inv (KeysGrow n) (fun x _ m hm => hm.trans (keysGrow_loadAttr ops m x)) (KeysGrow.refl n)
        intro st h
        refine seqE_inv (StKeys s) (fun st h => ?_) ?_ h
        · split
          · exact h
          · exact stKeys_onNode h _ fun n =>
              loopE_inv (KeysGrow n) (fun x _ m hm => hm.trans (keysGrow_loadParam m x)) (KeysGrow.refl n)
        intro st h
        split
        · exact h
        · split
          · exact h
          · exact stKeys_loadShims ops _ _ h

/-- A prefix that has all members of a list without duplicates is the list. -/
theorem prefix_eq {α : Type} {l l' : List α} (h : l <+: l') (hn : l'.Nodup) (hm : ∀ x ∈ l', x ∈ l) : l = l' :=
  sublist_ext hn h.sublist (List.Sublist.refl _) fun x => ⟨fun hx => h.subset hx, hm x⟩

end Thinc
