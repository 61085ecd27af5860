import Verif.Lemmas.FromDict
namespace Thinc
open Spec
variable {V A S B Sh : Type}

theorem nodup_get_inj {α : Type} {l : List α} (hnd : l.Nodup) {i j : Nat} {a : α} (hi : l[i]? = some a)
    (hj : l[j]? = some a) : i = j := by
  have h1 := (List.getElem?_eq_some_iff.1 hi)
  exact (List.getElem?_inj h1.1 hnd).1 (hi.trans hj.symm)

theorem Loadable.congr {ops : SerOps V A S B Sh} {s st : LoadState V A S} {nodes : List Addr} {a : Addr}
    {n : Node V A} {info attrs params bs} (hl : Loadable ops s nodes a n info attrs params bs)
    (h1 : ∀ b, layersOf st.nodes b = layersOf s.nodes b) (h2 : st.shims.length = s.shims.length) :
    Loadable ops st nodes a n info attrs params bs :=
  ⟨hl.wf, hl.dimsWF, hl.refsWF, hl.attrsWF, hl.paramsWF, hl.dims,
    fun k i hk => by
      obtain ⟨r, hr, hre⟩ := hl.refs k i hk
      exact ⟨r, hr, (Reachable.congr h1 a r).2 hre⟩,
    hl.attrs, hl.shimsLen, fun t ht => by rw [h2]; exact hl.shims t ht, hl.fromBytes⟩

/-- If every entry is loadable into its node, `from_dict` succeeds. -/
theorem fromDict_ok (ops : SerOps V A S B Sh) (s : LoadState V A S) (self : Addr) (msg : Msg V B)
    (infos : List NodeInfo) (hi : msg.nodes = some infos)
    (hlen : infos.length = (walkBfs s.nodes self).length)
    (hall : ∀ (i : Nat) a, (walkBfs s.nodes self)[i]? = some a → ∃ n info at' pa bs, s.nodes[a]? = some n ∧
      infos[i]? = some info ∧ msg.attrs[i]? = some at' ∧ msg.params[i]? = some pa ∧ msg.shims[i]? = some bs ∧
      Loadable ops s (walkBfs s.nodes self) a n info at' pa bs) :
    ∃ s', fromDict ops s self msg = (s', .ok ()) ∧
      ∀ (i : Nat) a n info at' pa, (walkBfs s.nodes self)[i]? = some a → s.nodes[a]? = some n →
        infos[i]? = some info → msg.attrs[i]? = some at' → msg.params[i]? = some pa →
        ∃ m, s'.nodes[a]? = some m ∧ NodeLoaded ops (walkBfs s.nodes self) info at' pa n m := by
  generalize hW : walkBfs s.nodes self = W at *
  have hWnd : W.Nodup := hW ▸ nodup_walkBfs s.nodes self
  let P : Nat → LoadState V A S → Prop := fun i st =>
    (∀ b : Addr, (∀ j, j < i → W[j]? ≠ some b) → st.nodes[b]? = s.nodes[b]?) ∧
    (∀ j a n info at' pa, j < i → W[j]? = some a → s.nodes[a]? = some n → infos[j]? = some info →
      msg.attrs[j]? = some at' → msg.params[j]? = some pa →
      ∃ m, st.nodes[a]? = some m ∧ NodeLoaded ops W info at' pa n m) ∧
    (∀ b, layersOf st.nodes b = layersOf s.nodes b) ∧
    st.shims.length = s.shims.length
  obtain ⟨s', hrun, P1, P2, P3, P4⟩ := loopE_ok (f := loadNode ops W msg infos) (xs := enumFrom' 0 W) P (by
    intro i p st hp hP
    obtain ⟨P1, P2, P3, P4⟩ := hP
    rw [enumFrom'_get] at hp
    cases hWi : W[i]? with
    | none => simp [hWi] at hp
    | some a =>
      rw [hWi] at hp
      simp only [Option.map_some, Option.some.injEq, Nat.zero_add] at hp
      subst hp
      obtain ⟨n, info, at', pa, bs, hn, k1, k2, k3, k4, hl⟩ := hall i a hWi
      have hst : st.nodes[a]? = some n := by
        rw [P1 a, hn]
        intro j hj hb
        have := nodup_get_inj hWnd hb hWi
        omega
      obtain ⟨m, sh', e, nl, q1, q2, q3⟩ := loadNode_ok ops st W msg infos i a n info at' pa bs
        hst k1 k2 k3 k4 (hl.congr P3 P4)
      refine ⟨_, e, ?_, ?_, ?_, ?_⟩
      · intro b hb
        rw [get_put st.nodes a b n m hst, if_neg (show ¬ a = b from fun h => hb i (Nat.lt_succ_self i) (h ▸ hWi))]
        exact P1 b (fun j hj hc => hb j (Nat.lt_succ_of_lt hj) hc)
      · intro j b n' info' at'' pa' hj hb hn' j1 j2 j3
        simp only
        rw [get_put st.nodes a b n m hst]
        by_cases hji : j = i
        · subst hji
          rw [hWi] at hb; simp at hb; subst hb
          rw [hn] at hn'; simp at hn'; subst hn'
          rw [k1] at j1; rw [k2] at j2; rw [k3] at j3
          simp at j1 j2 j3; subst j1 j2 j3
          exact ⟨m, by simp, nl⟩
        · have hne : a ≠ b := by
            intro heq
            subst heq
            exact hji (nodup_get_inj hWnd hb hWi)
          rw [if_neg hne]
          exact P2 j b n' info' at'' pa' (by omega) hb hn' j1 j2 j3
      · intro b
        simp only
        rw [layersOf_put st.nodes a n m hst nl.layers b]
        exact P3 b
      · simp only; rw [q1, P4])
    (s := s) ⟨fun _ _ => rfl, by intro j a n info at' pa hj; omega, fun _ => rfl, rfl⟩
  refine ⟨s', ?_, ?_⟩
  · simp only [fromDict, hi, hW]
    rw [if_neg (by simp [hlen])]
    exact hrun
  · intro i a n info at' pa hWi
    rw [enumFrom'_length] at P2
    exact P2 i a n info at' pa (List.getElem?_eq_some_iff.1 hWi).1 hWi

theorem allE_true {ε α : Type} {f : α → Except ε Bool} {l : List α} (h : allE f l = .ok true) :
    ∀ x ∈ l, f x = .ok true := by
  induction l with
  | nil => simp
  | cons x l ih =>
    intro y hy
    cases hx : f x with
    | error e => simp [allE, hx] at h
    | ok b =>
      cases b with
      | false => simp [allE, hx] at h
      | true =>
        simp only [allE, hx] at h
        rcases List.mem_cons.1 hy with rfl | hy
        · exact hx
        · exact ih h y hy

theorem ite_false_true {p : Prop} [Decidable p] {b : Bool} (h : (if p then false else b) = true) : ¬ p ∧ b = true := by
  by_cases hp : p
  · rw [if_pos hp] at h; simp at h
  · rw [if_neg hp] at h; exact ⟨hp, h⟩

theorem canDims_true {n : Node V A} {ds : PyDict String (Option Nat)} (h : canDims n ds = true) (k v)
    (hk : ds.get? k = some v) : n.dims.get? k = some none ∨ n.dims.get? k = some v := by
  induction ds with
  | nil => simp [PyDict.get?] at hk
  | cons p ds ih =>
    obtain ⟨d, value⟩ := p
    simp only [canDims] at h
    rw [PyDict.get?_cons] at hk
    by_cases hdk : d = k
    · subst hdk
      simp at hk; subst hk
      cases hd : n.dims.get? d with
      | none => simp [Node.hasDim, hd] at h
      | some o =>
        cases o with
        | none => exact Or.inl rfl
        | some v =>
          simp [Node.hasDim, Node.getDim, hd] at h
          exact Or.inr (by rw [h.1])
    · rw [if_neg hdk] at hk
      refine ih ?_ hk
      by_cases c1 : n.hasDim d = some false
      · rw [if_pos c1] at h; simp at h
      · rw [if_neg c1] at h
        exact (ite_false_true h).2

theorem canParams_true [DecidableEq Sh] {ops : SerOps V A S B Sh} {n : Node V A} {ps : PyDict String (Option V)}
    (h : canParams ops n ps = .ok true) (k : String) (v : V) (p : V) (hk : ps.get? k = some (some v))
    (hh : n.hasParam k = some true) (hp : n.getParam k = .ok p) : ops.shape p = ops.shape v := by
  induction ps with
  | nil => simp [PyDict.get?] at hk
  | cons q ps ih =>
    obtain ⟨k0, value⟩ := q
    rw [PyDict.get?_cons] at hk
    by_cases hkk : k0 = k
    · subst hkk
      simp at hk; subst hk
      simp only [canParams, hh, hp] at h
      by_contra hne
      simp [hne] at h
    · rw [if_neg hkk] at hk
      refine ih ?_ hk
      simp only [canParams] at h
      split at h
      · simp at h
      · split at h
        · split at h
          · simp at h
          · split at h
            · simp at h
            · exact h
        · exact h

theorem canNode_true [DecidableEq B] [DecidableEq Sh] {ops : SerOps V A S B Sh} {h : Heap V A} {msg : Msg V B}
    {infos : List NodeInfo} {strict : Bool} {i : Nat} {a : Addr} (hc : canNode ops h msg infos strict (i, a) = .ok true) :
    ∃ n info pa bs, h[a]? = some n ∧ infos[i]? = some info ∧ msg.params[i]? = some pa ∧ msg.shims[i]? = some bs ∧
      bs.length = n.shims.length ∧ canDims n info.dims = true ∧ canParams ops n pa = .ok true := by
  unfold canNode at hc
  simp only at hc
  split at hc
  · rename_i info n h1 h2
    split at hc
    · simp at hc
    · split at hc
      · simp at hc
      · rename_i bs h3
        split at hc
        · simp at hc
        · rename_i h4
          split at hc
          · simp at hc
          · rename_i h5
            split at hc
            · simp at hc
            · rename_i pa h6
              split at hc
              · simp at hc
              · simp at hc
              · rename_i h7
                exact ⟨n, info, pa, bs, h2, h1, h6, h3, by simpa using h4, by simpa using h5, h7⟩
  · simp at hc

end Thinc
