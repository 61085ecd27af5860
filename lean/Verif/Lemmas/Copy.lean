import Verif.Model.Copy
import Verif.Lemmas.GraphEdit
import Verif.Spec.Copy
import Batteries.Data.List.Perm
namespace Thinc
open Spec
variable {V A S : Type}

/-- `has_param(k)` implies that `get_param(k)` succeeds (true of every model built and changed
through the API, see `C04_has_param_and_maybe_get`). -/
def Node.ParamsOk (n : Node V A) : Prop := ∀ k, n.hasParam k = some true → ∃ v, n.getParam k = .ok v

theorem copyParams_ok (n : Node V A) (hok : n.ParamsOk) (ks : List String) :
    copyParams n ks = .ok (ks.map fun k => (k, match n.maybeGetParam k with | .ok o => o | .error _ => none)) := by
  induction ks with
  | nil => rfl
  | cons k ks ih =>
    unfold copyParams
    by_cases hk : n.hasParam k = some true
    · obtain ⟨v, hv⟩ := hok k hk
      rw [if_pos hk, hv, ih]
      simp [Except.map, Node.maybeGetParam, hk, hv]
    · rw [if_neg hk, ih]
      simp [Except.map, Node.maybeGetParam, hk]

theorem maybeGetParam_ok (n : Node V A) (hok : n.ParamsOk) (k : String) :
    ∃ o, n.maybeGetParam k = .ok o ∧ (o.isSome ↔ n.hasParam k = some true) := by
  unfold Node.maybeGetParam
  by_cases hk : n.hasParam k = some true
  · obtain ⟨v, hv⟩ := hok k hk
    exact ⟨some v, by simp [hk, hv, Except.map], by simp [hk]⟩
  · exact ⟨none, by simp [hk], by simp [hk]⟩

theorem initParams_spec (ps : PyDict String (Option V)) (hw : PyDict.WF ps) (n : Node V A)
    (hdis : ∀ k ∈ ps.keys, k ∉ n.hasParams.keys) :
    (n.initParams ps).hasParams.keys = n.hasParams.keys ++ ps.keys ∧
    (∀ k, (n.initParams ps).hasParams.get? k =
      match ps.get? k with | some o => some (o.map fun _ => ()) | none => n.hasParams.get? k) ∧
    (∀ k, (n.initParams ps).params.get? (n.id, k) =
      match ps.get? k with | some (some v) => some v | _ => n.params.get? (n.id, k)) := by
  induction ps generalizing n with
  | nil => simp [Node.initParams, PyDict.keys]
  | cons p ps ih =>
    obtain ⟨name, v⟩ := p
    simp only [PyDict.WF, PyDict.keys, List.map_cons, List.nodup_cons] at hw
    have hnm : name ∉ n.hasParams.keys := hdis name (by simp [PyDict.keys])
    have hnk : PyDict.get? ps name = none := (PyDict.get?_eq_none_iff ps name).2 hw.1
    -- the node after processing `name`
    obtain ⟨n1, hn1, hid, hkeys, hget, hpar⟩ : ∃ n1 : Node V A,
        n.initParams ((name, v) :: ps) = n1.initParams ps ∧ n1.id = n.id ∧
        n1.hasParams.keys = n.hasParams.keys ++ [name] ∧
        (∀ k, n1.hasParams.get? k = if name = k then some (v.map fun _ => ()) else n.hasParams.get? k) ∧
        (∀ k, n1.params.get? (n.id, k) =
          if name = k then (match v with | some x => some x | none => n.params.get? (n.id, k))
          else n.params.get? (n.id, k)) := by
      cases v with
      | none =>
        refine ⟨{ n with hasParams := n.hasParams.set name none }, rfl, rfl, ?_, ?_, ?_⟩
        · simp [PyDict.keys_set, hnm]
        · intro k; simp [PyDict.get?_set]
        · intro k; simp
      | some x =>
        refine ⟨{ n with hasParams := (n.hasParams.set name none).set name (some ()), params := n.params.set (n.id, name) x }, rfl, rfl, ?_, ?_, ?_⟩
        · simp [PyDict.set_set, PyDict.keys_set, hnm]
        · intro k; simp [PyDict.set_set, PyDict.get?_set]
        · intro k; simp [PyDict.get?_set]
    obtain ⟨i1, i2, i3⟩ := ih hw.2 n1 (by
      intro k hk
      rw [hkeys]
      simp only [List.mem_append, List.mem_singleton, not_or]
      refine ⟨hdis k (by simp only [PyDict.keys, List.map_cons, List.mem_cons] at hk ⊢; exact Or.inr hk), ?_⟩
      rintro rfl; exact hw.1 hk)
    rw [hn1]
    refine ⟨?_, ?_, ?_⟩
    · rw [i1, hkeys]; simp [PyDict.keys]
    · intro k
      rw [i2, hget, PyDict.get?_cons]
      by_cases hk : name = k
      · subst hk; simp [hnk]
      · simp [hk]
    · intro k
      rw [hid] at i3
      rw [i3, hpar, PyDict.get?_cons]
      by_cases hk : name = k
      · subst hk
        simp only [hnk, if_true]
        cases v <;> rfl
      · simp [hk]

theorem copyGrads_spec (n : Node V A) (ks : List String) (c : Node V A) :
    (∃ g, copyGrads n ks c = { c with grads := g }) ∧
    ∀ k, (copyGrads n ks c).grads.get? (c.id, k) =
      if k ∈ ks ∧ n.hasGrad k then n.grads.get? (n.id, k) else c.grads.get? (c.id, k) := by
  induction ks generalizing c with
  | nil => exact ⟨⟨c.grads, rfl⟩, by simp [copyGrads]⟩
  | cons k0 ks ih =>
    unfold copyGrads
    unfold Node.getGrad
    cases hg : n.grads.get? (n.id, k0) with
    | none =>
      simp only
      obtain ⟨i1, i2⟩ := ih c
      refine ⟨i1, ?_⟩
      intro k; rw [i2]
      by_cases hk : k = k0
      · subst hk; simp [Node.hasGrad, PyDict.contains, hg]
      · simp [hk]
    | some g =>
      simp only
      obtain ⟨⟨g', i1⟩, i2⟩ := ih (c.setGrad k0 g)
      refine ⟨⟨g', by rw [i1]; rfl⟩, ?_⟩
      intro k
      have : (c.setGrad k0 g).id = c.id := rfl
      rw [this] at i2
      rw [i2]
      simp only [Node.setGrad, PyDict.get?_set]
      by_cases hk : k0 = k
      · subst hk
        have : n.hasGrad k0 = true := by simp [Node.hasGrad, PyDict.contains, hg]
        simp [this, hg]
      · have : ¬ (c.id, k0) = (c.id, k) := by simp [hk]
        simp [Ne.symm hk, this]

theorem copied_contents (n : Node V A) (w : n.WF) (hok : n.ParamsOk) (id : Nat) (layers shims : List Addr)
    (params) (hp : copyParams n n.paramNames = .ok params) :
    let c := copyGrads n n.gradNames (Node.mk' id n.name params n.dims n.attrs [] layers shims)
    SameContents n c ∧ c.id = id ∧ c.layers = layers ∧ c.shims = shims ∧ c.WF ∧ c.ParamsOk := by
  have hp' := copyParams_ok n hok n.paramNames
  rw [hp] at hp'
  injection hp' with hp'
  have hkeys : params.keys = n.paramNames := by
    rw [hp']; simp [PyDict.keys, Function.comp_def]
  have hwp : PyDict.WF params := by unfold PyDict.WF; rw [hkeys]; exact w.hasParams
  let c0 : Node V A := ⟨n.name, id, layers, [], n.dims, [], [], [], n.attrs, shims⟩
  have hm : (Node.mk' id n.name params n.dims n.attrs [] layers shims : Node V A) = c0.initParams params := rfl
  obtain ⟨s1, s2, s3⟩ := initParams_spec params hwp c0 (by simp [c0, PyDict.keys])
  obtain ⟨⟨g, g1⟩, g2⟩ := copyGrads_spec n n.gradNames (c0.initParams params)
  have hid : (c0.initParams params).id = id := Node.initParams_id params
  obtain ⟨r1, r2, r3, r4, r5⟩ := Node.initParams_rest (n := c0) params
  have hget : ∀ k, params.get? k = if k ∈ n.paramNames then
      some (match n.maybeGetParam k with | .ok o => o | .error _ => none) else none := by
    intro k
    by_cases hk : k ∈ n.paramNames
    · rw [if_pos hk]
      apply hwp.get?_of_mem
      rw [hp']
      exact List.mem_map.2 ⟨k, hk, rfl⟩
    · rw [if_neg hk, PyDict.get?_eq_none_iff, hkeys]; exact hk
  have hmp : ∀ k, (c0.initParams params).maybeGetParam k = n.maybeGetParam k ∧
      ((c0.initParams params).hasParam k = some true → ∃ v, (c0.initParams params).getParam k = .ok v) := by
    intro k
    obtain ⟨o, ho, hs⟩ := maybeGetParam_ok n hok k
    have s2k := s2 k
    have s3k := s3 k
    rw [hget] at s2k s3k
    have hid0 : c0.id = id := rfl
    rw [hid0] at s3k
    by_cases hk : k ∈ n.paramNames
    · simp only [if_pos hk, ho] at s2k s3k
      rw [ho]
      cases o with
      | none =>
        simp only [Option.map_none] at s2k
        simp [Node.maybeGetParam, Node.hasParam, s2k]
      | some v =>
        simp only [Option.map_some] at s2k s3k
        simp [Node.maybeGetParam, Node.hasParam, Node.getParam, PyDict.contains, s2k, hid, s3k, Except.map]
    · simp only [if_neg hk] at s2k s3k
      have hn : n.hasParam k = some false := by
        unfold Node.hasParam
        rw [(PyDict.get?_eq_none_iff n.hasParams k).2 hk]
      have : (c0.initParams params).hasParams.get? k = none := by rw [s2k]; rfl
      simp [Node.maybeGetParam, Node.hasParam, this] at hn ⊢
      simp [hn]
  have hw0 : c0.WF :=
    ⟨PyDict.WF.nil, w.dims, PyDict.WF.nil, PyDict.WF.nil, PyDict.WF.nil, w.attrs⟩
  have hwf : (c0.initParams params).WF := hw0.initParams params
  have hcg : ∀ ks (c : Node V A), c.WF → (copyGrads n ks c).WF := by
    intro ks
    induction ks with
    | nil => intro c hc; exact hc
    | cons k ks ih =>
      intro c hc
      unfold copyGrads
      cases n.getGrad k with
      | error e => exact ih c hc
      | ok v => exact ih _ (hc.setGrad k v)
  rw [hm]
  refine ⟨⟨?_, ?_, ?_, ?_, ?_, ?_, ?_⟩, ?_, ?_, ?_, hcg _ _ hwf, ?_⟩
  · rw [g1]; exact r5
  · rw [g1]; exact Node.initParams_dims params
  · rw [g1]; exact r3
  · rw [g1]; exact r2
  · rw [g1]; simp only [Node.paramNames]; rw [s1]; simp [c0, PyDict.keys]
    simpa [PyDict.keys, Node.paramNames] using hkeys
  · intro k; rw [← (hmp k).1, g1]; rfl
  · intro k hk
    have g2k := g2 k
    rw [hid, Node.initParams_grads] at g2k
    have hcid : (copyGrads n n.gradNames (c0.initParams params)).id = id := by rw [g1]; exact hid
    have hgr : (copyGrads n n.gradNames (c0.initParams params)).grads.get? (id, k) = n.grads.get? (n.id, k) := by
      rw [g2k]
      by_cases hg : n.hasGrad k = true
      · have : k ∈ n.gradNames := List.mem_filter.2 ⟨hk, hg⟩
        simp [this, hg]
      · rw [if_neg (by simp [hg])]
        simp only [Node.hasGrad, PyDict.contains] at hg
        have hg' : n.grads.get? (n.id, k) = none := by simpa using hg
        rw [hg']; rfl
    unfold Node.maybeGetGrad Node.hasGrad Node.getGrad PyDict.contains
    rw [hcid, hgr]
  · rw [g1]; exact hid
  · rw [g1]; exact r1
  · rw [g1]; exact r4
  · intro k hk
    rw [g1] at hk ⊢
    exact (hmp k).2 hk

/-! ## The recursion -/

/-- `c` is the address of a finished copy of original node `a`. -/
def CopyOf (h0 : Heap V A) (s : CopyState V A S) (a c : Addr) : Prop :=
  ∃ n m, h0[a]? = some n ∧ s.nodes[c]? = some m ∧ SameContents n m ∧
    List.Forall₂ (fun x y => s.seen.get? x = some y) n.layers m.layers ∧
    List.Forall₂ (fun x y => s.seenShims.get? x = some y) n.shims m.shims

structure CopyInv (h0 : Heap V A) (sh0 : List S) (g0 : Nat) (s : CopyState V A S) : Prop where
  pre : ∀ a, a < h0.length → s.nodes[a]? = h0[a]?
  len : h0.length ≤ s.nodes.length
  gid : s.globalId + h0.length = g0 + s.nodes.length
  ids : ∀ (i : Nat) n, h0.length ≤ i → s.nodes[i]? = some n → n.id + h0.length = g0 + i + 1
  spre : ∀ t, t < sh0.length → s.shims[t]? = sh0[t]?
  slen : sh0.length ≤ s.shims.length
  seen : ∀ (a c : Nat), s.seen.get? a = some c →
    a < h0.length ∧ h0.length ≤ c ∧ c < s.nodes.length ∧ CopyOf h0 s a c
  inj : ∀ a b c, s.seen.get? a = some c → s.seen.get? b = some c → a = b
  sseen : ∀ (t c : Nat), s.seenShims.get? t = some c →
    t < sh0.length ∧ sh0.length ≤ c ∧ c < s.shims.length ∧ s.shims[c]? = sh0[t]?
  sinj : ∀ a b c, s.seenShims.get? a = some c → s.seenShims.get? b = some c → a = b

structure CopyExt (s s' : CopyState V A S) : Prop where
  nodes : ∀ i, i < s.nodes.length → s'.nodes[i]? = s.nodes[i]?
  len : s.nodes.length ≤ s'.nodes.length
  seen : ∀ a c, s.seen.get? a = some c → s'.seen.get? a = some c
  sseen : ∀ a c, s.seenShims.get? a = some c → s'.seenShims.get? a = some c

theorem CopyExt.refl (s : CopyState V A S) : CopyExt s s :=
  ⟨fun _ _ => rfl, Nat.le_refl _, fun _ _ h => h, fun _ _ h => h⟩

theorem CopyExt.trans {s t u : CopyState V A S} (h1 : CopyExt s t) (h2 : CopyExt t u) : CopyExt s u :=
  ⟨fun i hi => by rw [h2.nodes i (Nat.lt_of_lt_of_le hi h1.len), h1.nodes i hi],
   Nat.le_trans h1.len h2.len, fun a c h => h2.seen a c (h1.seen a c h),
   fun a c h => h2.sseen a c (h1.sseen a c h)⟩

theorem forall₂_mono {α β : Type} {R R' : α → β → Prop} (hm : ∀ x y, R x y → R' x y) {l : List α}
    {l' : List β} (h : List.Forall₂ R l l') : List.Forall₂ R' l l' := by
  induction h with
  | nil => exact List.Forall₂.nil
  | cons hxy _ ih => exact List.Forall₂.cons (hm _ _ hxy) ih

theorem CopyOf.ext {h0 : Heap V A} {s s' : CopyState V A S} (e : CopyExt s s') {a c : Addr}
    (hc : CopyOf h0 s a c) : CopyOf h0 s' a c := by
  obtain ⟨n, m, h1, h2, h3, h4, h5⟩ := hc
  have hlt := (List.getElem?_eq_some_iff.1 h2).1
  exact ⟨n, m, h1, by rw [e.nodes c hlt]; exact h2, h3, forall₂_mono e.seen h4, forall₂_mono e.sseen h5⟩

theorem copyShims_spec {h0 : Heap V A} {sh0 : List S} {g0 : Nat} (ts : List Addr) (s : CopyState V A S)
    (i : CopyInv h0 sh0 g0 s) (ht : ∀ t : Nat, t ∈ ts → t < sh0.length) :
    ∃ s' cs, copyShims ts s = (s', .ok cs) ∧ CopyInv h0 sh0 g0 s' ∧ CopyExt s s' ∧
      s'.nodes = s.nodes ∧ s'.seen = s.seen ∧ s'.globalId = s.globalId ∧
      List.Forall₂ (fun x y => s'.seenShims.get? x = some y) ts cs := by
  induction ts generalizing s with
  | nil => exact ⟨s, [], rfl, i, CopyExt.refl s, rfl, rfl, rfl, List.Forall₂.nil⟩
  | cons t ts ih =>
    have htl := ht t (by simp)
    cases hg : s.seenShims.get? t with
    | some c =>
      obtain ⟨s', cs, h1, h2, h3, h4, h5, h6, h7⟩ := ih s i (fun t' ht' => ht t' (by simp [ht']))
      refine ⟨s', c :: cs, by simp only [copyShims, hg, h1], h2, h3, h4, h5, h6,
        List.Forall₂.cons (h3.sseen t c hg) h7⟩
    | none =>
      have hx : s.shims[t]? = some sh0[t] := by
        rw [i.spre t htl, List.getElem?_eq_getElem htl]
      let s1 : CopyState V A S := { s with shims := s.shims ++ [sh0[t]], seenShims := s.seenShims.set t s.shims.length }
      have e1 : CopyExt s s1 := ⟨fun _ _ => rfl, Nat.le_refl _, fun _ _ h => h, by
        intro a c hac
        have : t ≠ a := by rintro rfl; simp [hg] at hac
        simp only [s1, PyDict.get?_set_ne _ this]; exact hac⟩
      have i1 : CopyInv h0 sh0 g0 s1 := by
        refine ⟨i.pre, i.len, i.gid, i.ids, ?_, ?_, ?_, i.inj, ?_, ?_⟩
        · intro t' ht'
          simp only [s1]
          rw [List.getElem?_append_left (Nat.lt_of_lt_of_le ht' i.slen)]; exact i.spre t' ht'
        · simp only [s1, List.length_append]; have := i.slen; simp; omega
        · intro a c hac
          obtain ⟨q1, q2, q3, q4⟩ := i.seen a c hac
          exact ⟨q1, q2, q3, q4.ext e1⟩
        · intro t' c hc
          simp only [s1, PyDict.get?_set] at hc
          split at hc
          · rename_i htt
            simp at hc; subst hc; subst htt
            refine ⟨htl, i.slen, by simp [s1], ?_⟩
            simp only [s1]
            rw [List.getElem?_append_right (Nat.le_refl _)]; simp
          · obtain ⟨q1, q2, q3, q4⟩ := i.sseen t' c hc
            refine ⟨q1, q2, by simp only [s1, List.length_append]; omega, ?_⟩
            simp only [s1]; rw [List.getElem?_append_left q3]; exact q4
        · intro a b c ha hb
          simp only [s1, PyDict.get?_set] at ha hb
          split at ha <;> split at hb
          · simp_all
          · simp at ha; subst ha; have := (i.sseen _ _ hb).2.2.1; omega
          · simp at hb; subst hb; have := (i.sseen _ _ ha).2.2.1; omega
          · exact i.sinj a b c ha hb
      obtain ⟨s', cs, h1, h2, h3, h4, h5, h6, h7⟩ := ih s1 i1 (fun t' ht' => ht t' (by simp [ht']))
      refine ⟨s', s.shims.length :: cs, ?_, h2, e1.trans h3, h4, h5, h6, ?_⟩
      · simp only [copyShims, hg, hx]
        simp only [s1] at h1
        rw [h1]
      · exact List.Forall₂.cons (h3.sseen t _ (by simp [s1])) h7

/-- What one call of `_copy` achieves. -/
def CopyPost (h0 : Heap V A) (sh0 : List S) (g0 : Nat) (a : Addr) (s : CopyState V A S)
    (r : CopyState V A S × Except PyErr Addr) : Prop :=
  ∃ s' c, r = (s', .ok c) ∧ CopyInv h0 sh0 g0 s' ∧ CopyExt s s' ∧ h0.length ≤ c ∧
    c < s'.nodes.length ∧ CopyOf h0 s' a c ∧ (∀ x y, s'.seen.get? x = some y → y ≠ c) ∧
    (∀ x, (s'.seen.get? x).isSome → (s.seen.get? x).isSome ∨ Descendant h0 a x)

theorem copyLayers_spec {h0 : Heap V A} {sh0 : List S} {g0 : Nat} (hac : Acyclic h0)
    (rec : Addr → CopyState V A S → CopyState V A S × Except PyErr Addr) (ls : List Addr)
    (hrec : ∀ l ∈ ls, ∀ s, CopyInv h0 sh0 g0 s → CopyPost h0 sh0 g0 l s (rec l s))
    (hl : ∀ l : Nat, l ∈ ls → l < h0.length) (s : CopyState V A S) (i : CopyInv h0 sh0 g0 s) :
    ∃ s' cs, copyLayers rec ls s = (s', .ok cs) ∧ CopyInv h0 sh0 g0 s' ∧ CopyExt s s' ∧
      List.Forall₂ (fun x y => s'.seen.get? x = some y) ls cs ∧
      (∀ x, (s'.seen.get? x).isSome → (s.seen.get? x).isSome ∨ ∃ l ∈ ls, Reachable h0 l x) := by
  induction ls generalizing s with
  | nil => exact ⟨s, [], rfl, i, CopyExt.refl s, List.Forall₂.nil, fun x hx => Or.inl hx⟩
  | cons l ls ih =>
    have hll := hl l (by simp)
    cases hg : s.seen.get? l with
    | some c =>
      obtain ⟨s', cs, h1, h2, h3, h4, h5⟩ := ih (fun l' h' => hrec l' (by simp [h']))
        (fun l' h' => hl l' (by simp [h'])) s i
      refine ⟨s', c :: cs, by simp only [copyLayers, hg, h1], h2, h3,
        List.Forall₂.cons (h3.seen l c hg) h4, ?_⟩
      intro x hx
      rcases h5 x hx with h | ⟨l', hl', hr⟩
      · exact Or.inl h
      · exact Or.inr ⟨l', by simp [hl'], hr⟩
    | none =>
      obtain ⟨s1, c, r1, i1, e1, c1, c2, c3, c4, c5⟩ := hrec l (by simp) s i
      have hnot : s1.seen.get? l = none := by
        cases hs : s1.seen.get? l with
        | none => rfl
        | some y =>
          rcases c5 l (by simp [hs]) with h | h
          · simp [hg] at h
          · exact absurd h (hac l)
      let s2 : CopyState V A S := { s1 with seen := s1.seen.set l c }
      have e2 : CopyExt s1 s2 := ⟨fun _ _ => rfl, Nat.le_refl _, by
        intro a c' hac'
        have : l ≠ a := by rintro rfl; simp [hnot] at hac'
        simp only [s2, PyDict.get?_set_ne _ this]; exact hac', fun _ _ h => h⟩
      have i2 : CopyInv h0 sh0 g0 s2 := by
        refine ⟨i1.pre, i1.len, i1.gid, i1.ids, i1.spre, i1.slen, ?_, ?_, i1.sseen, i1.sinj⟩
        · intro a c' hc'
          simp only [s2, PyDict.get?_set] at hc'
          split at hc'
          · rename_i hla
            simp at hc'; subst hc'; subst hla
            exact ⟨hll, c1, c2, c3.ext e2⟩
          · obtain ⟨q1, q2, q3, q4⟩ := i1.seen a c' hc'
            exact ⟨q1, q2, q3, q4.ext e2⟩
        · intro a b c' ha hb
          simp only [s2, PyDict.get?_set] at ha hb
          split at ha <;> split at hb
          · simp_all
          · simp at ha; exact absurd ha.symm (c4 _ _ hb)
          · simp at hb; exact absurd hb.symm (c4 _ _ ha)
          · exact i1.inj a b c' ha hb
      obtain ⟨s', cs, h1, h2, h3, h4, h5⟩ := ih (fun l' h' => hrec l' (by simp [h']))
        (fun l' h' => hl l' (by simp [h'])) s2 i2
      refine ⟨s', c :: cs, ?_, h2, (e1.trans e2).trans h3, ?_, ?_⟩
      · simp only [copyLayers, hg, r1]
        simp only [s2] at h1
        rw [h1]
      · exact List.Forall₂.cons (h3.seen l c (by simp [s2])) h4
      · intro x hx
        rcases h5 x hx with h | ⟨l', hl', hr⟩
        · simp only [s2, PyDict.get?_set] at h
          split at h
          · rename_i hlx; subst hlx
            exact Or.inr ⟨l, by simp, Relation.ReflTransGen.refl⟩
          · rcases c5 x h with h | h
            · exact Or.inl h
            · exact Or.inr ⟨l, by simp, h.to_reflTransGen⟩
        · exact Or.inr ⟨l', by simp [hl'], hr⟩

theorem copyNode_spec {h0 : Heap V A} {sh0 : List S} {g0 : Nat} (hac : Acyclic h0) (w : h0.WF)
    (hpar : ∀ (a : Addr) n, h0[a]? = some n → n.ParamsOk)
    (hcl : ∀ (a : Addr) n, h0[a]? = some n → (∀ l : Nat, l ∈ n.layers → l < h0.length) ∧
      ∀ t : Nat, t ∈ n.shims → t < sh0.length) :
    ∀ (depth : Nat) (a : Nat), a < h0.length → (∀ k b, PathLen h0 a k b → k < depth) →
      ∀ s, CopyInv h0 sh0 g0 s → CopyPost h0 sh0 g0 a s (copyNode depth a s) := by
  intro depth
  induction depth with
  | zero => intro a _ hd; exact absurd (hd 0 a PathLen.zero) (by omega)
  | succ depth ih =>
    intro a ha hd s i
    have hn : h0[a]? = some h0[a] := List.getElem?_eq_getElem ha
    generalize hna : h0[a] = n at hn
    obtain ⟨hl, ht⟩ := hcl a n hn
    have hnode : s.nodes[a]? = some n := by rw [i.pre a ha, hn]
    obtain ⟨s1, cs, h1, i1, e1, f1, k1⟩ := copyLayers_spec hac (copyNode depth) n.layers (by
      intro l hl' s' i'
      refine ih l (hl l hl') ?_ s' i'
      intro k b hp
      have : PathLen h0 a (k + 1) b := by
        have hc : Child h0 a l := ⟨n, hn, hl'⟩
        clear hd
        induction hp with
        | zero => exact PathLen.succ PathLen.zero hc
        | succ _ hc' ih => exact PathLen.succ ih hc'
      have := hd _ _ this; omega) hl s i
    obtain ⟨s2, ts, h2, i2, e2, q1, q2, q3, f2⟩ := copyShims_spec n.shims s1 i1 ht
    have hcp := copyParams_ok n (hpar a n hn) n.paramNames
    generalize hps : (n.paramNames.map fun k => (k, match n.maybeGetParam k with | .ok o => o | .error _ => none)) = params at hcp
    obtain ⟨m1, m2, m3, m4, m5, m6⟩ := copied_contents n (w a n hn) (hpar a n hn) (s2.globalId + 1) cs ts params hcp
    generalize hm : copyGrads n n.gradNames (Node.mk' (s2.globalId + 1) n.name params n.dims n.attrs [] cs ts) = m at m1 m2 m3 m4 m5 m6
    let s3 : CopyState V A S := { s2 with nodes := s2.nodes ++ [m], globalId := s2.globalId + 1 }
    have e3 : CopyExt s2 s3 := ⟨fun j hj => by simp only [s3]; rw [List.getElem?_append_left hj],
      by simp [s3], fun _ _ h => h, fun _ _ h => h⟩
    have i3 : CopyInv h0 sh0 g0 s3 := by
      refine ⟨?_, ?_, ?_, ?_, i2.spre, i2.slen, ?_, i2.inj, i2.sseen, i2.sinj⟩
      · intro b hb
        simp only [s3]; rw [List.getElem?_append_left (Nat.lt_of_lt_of_le hb i2.len)]; exact i2.pre b hb
      · have := i2.len; simp [s3]; omega
      · have := i2.gid; simp [s3]; omega
      · intro j x hj hx
        simp only [s3] at hx
        by_cases hlt : j < s2.nodes.length
        · rw [List.getElem?_append_left hlt] at hx; exact i2.ids j x hj hx
        · rw [List.getElem?_append_right (Nat.le_of_not_lt hlt)] at hx
          have : j - s2.nodes.length = 0 := by
            by_contra hne
            rw [List.getElem?_eq_none (by simp; omega)] at hx; simp at hx
          rw [this] at hx; simp at hx; subst hx
          have := i2.gid; omega
      · intro b c hbc
        obtain ⟨q1, q2, q3, q4⟩ := i2.seen b c hbc
        exact ⟨q1, q2, Nat.lt_of_lt_of_le q3 e3.len, q4.ext e3⟩
    refine ⟨s3, s2.nodes.length, ?_, i3, (e1.trans e2).trans e3, i2.len, by simp [s3], ?_, ?_, ?_⟩
    · simp only [copyNode, hnode, hcp, h1, h2, hm]; rfl
    · refine ⟨n, m, hn, by simp [s3], m1, ?_, ?_⟩
      · rw [m3]; simp only [s3]; rw [q2]; exact f1
      · rw [m4]; exact f2
    · intro x y hxy
      exact Nat.ne_of_lt (i2.seen x y hxy).2.2.1
    · intro x hx
      simp only [s3] at hx
      rw [q2] at hx
      rcases k1 x hx with h | ⟨l, hl', hr⟩
      · exact Or.inl h
      · exact Or.inr (Relation.TransGen.head' ⟨n, hn, hl'⟩ hr)

/-- In an acyclic heap no path is longer than the number of nodes. -/
theorem acyclic_path_bound {h : Heap V A} (hac : Acyclic h) {a b : Addr} {k : Nat}
    (hp : PathLen h a k b) : k ≤ h.length := by
  have : ∃ l : List Nat, l.length = k ∧ l.Nodup ∧ ∀ x ∈ l, x < h.length ∧ Descendant h x b := by
    induction hp with
    | zero => exact ⟨[], rfl, List.nodup_nil, by simp⟩
    | @succ n b c _ hc ih =>
      obtain ⟨l, h1, h2, h3⟩ := ih
      refine ⟨b :: l, by simp [h1], List.nodup_cons.2 ⟨fun hm => hac b (h3 b hm).2, h2⟩, ?_⟩
      intro x hx
      rcases List.mem_cons.1 hx with rfl | hx
      · obtain ⟨n', hn', _⟩ := id hc
        exact ⟨(List.getElem?_eq_some_iff.1 hn').1, Relation.TransGen.single hc⟩
      · exact ⟨(h3 x hx).1, Relation.TransGen.tail (h3 x hx).2 hc⟩
  obtain ⟨l, h1, h2, h3⟩ := this
  have hsub : l ⊆ List.range h.length := fun x hx => List.mem_range.2 (h3 x hx).1
  have := (List.subperm_of_subset h2 hsub).length_le
  simpa [h1] using this

end Thinc
