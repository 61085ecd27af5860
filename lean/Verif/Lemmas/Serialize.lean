import Verif.Model.Serialize
import Verif.Lemmas.GraphEdit
import Verif.Lemmas.Copy
import Mathlib.Tactic.ByContra
namespace Thinc
open Spec
variable {V A S B Sh : Type}

/-! ## Lists -/

theorem mapE_get {ε α β : Type} {f : α → Except ε β} {l : List α} {ys : List β} (h : mapE f l = .ok ys) :
    ys.length = l.length ∧ ∀ (i : Nat) x, l[i]? = some x → ∃ y, ys[i]? = some y ∧ f x = .ok y := by
  induction l generalizing ys with
  | nil => simp [mapE] at h; subst h; simp
  | cons x l ih =>
    simp only [mapE] at h
    cases hx : f x with
    | error e => simp [hx] at h
    | ok y =>
      cases hl : mapE f l with
      | error e => simp [hx, hl] at h
      | ok ys' =>
        simp [hx, hl] at h; subst h
        obtain ⟨h1, h2⟩ := ih hl
        refine ⟨by simp [h1], ?_⟩
        intro i z hz
        cases i with
        | zero => simp at hz; subst hz; exact ⟨y, rfl, hx⟩
        | succ i => simp at hz; simpa using h2 i z hz

theorem mapE_ok {ε α β : Type} {f : α → Except ε β} {l : List α} (h : ∀ x ∈ l, ∃ y, f x = .ok y) :
    ∃ ys, mapE f l = .ok ys := by
  induction l with
  | nil => exact ⟨[], rfl⟩
  | cons x l ih =>
    obtain ⟨y, hy⟩ := h x (by simp)
    obtain ⟨ys, hys⟩ := ih (fun z hz => h z (by simp [hz]))
    exact ⟨y :: ys, by simp [mapE, hy, hys]⟩

theorem mapE_error {ε α β : Type} {f : α → Except ε β} {l : List α} {e : ε}
    (hall : ∀ x ∈ l, f x = .error e ∨ ∃ y, f x = .ok y) (hx : ∃ x ∈ l, f x = .error e) :
    mapE f l = .error e := by
  induction l with
  | nil => simp at hx
  | cons x l ih =>
    rcases hall x (by simp) with h | ⟨y, h⟩
    · simp [mapE, h]
    · have : mapE f l = .error e := by
        refine ih (fun z hz => hall z (by simp [hz])) ?_
        obtain ⟨z, hz, hfz⟩ := hx
        rcases List.mem_cons.1 hz with rfl | hz
        · rw [h] at hfz; simp at hfz
        · exact ⟨z, hz, hfz⟩
      simp [mapE, h, this]

theorem enumFrom'_get {α : Type} (l : List α) (k i : Nat) :
    (enumFrom' k l)[i]? = (l[i]?).map fun x => (k + i, x) := by
  induction l generalizing k i with
  | nil => simp [enumFrom']
  | cons x l ih =>
    cases i with
    | zero => simp [enumFrom']
    | succ i => simp [enumFrom', ih]; cases l[i]? <;> simp; omega

theorem enumFrom'_length {α : Type} (l : List α) (k : Nat) : (enumFrom' k l).length = l.length := by
  induction l generalizing k with
  | nil => rfl
  | cons x l ih => simp [enumFrom', ih]

theorem enumFrom'_mem {α : Type} {l : List α} {p : Nat × α} (h : p ∈ enumFrom' 0 l) : l[p.1]? = some p.2 := by
  obtain ⟨i, hi, hp⟩ := List.mem_iff_getElem.1 h
  have : (enumFrom' 0 l)[i]? = some p := by rw [List.getElem?_eq_getElem hi, hp]
  rw [enumFrom'_get] at this
  cases hl : l[i]? with
  | none => simp [hl] at this
  | some x =>
    rw [hl] at this
    simp only [Nat.zero_add, Option.map_some, Option.some.injEq] at this
    rw [← this]; exact hl

/-! ## Loops with state -/

theorem loopE_inv {σ ε β : Type} {f : σ → β → σ × Except ε Unit} (P : σ → Prop) {xs : List β}
    (hf : ∀ x ∈ xs, ∀ s, P s → P (f s x).1) {s : σ} (h : P s) : P (loopE f xs s).1 := by
  induction xs generalizing s with
  | nil => exact h
  | cons x xs ih =>
    have h1 := hf x (by simp) s h
    simp only [loopE]
    cases hx : f s x with
    | mk s' r =>
      rw [hx] at h1
      cases r with
      | error e => exact h1
      | ok u => cases u; exact ih (fun y hy => hf y (by simp [hy])) h1

theorem seqE_inv {σ ε : Type} {f g : σ → σ × Except ε Unit} (P : σ → Prop)
    (hf : ∀ s, P s → P (f s).1) (hg : ∀ s, P s → P (g s).1) {s : σ} (h : P s) : P (seqE f g s).1 := by
  have h1 := hf s h
  unfold seqE
  cases hx : f s with
  | mk s' r =>
    rw [hx] at h1
    cases r with
    | error e => exact h1
    | ok u => cases u; exact hg _ h1

theorem seqE_ok {σ ε : Type} {f g : σ → σ × Except ε Unit} {s s' : σ} (h : f s = (s', .ok ())) :
    seqE f g s = g s' := by simp [seqE, h]

/-- Loop invariant for a loop that succeeds: `P i s` holds before iteration `i`. -/
theorem loopE_ok {σ ε β : Type} {f : σ → β → σ × Except ε Unit} {xs : List β} (P : Nat → σ → Prop)
    (hf : ∀ i x s, xs[i]? = some x → P i s → ∃ s', f s x = (s', .ok ()) ∧ P (i + 1) s') {s : σ} (h : P 0 s) :
    ∃ s', loopE f xs s = (s', .ok ()) ∧ P xs.length s' := by
  induction xs generalizing s P with
  | nil => exact ⟨s, rfl, h⟩
  | cons x xs ih =>
    obtain ⟨s1, h1, h2⟩ := hf 0 x s rfl h
    obtain ⟨s2, h3, h4⟩ := ih (fun i s => P (i + 1) s)
      (fun i y t hy ht => hf (i + 1) y t (by simpa using hy) ht) h2
    exact ⟨s2, by simp [loopE, h1, h3], h4⟩

theorem dict_cons {κ α : Type} [DecidableEq κ] {k : κ} {v : α} {d : PyDict κ α}
    (w : PyDict.WF ((k, v) :: d)) : PyDict.WF d ∧ d.get? k = none := by
  simp only [PyDict.WF, PyDict.keys, List.map_cons, List.nodup_cons] at w
  exact ⟨w.2, (PyDict.get?_eq_none_iff d k).2 w.1⟩

theorem loadDims_spec (ds : PyDict String (Option Nat)) (w : PyDict.WF ds) (n : Node V A)
    (h : ∀ k v, ds.get? k = some (some v) → n.dims.get? k = some none ∨ n.dims.get? k = some (some v)) :
    ∃ d', loopE loadDim ds n = ({ n with dims := d' }, .ok ()) ∧
      (∀ k, d'.get? k = match ds.get? k with | some (some v) => some (some v) | _ => n.dims.get? k) ∧
      (PyDict.WF n.dims → PyDict.WF d') := by
  induction ds generalizing n with
  | nil => exact ⟨n.dims, rfl, fun k => rfl, id⟩
  | cons p ds ih =>
    obtain ⟨k0, v0⟩ := p
    obtain ⟨w', hk0⟩ := dict_cons w
    cases v0 with
    | none =>
      obtain ⟨d', h1, h2, h3⟩ := ih w' n (by
        intro k v hkv
        refine h k v ?_
        have : k0 ≠ k := by rintro rfl; rw [hk0] at hkv; simp at hkv
        simp [PyDict.get?_cons, this, hkv])
      refine ⟨d', by simp [loopE, loadDim, h1], ?_, h3⟩
      intro k
      rw [h2 k, PyDict.get?_cons]
      by_cases hk : k0 = k
      · subst hk; simp [hk0]
      · simp [hk]
    | some v =>
      have hv := h k0 v (by simp [PyDict.get?_cons])
      have hset : n.setDim k0 v = .ok { n with dims := n.dims.set k0 (some v) } := by
        rcases hv with hv | hv <;> simp [Node.setDim, hv]
      obtain ⟨d', h1, h2, h3⟩ := ih w' { n with dims := n.dims.set k0 (some v) } (by
        intro k v' hkv
        have hne : k0 ≠ k := by rintro rfl; rw [hk0] at hkv; simp at hkv
        simp only [PyDict.get?_set_ne _ hne]
        exact h k v' (by simp [PyDict.get?_cons, hne, hkv]))
      refine ⟨d', by simp [loopE, loadDim, hset, h1], ?_, fun wn => h3 (wn.set _ _)⟩
      intro k
      rw [h2 k, PyDict.get?_cons]
      by_cases hk : k0 = k
      · subst hk; simp [hk0]
      · simp [hk, PyDict.get?_set_ne]

theorem loadAttrs_spec (ops : SerOps V A S B Sh) (as : PyDict String B) (w : PyDict.WF as) (n : Node V A)
    (h : ∀ k b, as.get? k = some b → ∃ v, ops.deser (n.attrs.get? k) b = .ok v) :
    ∃ d', loopE (loadAttr ops) as n = ({ n with attrs := d' }, .ok ()) ∧
      (∀ k b, as.get? k = some b → ∃ v, ops.deser (n.attrs.get? k) b = .ok v ∧ d'.get? k = some v) ∧
      (∀ k, as.get? k = none → d'.get? k = n.attrs.get? k) ∧
      (PyDict.WF n.attrs → PyDict.WF d') := by
  induction as generalizing n with
  | nil => exact ⟨n.attrs, rfl, by simp [PyDict.get?], fun k _ => rfl, id⟩
  | cons p as ih =>
    obtain ⟨k0, b0⟩ := p
    obtain ⟨w', hk0⟩ := dict_cons w
    obtain ⟨v, hv⟩ := h k0 b0 (by simp [PyDict.get?_cons])
    obtain ⟨d', h1, h2, h3, h4⟩ := ih w' { n with attrs := n.attrs.set k0 v } (by
      intro k b hkb
      have hne : k0 ≠ k := by rintro rfl; rw [hk0] at hkb; simp at hkb
      simp only [PyDict.get?_set_ne _ hne]
      exact h k b (by simp [PyDict.get?_cons, hne, hkb]))
    refine ⟨d', by simp [loopE, loadAttr, hv, h1], ?_, ?_, fun wn => h4 (wn.set _ _)⟩
    · intro k b hkb
      rw [PyDict.get?_cons] at hkb
      by_cases hk : k0 = k
      · subst hk
        simp at hkb; subst hkb
        exact ⟨v, hv, by rw [h3 k0 hk0]; simp⟩
      · rw [if_neg hk] at hkb
        obtain ⟨v', hv', hd'⟩ := h2 k b hkb
        simp only [PyDict.get?_set_ne _ hk] at hv'
        exact ⟨v', hv', hd'⟩
    · intro k hk
      rw [PyDict.get?_cons] at hk
      by_cases hkk : k0 = k
      · simp [hkk] at hk
      · rw [if_neg hkk] at hk
        rw [h3 k hk]; simp [PyDict.get?_set_ne _ hkk]

theorem loadParams_spec (ps : PyDict String (Option V)) (w : PyDict.WF ps) (n : Node V A) :
    ∃ hp pa, loopE loadParam ps n = ({ n with hasParams := hp, params := pa }, .ok ()) ∧
      (∀ k, hp.get? k = match ps.get? k with | some o => some (o.map fun _ => ()) | none => n.hasParams.get? k) ∧
      (∀ k, pa.get? (n.id, k) = match ps.get? k with | some (some v) => some v | _ => n.params.get? (n.id, k)) ∧
      (PyDict.WF n.hasParams → PyDict.WF hp) ∧ (PyDict.WF n.params → PyDict.WF pa) := by
  induction ps generalizing n with
  | nil => exact ⟨n.hasParams, n.params, rfl, fun k => rfl, fun k => rfl, id, id⟩
  | cons p ps ih =>
    obtain ⟨k0, v0⟩ := p
    obtain ⟨w', hk0⟩ := dict_cons w
    cases v0 with
    | none =>
      obtain ⟨hp, pa, h1, h2, h3, h4, h5⟩ := ih w' { n with hasParams := n.hasParams.set k0 none }
      refine ⟨hp, pa, by simp [loopE, loadParam, Node.setParam, h1], ?_, ?_, fun wn => h4 (wn.set _ _), h5⟩
      · intro k
        rw [h2 k, PyDict.get?_cons]
        by_cases hk : k0 = k
        · subst hk; simp [hk0]
        · simp [hk, PyDict.get?_set_ne]
      · intro k
        rw [h3 k, PyDict.get?_cons]
        by_cases hk : k0 = k
        · subst hk; simp [hk0]
        · simp [hk]
    | some v =>
      obtain ⟨hp, pa, h1, h2, h3, h4, h5⟩ := ih w'
        { n with params := n.params.set (n.id, k0) v, hasParams := n.hasParams.set k0 (some ()) }
      refine ⟨hp, pa, by simp [loopE, loadParam, Node.setParam, h1], ?_, ?_, fun wn => h4 (wn.set _ _),
        fun wn => h5 (wn.set _ _)⟩
      · intro k
        rw [h2 k, PyDict.get?_cons]
        by_cases hk : k0 = k
        · subst hk; simp [hk0]
        · simp [hk, PyDict.get?_set_ne]
      · intro k
        simp only at h3
        rw [h3 k, PyDict.get?_cons]
        by_cases hk : k0 = k
        · subst hk; simp [hk0]
        · have : (n.id, k0) ≠ (n.id, k) := by simp [hk]
          simp [hk, PyDict.get?_set_ne _ this]

/-- The heap with the node at `a` replaced. -/
theorem get_put (h : Heap V A) (a b : Addr) (n m : Node V A) (hn : h[a]? = some n) :
    (h.modify a fun _ => m)[b]? = if a = b then some m else h[b]? := by
  rw [Heap.get_modify]
  by_cases hb : a = b
  · subst hb; simp [hn]
  · simp [hb]

theorem heap_ext {h h' : Heap V A} (e : ∀ b : Addr, h[b]? = h'[b]?) : h = h' := List.ext_getElem? e

theorem layersOf_put (h : Heap V A) (a : Addr) (n m : Node V A) (hn : h[a]? = some n)
    (hl : m.layers = n.layers) (b : Addr) : layersOf (h.modify a fun _ => m) b = layersOf h b := by
  rw [layersOf_eq, layersOf_eq, get_put h a b n m hn]
  by_cases hb : a = b
  · subst hb; simp [hn, hl]
  · simp [hb]

theorem put_put (h : Heap V A) (a : Addr) (n m m' : Node V A) (hn : h[a]? = some n) :
    ((h.modify a fun _ => m).modify a fun _ => m') = h.modify a fun _ => m' := by
  apply heap_ext
  intro b
  rw [get_put (h.modify a fun _ => m) a b m m' (by rw [get_put h a a n m hn]; simp), get_put h a b n m hn,
    get_put h a b n m' hn]
  by_cases hb : a = b <;> simp [hb]

theorem put_self (h : Heap V A) (a : Addr) (n : Node V A) (hn : h[a]? = some n) :
    (h.modify a fun _ => n) = h := by
  apply heap_ext
  intro b
  rw [get_put h a b n n hn]
  by_cases hb : a = b
  · subst hb; simp [hn]
  · simp [hb]

theorem loadRefs_spec (nodes : List Addr) (a : Addr) (rs : PyDict String (Option Int)) (w : PyDict.WF rs)
    (s : LoadState V A S) (n : Node V A) (hn : s.nodes[a]? = some n)
    (h : ∀ k i, rs.get? k = some (some i) → ∃ r, pyGet nodes i = .ok r ∧ Reachable s.nodes a r) :
    ∃ d', loopE (loadRef nodes a) rs s =
        ({ s with nodes := s.nodes.modify a fun _ => { n with refs := d' } }, .ok ()) ∧
      (∀ k, rs.get? k = some none → d'.get? k = some none) ∧
      (∀ k i, rs.get? k = some (some i) → ∃ r, pyGet nodes i = .ok r ∧ d'.get? k = some (some r)) ∧
      (∀ k, rs.get? k = none → d'.get? k = n.refs.get? k) ∧
      (PyDict.WF n.refs → PyDict.WF d') := by
  induction rs generalizing s n with
  | nil => exact ⟨n.refs, by simp [loopE, put_self s.nodes a n hn], by simp [PyDict.get?],
      by simp [PyDict.get?], fun k _ => rfl, id⟩
  | cons p rs ih =>
    obtain ⟨k0, o⟩ := p
    obtain ⟨w', hk0⟩ := dict_cons w
    -- the value set
    obtain ⟨val, hstep, hval0, hval1⟩ : ∃ val : Option Addr,
        loadRef nodes a s (k0, o) =
          ({ s with nodes := s.nodes.modify a fun _ => { n with refs := n.refs.set k0 val } }, .ok ()) ∧
        (o = none → val = none) ∧ (∀ i, o = some i → ∃ r, pyGet nodes i = .ok r ∧ val = some r) := by
      have hmod : ∀ val : Option Addr, (s.nodes.modify a fun n => { n with refs := n.refs.set k0 val }) =
          s.nodes.modify a fun _ => { n with refs := n.refs.set k0 val } := by
        intro val
        apply heap_ext
        intro b
        rw [Heap.get_modify, Heap.get_modify]
        by_cases hb : a = b
        · subst hb; simp [hn]
        · simp [hb]
      cases o with
      | none => exact ⟨none, by simp [loadRef, setRef, hmod], fun _ => rfl, by simp⟩
      | some i =>
        obtain ⟨r, hr, hreach⟩ := h k0 i (by simp [PyDict.get?_cons])
        refine ⟨some r, ?_, by simp, fun i' hi' => ⟨r, by simp at hi'; subst hi'; exact hr, rfl⟩⟩
        simp [loadRef, hr, setRef, mem_walkBfs, hreach, hmod]
    let n1 : Node V A := { n with refs := n.refs.set k0 val }
    have hn1 : (s.nodes.modify a fun _ => n1)[a]? = some n1 := by rw [get_put s.nodes a a n n1 hn]; simp
    obtain ⟨d', h1, h2, h3, h4, h5⟩ := ih w' { s with nodes := s.nodes.modify a fun _ => n1 } n1 hn1 (by
      intro k i hki
      have hne : k0 ≠ k := by rintro rfl; rw [hk0] at hki; simp at hki
      obtain ⟨r, hr, hre⟩ := h k i (by simp [PyDict.get?_cons, hne, hki])
      exact ⟨r, hr, (Reachable.congr (layersOf_put s.nodes a n n1 hn rfl) a r).2 hre⟩)
    refine ⟨d', ?_, ?_, ?_, ?_, fun wn => h5 (wn.set _ _)⟩
    · simp only [loopE, hstep]
      rw [h1, put_put s.nodes a n n1 _ hn]
    · intro k hk
      rw [PyDict.get?_cons] at hk
      by_cases hkk : k0 = k
      · subst hkk
        simp at hk
        rw [h4 k0 hk0]; simp [n1, hval0 hk]
      · rw [if_neg hkk] at hk; exact h2 k hk
    · intro k i hk
      rw [PyDict.get?_cons] at hk
      by_cases hkk : k0 = k
      · subst hkk
        simp at hk
        obtain ⟨r, hr, hv⟩ := hval1 i hk
        exact ⟨r, hr, by rw [h4 k0 hk0]; simp [n1, hv]⟩
      · rw [if_neg hkk] at hk; exact h3 k i hk
    · intro k hk
      rw [PyDict.get?_cons] at hk
      by_cases hkk : k0 = k
      · simp [hkk] at hk
      · rw [if_neg hkk] at hk
        rw [h4 k hk]; simp [n1, PyDict.get?_set_ne _ hkk]

theorem loadShims_spec (ops : SerOps V A S B Sh) (ts : List Addr) (bs : List B) (s : LoadState V A S)
    (hlen : bs.length = ts.length) (ht : ∀ t : Nat, t ∈ ts → t < s.shims.length)
    (h : ∀ b ∈ bs, ∃ x', ∀ x, ops.fromBytes x b = .ok x') :
    ∃ sh', loadShims ops ts bs s = ({ s with shims := sh' }, .ok ()) ∧ sh'.length = s.shims.length ∧
      (∀ t : Nat, t ∉ ts → sh'[t]? = s.shims[t]?) ∧
      (∀ (P : Addr → S → Prop), (∀ (i : Nat) t b x', ts[i]? = some t → bs[i]? = some b →
          (∀ x, ops.fromBytes x b = .ok x') → P t x') →
        ∀ t : Nat, t ∈ ts → ∃ x, sh'[t]? = some x ∧ P t x) := by
  induction ts generalizing bs s with
  | nil =>
    have : bs = [] := List.length_eq_zero_iff.1 hlen
    subst this
    exact ⟨s.shims, rfl, rfl, fun _ _ => rfl, by simp⟩
  | cons t ts ih =>
    cases bs with
    | nil => simp at hlen
    | cons b bs =>
      have htl := ht t (by simp)
      obtain ⟨x', hx'⟩ := h b (by simp)
      obtain ⟨sh', h1, h2, h3, h4⟩ := ih bs { s with shims := s.shims.set t x' } (by simpa using hlen)
        (by intro t' ht'; simpa using ht t' (by simp [ht'])) (fun b' hb' => h b' (by simp [hb']))
      refine ⟨sh', ?_, by simpa using h2, ?_, ?_⟩
      · simp only [loadShims, List.getElem?_eq_getElem htl, hx', h1]
      · intro t' ht'
        simp only [List.mem_cons, not_or] at ht'
        rw [h3 t' ht'.2]
        simp only [List.getElem?_set]
        rw [if_neg (Ne.symm ht'.1)]
      · intro P hP t' ht'
        by_cases hin : t' ∈ ts
        · exact h4 P (fun i t b x' h1 h2 h3 => hP (i + 1) t b x' (by simpa using h1) (by simpa using h2) h3) t' hin
        · have : t' = t := by rcases List.mem_cons.1 ht' with h | h; exact h; exact absurd h hin
          subst this
          refine ⟨x', ?_, hP 0 t' b x' rfl rfl hx'⟩
          rw [h3 t' hin]
          simp [htl]

end Thinc
