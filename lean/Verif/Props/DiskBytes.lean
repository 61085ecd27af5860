import Verif.Props.Disk
import Verif.Lemmas.DiskKeys
/-!
# C124: the bytes of a model that was loaded from bytes
-/
namespace Thinc
open Spec
open scoped List
open Wrapped (Bytes Codec)
variable {V A S B Sh H : Type}

theorem hasName_mem {κ α : Type} [DecidableEq κ] {d e : PyDict κ (Option α)} {f : Option (Option α) → Option Bool}
    (hf : ∀ o, f o = some false ↔ o = none) (h : ∀ k, f (d.get? k) = f (e.get? k)) (k : κ) : k ∈ d.keys ↔ k ∈ e.keys := by
  rw [PyDict.mem_keys_iff, PyDict.mem_keys_iff]
  have h1 := hf (d.get? k)
  have h2 := hf (e.get? k)
  rw [h k] at h1
  have := h1.symm.trans h2
  cases hd : d.get? k <;> cases he : e.get? k <;> simp_all

/-- The three answers of `has_dim`, `has_ref` and `has_param`. -/
def hasAnswer {α : Type} : Option (Option α) → Option Bool
  | none => some false
  | some (some _) => some true
  | some none => none

theorem hasAnswer_none {α : Type} (o : Option (Option α)) : hasAnswer o = some false ↔ o = none := by
  rcases o with _ | _ | _ <;> simp [hasAnswer]

theorem hasDim_answer (n : Node V A) (k : String) : n.hasDim k = hasAnswer (n.dims.get? k) := by
  unfold Node.hasDim hasAnswer
  rcases n.dims.get? k with _ | _ | _ <;> rfl

theorem hasRef_answer (n : Node V A) (k : String) : n.hasRef k = hasAnswer (n.refs.get? k) := by
  unfold Node.hasRef hasAnswer
  rcases n.refs.get? k with _ | _ | _ <;> rfl

theorem hasParam_answer (n : Node V A) (k : String) : n.hasParam k = hasAnswer (n.hasParams.get? k) := by
  unfold Node.hasParam hasAnswer
  rcases n.hasParams.get? k with _ | _ | _ <;> rfl

/-- After loading, the names of a node are in the order in which they were. -/
theorem order_after {φ : Addr → Addr} {n m m' : Node V A} (ho : SameOrder n m) (hg : KeysGrow m m') (hw : m.WF) (hs : SameData φ n m') :
    SameOrder n m' := by
  obtain ⟨w, h1, h2, h3, h4⟩ := hg
  have w := w hw
  refine ⟨?_, ?_, ?_, ?_⟩
  · rw [← ho.dims]
    refine (prefix_eq h1 w.dims fun x hx => ?_).symm
    rw [ho.dims]
    exact (hasName_mem hasAnswer_none (fun k => by rw [← hasDim_answer, ← hasDim_answer, hs.hasDim k]) x).1 hx
  · rw [← ho.refs]
    refine (prefix_eq h2 w.refs fun x hx => ?_).symm
    rw [ho.refs]
    exact (hasName_mem hasAnswer_none (fun k => by rw [← hasRef_answer, ← hasRef_answer, hs.hasRef k]) x).1 hx
  · rw [← ho.attrs]
    refine (prefix_eq h3 w.attrs fun x hx => ?_).symm
    rw [ho.attrs]
    rw [PyDict.mem_keys_iff] at hx ⊢
    rw [← hs.attrs x]
    exact hx
  · rw [← ho.params]
    refine (prefix_eq h4 w.hasParams fun x hx => ?_).symm
    rw [ho.params]
    exact (hasName_mem hasAnswer_none (fun k => by rw [← hasParam_answer, ← hasParam_answer, hs.hasParam k]) x).1 hx

theorem forall₂_get {α β : Type} {R : α → β → Prop} {l : List α} {l' : List β} (h : List.Forall₂ R l l') {i : Nat} {x : α} {y : β}
    (hx : l[i]? = some x) (hy : l'[i]? = some y) : R x y := by
  induction h generalizing i with
  | nil => cases hx
  | cons hr _ ih =>
    cases i with
    | zero => cases hx; cases hy; exact hr
    | succ i => exact ih (by simpa using hx) (by simpa using hy)

theorem forall₂_eq_of_get {α : Type} {R : α → α → Prop} {l l' : List α} (h : List.Forall₂ R l l')
    (he : ∀ (i : Nat) x y, l[i]? = some x → l'[i]? = some y → R x y → x = y) : l = l' := by
  refine List.ext_getElem? fun i => ?_
  by_cases hi : i < l.length
  · have hi' : i < l'.length := by rw [← h.length_eq]; exact hi
    rw [List.getElem?_eq_getElem hi, List.getElem?_eq_getElem hi']
    exact congrArg some (he i _ _ (List.getElem?_eq_getElem hi) (List.getElem?_eq_getElem hi')
      (forall₂_get h (List.getElem?_eq_getElem hi) (List.getElem?_eq_getElem hi')))
  · have hi' : ¬ i < l'.length := by rw [← h.length_eq]; exact hi
    rw [List.getElem?_eq_none (by omega), List.getElem?_eq_none (by omega)]

/-- C124 (the same bytes; the docstrings of `to_bytes` and `from_bytes`: "the same bytes should result from loading and serializing a
model").  In the situation of `C09_round_trip_partial`, if moreover the nodes of the target list the names of their dims, references,
attributes and parameters in the order of their counterparts, then the bytes of the source model can be loaded into the target, which then has
the source's data, and the bytes of the target are the very same bytes.  Missing from the full claim: models with their names in another order;
`C124_order_wrong` (Props/DiskWrong.lean) shows that it fails for them, and `C09_sibling_ref_counterexample` for references to siblings. -/
theorem C124_same_bytes_partial (ops : SerOps V A S B Sh) (io : ArrayIO V H) (msgpack : Codec (Msg H B)) (hm : CutDetecting msgpack)
    (hio : SameArrays io) (s s' : LoadState V A S) (self self' : Addr)
    (φ ψ : Addr → Addr) (hs : Serializable ops s self) (hs' : Serializable ops s' self')
    (hrefs : ∀ (a : Addr) n name r, Reachable s.nodes self a → s.nodes[a]? = some n → n.getRef name = .ok r →
      Reachable s.nodes a r)
    (iso : GraphIso s.nodes self s'.nodes self' φ)
    (hcomp : ∀ (a : Addr) n m, Reachable s.nodes self a → s.nodes[a]? = some n → s'.nodes[φ a]? = some m →
      Compatible ops ψ n m ∧ SameOrder n m)
    (hψ : ∀ (a b : Addr) n m t u, Reachable s.nodes self a → Reachable s.nodes self b → s.nodes[a]? = some n →
      s.nodes[b]? = some m → t ∈ n.shims → u ∈ m.shims → ψ t = ψ u → t = u)
    (hbytes : ∀ x y b, ops.toBytes x = .ok b → ops.fromBytes y b = .ok x) :
    ∃ data s'', modelToBytes ops io msgpack s self = .ok data ∧ modelFromBytes ops io msgpack s' self' data = (s'', .ok ()) ∧
      (∀ (a : Addr) n, Reachable s.nodes self a → s.nodes[a]? = some n →
        ∃ m, s''.nodes[φ a]? = some m ∧ SameData φ n m ∧ ∀ t ∈ n.shims, s''.shims[ψ t]? = s.shims[t]?) ∧
      modelToBytes ops io msgpack s'' self' = .ok data := by
  obtain ⟨msg, s'', msg', h1, h2, h3, _, _, h6, h7⟩ := C09_round_trip_partial ops s s' self self' φ ψ hs hs' hrefs iso
    (fun a n m ha hn hm => (hcomp a n m ha hn hm).1) hψ hbytes
  have hex : ∀ a, Reachable s.nodes self a → ∃ n, s.nodes[a]? = some n := fun a ha =>
    ⟨_, List.getElem?_eq_getElem (reachable_lt hs.closed hs.self_lt ha)⟩
  have hframe := (C11_failed_load_partial ops s' self' msg).2
  have hkeys := stKeys_fromDict ops s' self' msg
  rw [h2] at hframe hkeys
  obtain ⟨_, hnode, hcount⟩ := hframe
  have hlayers : ∀ a, layersOf s''.nodes a = layersOf s'.nodes a := by
    intro a
    unfold layersOf
    cases hn : s'.nodes[a]? with
    | some n =>
      obtain ⟨n', hn', _, hl, _⟩ := hnode a n hn
      rw [hn']
      simp only [hl]
    | none =>
      have : s''.nodes[a]? = none := by
        rw [List.getElem?_eq_none_iff, hcount.1]
        exact List.getElem?_eq_none_iff.1 hn
      rw [this]
  have hwalk : walkBfs s''.nodes self' = (walkBfs s.nodes self).map φ := by
    rw [walkBfs_congr hlayers]
    exact walkBfs_iso iso hex
  obtain ⟨infos, e1, l1, l2, l3, g⟩ := toDict_keys h1
  obtain ⟨infos', e1', l1', l2', l3', g'⟩ := toDict_keys h6
  rw [hwalk, List.length_map] at l1' l2' l3'
  have hone : ∀ (i : Nat), i < (walkBfs s.nodes self).length → ∃ n info at' pa info' at'' pa', n.WF ∧ infos[i]? = some info ∧
      msg.attrs[i]? = some at' ∧ msg.params[i]? = some pa ∧ infos'[i]? = some info' ∧ msg'.attrs[i]? = some at'' ∧ msg'.params[i]? = some pa' ∧
      (info.dims.keys <+ (n : Node V A).dims.keys ∧ info.refs.keys <+ n.refs.keys ∧ at'.keys <+ n.attrs.keys ∧ pa.keys <+ n.hasParams.keys) ∧
      info'.dims.keys <+ n.dims.keys ∧ info'.refs.keys <+ n.refs.keys ∧ at''.keys <+ n.attrs.keys ∧ pa'.keys <+ n.hasParams.keys := by
    intro i hi
    have hWi := List.getElem?_eq_getElem hi
    generalize (walkBfs s.nodes self)[i] = a at hWi
    have ha : Reachable s.nodes self a := (mem_walkBfs _ _ _).1 (List.mem_of_getElem? hWi)
    obtain ⟨n, hn⟩ := hex a ha
    obtain ⟨info, at', pa, q1, q2, q3, q4, q5, q6, q7⟩ := g i a n hWi hn
    obtain ⟨m', hm', hsame, _⟩ := h3 a n ha hn
    obtain ⟨info', at'', pa', r1, r2, r3, r4, r5, r6, r7⟩ := g' i (φ a) m' (by rw [hwalk, List.getElem?_map, hWi]; rfl) hm'
    obtain ⟨m, hm0, hl⟩ := iso.layers a n ha hn
    obtain ⟨m'', hm'', hgrow⟩ := hkeys (φ a) m hm0
    rw [hm'] at hm''
    cases hm''
    have ho := order_after (hcomp a n m ha hn hm0).2 hgrow (hs'.wf (φ a) m hm0) hsame
    rw [ho.dims] at r4
    rw [ho.refs] at r5
    rw [ho.attrs] at r6
    rw [ho.params] at r7
    exact ⟨n, info, at', pa, info', at'', pa', hs.wf a n hn, q1, q2, q3, r1, r2, r3, ⟨q4, q5, q6, q7⟩, r4, r5, r6, r7⟩
  obtain ⟨⟨x, x', y1, y2, y3⟩, z1, z2, z3⟩ := h7
  rw [e1] at y1
  cases y1
  rw [e1'] at y2
  cases y2
  have hmsg : msg = msg' := by
    have n1 : infos = infos' := by
      refine forall₂_eq_of_get y3 fun i u v hu hv hr => ?_
      obtain ⟨n, info, at', pa, info', at'', pa', w, q1, q2, q3, r1, r2, r3, ⟨q4, q5, q6, q7⟩, r4, r5, r6, r7⟩ :=
        hone i (by rw [← l1]; exact (List.getElem?_eq_some_iff.1 hu).1)
      rw [hu] at q1; cases q1
      rw [hv] at r1; cases r1
      obtain ⟨c1, c2, c3⟩ := hr
      have d1 := dict_eq_of_sublist w.dims q4 r4 c2
      have d2 := dict_eq_of_sublist w.refs q5 r5 c3
      cases u; cases v
      simp only at c1 d1 d2
      rw [c1, d1, d2]
    have n2 : msg.attrs = msg'.attrs := by
      refine forall₂_eq_of_get z1 fun i u v hu hv hr => ?_
      obtain ⟨n, info, at', pa, info', at'', pa', w, q1, q2, q3, r1, r2, r3, ⟨q4, q5, q6, q7⟩, r4, r5, r6, r7⟩ :=
        hone i (by rw [← l2]; exact (List.getElem?_eq_some_iff.1 hu).1)
      rw [hu] at q2; cases q2
      rw [hv] at r2; cases r2
      exact dict_eq_of_sublist w.attrs q6 r6 hr
    have n3 : msg.params = msg'.params := by
      refine forall₂_eq_of_get z2 fun i u v hu hv hr => ?_
      obtain ⟨n, info, at', pa, info', at'', pa', w, q1, q2, q3, r1, r2, r3, ⟨q4, q5, q6, q7⟩, r4, r5, r6, r7⟩ :=
        hone i (by rw [← l3]; exact (List.getElem?_eq_some_iff.1 hu).1)
      rw [hu] at q3; cases q3
      rw [hv] at r3; cases r3
      exact dict_eq_of_sublist w.hasParams q7 r7 hr
    cases msg; cases msg'
    simp only at e1 e1' n2 n3 z3
    rw [e1, e1', n1, n2, n3, z3]
  subst hmsg
  refine ⟨msgpack.dumps (msg.mapArrays io.toNumpyLe), s'', by simp only [modelToBytes, h1], ?_, h3, by simp only [modelToBytes, h6]⟩
  simp only [modelFromBytes, hm.same, mapArrays_id msg io hio]
  exact h2

end Thinc
