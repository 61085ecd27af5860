import Verif.Lemmas.ToDict
namespace Thinc
open Spec
variable {V A S B Sh : Type}

theorem onNode_eq (a : Addr) (f : Node V A → Node V A × Except PyErr Unit) (s : LoadState V A S)
    (n m : Node V A) (hn : s.nodes[a]? = some n) (hf : f n = (m, .ok ())) :
    onNode a f s = ({ s with nodes := s.nodes.modify a fun _ => m }, .ok ()) := by
  simp [onNode, hn, hf]

/-- What loading one node's entry does to the node. -/
structure NodeLoaded (ops : SerOps V A S B Sh) (nodes : List Addr) (info : NodeInfo) (attrs : PyDict String B)
    (params : PyDict String (Option V)) (n m : Node V A) : Prop where
  wf : m.WF
  name : m.name = info.name
  id : m.id = n.id
  layers : m.layers = n.layers
  shims : m.shims = n.shims
  grads : m.grads = n.grads
  dims : ∀ k, m.dims.get? k = match info.dims.get? k with | some (some v) => some (some v) | _ => n.dims.get? k
  refsNone : ∀ k, info.refs.get? k = some none → m.refs.get? k = some none
  refsSome : ∀ k i, info.refs.get? k = some (some i) → ∃ r, pyGet nodes i = .ok r ∧ m.refs.get? k = some (some r)
  refsOther : ∀ k, info.refs.get? k = none → m.refs.get? k = n.refs.get? k
  attrsSome : ∀ k b, attrs.get? k = some b → ∃ v, ops.deser (n.attrs.get? k) b = .ok v ∧ m.attrs.get? k = some v
  attrsOther : ∀ k, attrs.get? k = none → m.attrs.get? k = n.attrs.get? k
  hasParams : ∀ k, m.hasParams.get? k =
    match params.get? k with | some o => some (o.map fun _ => ()) | none => n.hasParams.get? k
  params : ∀ k, m.params.get? (n.id, k) =
    match params.get? k with | some (some v) => some v | _ => n.params.get? (n.id, k)

/-- Conditions under which loading one entry succeeds. -/
structure Loadable (ops : SerOps V A S B Sh) (s : LoadState V A S) (nodes : List Addr) (a : Addr) (n : Node V A)
    (info : NodeInfo) (attrs : PyDict String B) (params : PyDict String (Option V)) (bs : List B) : Prop where
  wf : n.WF
  dimsWF : PyDict.WF info.dims
  refsWF : PyDict.WF info.refs
  attrsWF : PyDict.WF attrs
  paramsWF : PyDict.WF params
  dims : ∀ k v, info.dims.get? k = some (some v) → n.dims.get? k = some none ∨ n.dims.get? k = some (some v)
  refs : ∀ k i, info.refs.get? k = some (some i) → ∃ r, pyGet nodes i = .ok r ∧ Reachable s.nodes a r
  attrs : ∀ k b, attrs.get? k = some b → ∃ v, ops.deser (n.attrs.get? k) b = .ok v
  shimsLen : bs.length = n.shims.length
  shims : ∀ t : Nat, t ∈ n.shims → t < s.shims.length
  fromBytes : ∀ b ∈ bs, ∃ x', ∀ x, ops.fromBytes x b = .ok x'

theorem loadNode_ok (ops : SerOps V A S B Sh) (s : LoadState V A S) (nodes : List Addr) (msg : Msg V B)
    (infos : List NodeInfo) (i : Nat) (a : Addr) (n : Node V A) (info : NodeInfo) (attrs : PyDict String B)
    (params : PyDict String (Option V)) (bs : List B) (hn : s.nodes[a]? = some n)
    (h1 : infos[i]? = some info) (h2 : msg.attrs[i]? = some attrs) (h3 : msg.params[i]? = some params)
    (h4 : msg.shims[i]? = some bs) (hl : Loadable ops s nodes a n info attrs params bs) :
    ∃ m sh', loadNode ops nodes msg infos s (i, a) =
        ({ nodes := s.nodes.modify a fun _ => m, shims := sh' }, .ok ()) ∧
      NodeLoaded ops nodes info attrs params n m ∧
      sh'.length = s.shims.length ∧ (∀ t : Nat, t ∉ n.shims → sh'[t]? = s.shims[t]?) ∧
      (∀ (P : Addr → S → Prop), (∀ (i : Nat) t b x', n.shims[i]? = some t → bs[i]? = some b →
          (∀ x, ops.fromBytes x b = .ok x') → P t x') →
        ∀ t : Nat, t ∈ n.shims → ∃ x, sh'[t]? = some x ∧ P t x) := by
  -- name
  let n1 : Node V A := { n with name := info.name }
  let s1 : LoadState V A S := { s with nodes := s.nodes.modify a fun _ => n1 }
  have e1 : onNode a (fun n : Node V A => ({ n with name := info.name }, .ok ())) s = (s1, .ok ()) :=
    onNode_eq a _ s n n1 hn rfl
  have g1 : s1.nodes[a]? = some n1 := by simp only [s1]; rw [get_put s.nodes a a n n1 hn]; simp
  -- dims
  obtain ⟨d, e2', d1, d2⟩ := loadDims_spec info.dims hl.dimsWF n1 hl.dims
  let n2 : Node V A := { n1 with dims := d }
  let s2 : LoadState V A S := { s with nodes := s.nodes.modify a fun _ => n2 }
  have e2 : onNode a (loopE loadDim info.dims) s1 = (s2, .ok ()) := by
    rw [onNode_eq a _ s1 n1 n2 g1 e2']
    simp only [s1, s2, put_put s.nodes a n n1 n2 hn]
  have g2 : s2.nodes[a]? = some n2 := by simp only [s2]; rw [get_put s.nodes a a n n2 hn]; simp
  -- refs
  obtain ⟨rf, e3', r1, r2, r3, r4⟩ := loadRefs_spec nodes a info.refs hl.refsWF s2 n2 g2 (by
    intro k j hk
    obtain ⟨r, hr, hre⟩ := hl.refs k j hk
    exact ⟨r, hr, (Reachable.congr (layersOf_put s.nodes a n n2 hn rfl) a r).2 hre⟩)
  let n3 : Node V A := { n2 with refs := rf }
  let s3 : LoadState V A S := { s with nodes := s.nodes.modify a fun _ => n3 }
  have e3 : loopE (loadRef nodes a) info.refs s2 = (s3, .ok ()) := by
    rw [e3']
    simp only [s2, s3, put_put s.nodes a n n2 _ hn]
    rfl
  have g3 : s3.nodes[a]? = some n3 := by simp only [s3]; rw [get_put s.nodes a a n n3 hn]; simp
  -- attrs
  obtain ⟨at', e4', a1, a2, a3⟩ := loadAttrs_spec ops attrs hl.attrsWF n3 hl.attrs
  let n4 : Node V A := { n3 with attrs := at' }
  let s4 : LoadState V A S := { s with nodes := s.nodes.modify a fun _ => n4 }
  have e4 : onNode a (loopE (loadAttr ops) attrs) s3 = (s4, .ok ()) := by
    rw [onNode_eq a _ s3 n3 n4 g3 e4']
    simp only [s3, s4, put_put s.nodes a n n3 n4 hn]
  have g4 : s4.nodes[a]? = some n4 := by simp only [s4]; rw [get_put s.nodes a a n n4 hn]; simp
  -- params
  obtain ⟨hp, pa, e5', p1, p2, p3, p4⟩ := loadParams_spec params hl.paramsWF n4
  let n5 : Node V A := { n4 with hasParams := hp, params := pa }
  let s5 : LoadState V A S := { s with nodes := s.nodes.modify a fun _ => n5 }
  have e5 : onNode a (loopE loadParam params) s4 = (s5, .ok ()) := by
    rw [onNode_eq a _ s4 n4 n5 g4 e5']
    simp only [s4, s5, put_put s.nodes a n n4 n5 hn]
  have g5 : s5.nodes[a]? = some n5 := by simp only [s5]; rw [get_put s.nodes a a n n5 hn]; simp
  -- shims
  obtain ⟨sh', e6, q1, q2, q3⟩ := loadShims_spec ops n.shims bs s5 hl.shimsLen hl.shims hl.fromBytes
  refine ⟨n5, sh', ?_, ?_, q1, q2, q3⟩
  · simp only [loadNode, h1]
    rw [seqE_ok e1, seqE_ok e2, seqE_ok e3, seqE_ok (by simp only [h2]; exact e4),
      seqE_ok (by simp only [h3]; exact e5)]
    simp only [h4, g5]
    exact e6
  · have w := hl.wf
    exact ⟨⟨r4 w.refs, d2 w.dims, p3 w.hasParams, p4 w.params, w.grads, a3 w.attrs⟩, rfl, rfl, rfl, rfl, rfl, d1,
      r1, r2, r3, a1, a2, p1, p2⟩

/-! ## Graph isomorphism and walking -/

/-- `φ` maps the layer graph of `r` in `h` one-to-one onto that of `r'` in `h'`, preserving the
order of layers. -/
structure Spec.GraphIso (h : Heap V A) (r : Addr) (h' : Heap V A) (r' : Addr) (φ : Addr → Addr) : Prop where
  root : φ r = r'
  inj : ∀ a b, Reachable h r a → Reachable h r b → φ a = φ b → a = b
  layers : ∀ (a : Addr) n, Reachable h r a → h[a]? = some n → ∃ n', h'[φ a]? = some n' ∧ n'.layers = n.layers.map φ

theorem bfsLoop_iso {h h' : Heap V A} {r r' : Addr} {φ : Addr → Addr} (iso : GraphIso h r h' r' φ)
    (hex : ∀ a, Reachable h r a → ∃ n, h[a]? = some n) (q seen : List Addr)
    (hq : ∀ a ∈ q, Reachable h r a) (hseen : ∀ a ∈ seen, Reachable h r a) :
    bfsLoop h' (q.map φ) (seen.map φ) = (bfsLoop h q seen).map φ := by
  revert hq hseen
  induction q, seen using bfsLoop.induct h with
  | case1 seen => intro _ _; unfold bfsLoop; rfl
  | case2 seen node rest hin ih =>
    intro hq hseen
    rw [List.map_cons]
    unfold bfsLoop
    rw [if_pos (List.mem_map_of_mem hin), if_pos hin]
    exact ih (fun a ha => hq a (by simp [ha])) hseen
  | case3 seen node rest hin ih =>
    intro hq hseen
    have hnode := hq node (by simp)
    obtain ⟨n, hn⟩ := hex node hnode
    obtain ⟨n', hn', hl⟩ := iso.layers node n hnode hn
    have hnin : φ node ∉ seen.map φ := by
      intro hm
      obtain ⟨b, hb, hbe⟩ := List.mem_map.1 hm
      have := iso.inj b node (hseen b hb) hnode hbe
      subst this; exact hin hb
    rw [List.map_cons]
    unfold bfsLoop
    rw [if_neg hnin, if_neg hin, List.map_cons]
    have hlay : layersOf h' (φ node) = (layersOf h node).map φ := by simp [layersOf, hn, hn', hl]
    rw [hlay, ← List.map_append, ← List.map_cons]
    congr 1
    refine ih ?_ ?_
    · intro a ha
      rcases List.mem_append.1 ha with ha | ha
      · exact hq a (by simp [ha])
      · exact Relation.ReflTransGen.tail hnode ((child_iff _ _ _).2 ha)
    · intro a ha
      rcases List.mem_cons.1 ha with rfl | ha
      · exact hnode
      · exact hseen a ha

theorem walkBfs_iso {h h' : Heap V A} {r r' : Addr} {φ : Addr → Addr} (iso : GraphIso h r h' r' φ)
    (hex : ∀ a, Reachable h r a → ∃ n, h[a]? = some n) : walkBfs h' r' = (walkBfs h r).map φ := by
  have := bfsLoop_iso iso hex [r] [] (by simp; exact Relation.ReflTransGen.refl) (by simp)
  simpa [walkBfs, iso.root] using this

theorem reachable_iso {h h' : Heap V A} {r r' : Addr} {φ : Addr → Addr} (iso : GraphIso h r h' r' φ)
    {a b : Addr} (ha : Reachable h r a) (hab : Reachable h a b) : Reachable h' (φ a) (φ b) := by
  induction hab with
  | refl => exact Relation.ReflTransGen.refl
  | @tail b c hb hc ih =>
    obtain ⟨n, hn, hl⟩ := hc
    obtain ⟨n', hn', hl'⟩ := iso.layers b n (Reachable.trans ha hb) hn
    exact Relation.ReflTransGen.tail ih ⟨n', hn', by rw [hl']; exact List.mem_map_of_mem hl⟩

theorem idxOf_map {φ : Addr → Addr} (l : List Addr) (r : Addr) (hr : r ∈ l)
    (hinj : ∀ a ∈ l, φ a = φ r → a = r) : (l.map φ).idxOf (φ r) = l.idxOf r := by
  induction l with
  | nil => simp at hr
  | cons x l ih =>
    rw [List.map_cons]
    by_cases hx : x = r
    · subst hx; simp
    · have hne : φ x ≠ φ r := fun h => hx (hinj x (by simp) h)
      rw [List.idxOf_cons_ne _ hne, List.idxOf_cons_ne _ hx]
      rcases List.mem_cons.1 hr with h | h
      · exact absurd h.symm hx
      · rw [ih h (fun a ha => hinj a (by simp [ha]))]

theorem pyGet_idxOf (l : List Addr) (r : Addr) (hr : r ∈ l) : pyGet l (l.idxOf r : Int) = .ok r := by
  have hlt := List.idxOf_lt_length_of_mem hr
  have h : l[l.idxOf r]? = some r := List.getElem?_idxOf hr
  unfold pyGet
  have : ¬ ((l.idxOf r : Int) < 0) := by omega
  simp only [this, if_false, Int.toNat_natCast, h]

end Thinc
