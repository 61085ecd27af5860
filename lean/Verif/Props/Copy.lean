import Verif.Lemmas.Copy
import Verif.Props.Walk
/-!
# C08: `Model.copy`
-/
namespace Thinc
open Spec
variable {V A S : Type}

/-- C08. Let the layer graph be acyclic, all objects well formed, and all ids in use at most the
global counter `g`.  With enough stack, `copy()` of `self` succeeds, and there is a one-to-one
correspondence `φ` between the nodes reachable from `self` and their copies such that:
the copy of `self` is the returned model; every copy is a new object with a new id, greater than
every id handed out before, and different copies have different ids; the layers of a copy are the
copies of the layers, in the same order (so sharing is preserved in both directions); names, dims,
attrs, parameters and gradients are equal; shims are copied one-to-one with equal contents; and
every object that existed before is unchanged.  (References are not copied: `SameContents.refs`.) -/
theorem C08_copy (h : Heap V A) (sh : List S) (g : Nat) (self : Addr) (depth : Nat)
    (hself : (self : Nat) < h.length)
    (hac : Acyclic h) (w : h.WF)
    (hpar : ∀ (a : Addr) n, h[a]? = some n → n.ParamsOk)
    (hcl : ∀ (a : Addr) n, h[a]? = some n → (∀ l : Nat, l ∈ n.layers → l < h.length) ∧
      ∀ t : Nat, t ∈ n.shims → t < sh.length)
    (hdepth : h.length < depth) :
    ∃ (s : CopyState V A S) (c : Addr) (φ ψ : Addr → Addr),
      copyModel depth h sh g self = (s, .ok c) ∧ φ self = c ∧
      (∀ a b, Reachable h self a → Reachable h self b → φ a = φ b → a = b) ∧
      (∀ (a : Addr) n, Reachable h self a → h[a]? = some n →
        ∃ m, s.nodes[φ a]? = some m ∧ h.length ≤ φ a ∧ g < m.id ∧ m.id ≤ s.globalId ∧
          SameContents n m ∧ m.layers = n.layers.map φ ∧ m.shims = n.shims.map ψ ∧
          ∀ t ∈ n.shims, sh.length ≤ ψ t ∧ s.shims[ψ t]? = sh[t]? ∧
            ∀ (b : Addr) n', Reachable h self b → h[b]? = some n' → ∀ t' ∈ n'.shims, ψ t = ψ t' → t = t') ∧
      (∀ a b m m', Reachable h self a → Reachable h self b → a ≠ b → s.nodes[φ a]? = some m →
        s.nodes[φ b]? = some m' → m.id ≠ m'.id) ∧
      (∀ a : Nat, a < h.length → s.nodes[a]? = h[a]?) ∧
      (∀ t : Nat, t < sh.length → s.shims[t]? = sh[t]?) := by
  have i0 : CopyInv h sh g ({ nodes := h, shims := sh, globalId := g } : CopyState V A S) :=
    ⟨fun _ _ => rfl, Nat.le_refl _, rfl, by
      intro i n hi hn; rw [List.getElem?_eq_none hi] at hn; simp at hn,
      fun _ _ => rfl, Nat.le_refl _, by intro a c h; simp [PyDict.get?] at h,
      by intro a b c h; simp [PyDict.get?] at h, by intro a c h; simp [PyDict.get?] at h,
      by intro a b c h; simp [PyDict.get?] at h⟩
  obtain ⟨s, c, h1, i, e, c1, c2, c3, c4, c5⟩ := copyNode_spec hac w hpar hcl depth self hself
    (fun k b hp => Nat.lt_of_le_of_lt (acyclic_path_bound hac hp) hdepth) _ i0
  have hns : s.seen.get? self = none := by
    cases hs : s.seen.get? self with
    | none => rfl
    | some y =>
      rcases c5 self (by simp [hs]) with h | h
      · simp [PyDict.get?] at h
      · exact absurd h (hac self)
  let φ : Addr → Addr := fun a => if a = self then c else (s.seen.get? a).getD 0
  let ψ : Addr → Addr := fun t => (s.seenShims.get? t).getD 0
  -- every reachable node is the root or in `seen`
  have hreach : ∀ a, Reachable h self a → (a = self ∨ ∃ y, s.seen.get? a = some y) ∧ CopyOf h s a (φ a) := by
    intro a ha
    induction ha with
    | refl => exact ⟨Or.inl rfl, by simpa [φ] using c3⟩
    | @tail b x hb hx ih =>
      obtain ⟨-, n, m, q1, q2, q3, q4, q5⟩ := ih
      obtain ⟨n', hn', hl⟩ := hx
      rw [q1] at hn'; injection hn' with hn'; subst hn'
      have hy : ∃ y, s.seen.get? x = some y := by
        clear q2 q3 q5 q1
        revert hl
        generalize n.layers = l at q4 ⊢
        generalize m.layers = l2 at q4
        induction q4 with
        | nil => intro hl; simp at hl
        | @cons u v l l' huv _ ih =>
          intro hl
          rcases List.mem_cons.1 hl with rfl | hl
          · exact ⟨v, huv⟩
          · exact ih hl
      obtain ⟨y, hy⟩ := hy
      refine ⟨Or.inr ⟨y, hy⟩, ?_⟩
      have hne : x ≠ self := by rintro rfl; simp [hns] at hy
      simp only [φ, if_neg hne, hy, Option.getD_some]
      exact (i.seen x y hy).2.2.2
  have hφ : ∀ x y, s.seen.get? x = some y → φ x = y := by
    intro x y hy
    have hne : x ≠ self := by rintro rfl; simp [hns] at hy
    simp [φ, hne, hy]
  have hge : ∀ a, Reachable h self a → h.length ≤ φ a := by
    intro a ha
    rcases (hreach a ha).1 with rfl | ⟨y, hy⟩
    · simpa [φ] using c1
    · rw [hφ a y hy]; exact (i.seen a y hy).2.1
  have hinj : ∀ a b, Reachable h self a → Reachable h self b → φ a = φ b → a = b := by
    intro a b ha hb hab
    rcases (hreach a ha).1 with rfl | ⟨y, hy⟩ <;> rcases (hreach b hb).1 with hb' | ⟨z, hz⟩
    · exact hb'.symm
    · rw [hφ b z hz] at hab; simp only [φ, if_true] at hab; exact absurd hab.symm (c4 b z hz)
    · subst hb'; rw [hφ a y hy] at hab; simp only [φ, if_true] at hab; exact absurd hab (c4 a y hy)
    · rw [hφ a y hy, hφ b z hz] at hab; subst hab; exact i.inj a b y hy hz
  have hmap : ∀ {d : PyDict Addr Addr} {f : Addr → Addr} (hf : ∀ x y, d.get? x = some y → f x = y)
      {l l' : List Addr}, List.Forall₂ (fun x y => d.get? x = some y) l l' → l' = l.map f := by
    intro d f hf l l' hfa
    induction hfa with
    | nil => rfl
    | cons hxy _ ih => rw [List.map_cons, hf _ _ hxy, ← ih]
  have hψ : ∀ x y, s.seenShims.get? x = some y → ψ x = y := by intro x y hy; simp [ψ, hy]
  have hsh : ∀ {l l' : List Addr}, List.Forall₂ (fun x y => s.seenShims.get? x = some y) l l' →
      ∀ t ∈ l, ∃ y, s.seenShims.get? t = some y := by
    intro l l' hfa
    induction hfa with
    | nil => simp
    | @cons u v _ _ huv _ ih =>
      intro t ht
      rcases List.mem_cons.1 ht with rfl | ht
      · exact ⟨v, huv⟩
      · exact ih t ht
  refine ⟨s, c, φ, ψ, h1, by simp [φ], hinj, ?_, ?_, i.pre, i.spre⟩
  · intro a n ha hn
    obtain ⟨n', m, q1, q2, q3, q4, q5⟩ := (hreach a ha).2
    rw [hn] at q1; injection q1 with q1; subst q1
    have hid := i.ids _ m (hge a ha) q2
    have hgid := i.gid
    have hlt := (List.getElem?_eq_some_iff.1 q2).1
    have hge' := hge a ha
    refine ⟨m, q2, hge a ha, ?_, ?_, q3, hmap hφ q4, hmap hψ q5, ?_⟩
    · generalize φ a = p at hid hlt hge'
      have : h.length ≤ (p : Nat) := hge'
      have hid' : m.id + h.length = g + (p : Nat) + 1 := hid
      clear hid hge' hgid hdepth hself c1 c2
      revert this hid'
      generalize h.length = x
      generalize m.id = y
      intro h1 h2
      exact Nat.lt_of_add_lt_add_right (n := x) (by rw [h2]; exact Nat.lt_succ_of_le (Nat.add_le_add_left h1 g))
    · have hid' : m.id + h.length = g + (φ a) + 1 := hid
      apply Nat.le_of_add_le_add_right (b := h.length)
      rw [hgid, hid']
      exact Nat.add_lt_add_left hlt g
    · intro t ht
      obtain ⟨y, hy⟩ := hsh q5 t ht
      obtain ⟨z1, z2, z3, z4⟩ := i.sseen t y hy
      rw [hψ t y hy]
      refine ⟨z2, z4, ?_⟩
      intro b n' hb hn' t' ht' heq
      obtain ⟨n'', m', p1, p2, p3, p4, p5⟩ := (hreach b hb).2
      rw [hn'] at p1; injection p1 with p1; subst p1
      obtain ⟨y', hy'⟩ := hsh p5 t' ht'
      rw [hψ t' y' hy'] at heq; subst heq
      exact i.sinj t t' y hy hy'
  · intro a b m m' ha hb hab hm hm' hid
    have h1 := i.ids _ m (hge a ha) hm
    have h2 := i.ids _ m' (hge b hb) hm'
    rw [hid, h2] at h1
    exact hab (hinj a b ha hb (Nat.add_left_cancel (Nat.succ.inj h1)).symm)

/-- C08 (negative part). On a cyclic layer graph `copy()` never succeeds: whatever the recursion
limit, it raises RecursionError (here a node that is its own layer). -/
theorem C08_cyclic_raises (depth : Nat) :
    (copyModel depth ([{ name := "loop", id := 1, layers := [0] }] : Heap Int Int) ([] : List Int) 1 0).2
      = .error .recursionError := by
  suffices h : ∀ (d : Nat) (s : CopyState Int Int Int), s.seen = [] →
      s.nodes[0]? = some { name := "loop", id := 1, layers := [0] } →
      (copyNode d 0 s).2 = .error .recursionError from h depth _ rfl rfl
  intro d
  induction d with
  | zero => intros; rfl
  | succ d ih =>
    intro s hs hn
    have := ih s hs hn
    simp only [copyNode, hn, Node.paramNames, PyDict.keys, List.map_nil, copyParams, copyLayers, hs, PyDict.get?]
    cases hc : copyNode d 0 s with
    | mk s1 r => rw [hc] at this; simp only at this; subst this; rfl

/-- A diamond with a shared leaf that has a parameter, a gradient and a shim. -/
def exCopyHeap : Heap Int Int := [
  { name := "root", id := 1, layers := [1, 2], refs := [("x", some 3)] },
  { name := "l", id := 2, layers := [3] },
  { name := "r", id := 3, layers := [3, 3] },
  { name := "leaf", id := 4, layers := [], dims := [("nO", some 2), ("nI", none)],
    hasParams := [("W", some ()), ("b", none)], params := [((4, "W"), 7)], grads := [((4, "W"), 3)],
    attrs := [("k", 1)], shims := [0] }]

/-- The hypotheses of `C08_copy` hold of the diamond. -/
example : ∃ (s : CopyState Int Int Int) (c : Addr), copyModel 10 exCopyHeap [42] 4 0 = (s, .ok c) := by
  have hac : Acyclic exCopyHeap := by
    have key : ∀ a b, Child exCopyHeap a b → a < b := by
      rintro a b ⟨n, hn, hb⟩
      match a with
      | 0 => simp [exCopyHeap] at hn; subst hn; simp at hb; rcases hb with rfl | rfl <;> decide
      | 1 => simp [exCopyHeap] at hn; subst hn; simp at hb; subst hb; decide
      | 2 => simp [exCopyHeap] at hn; subst hn; simp at hb; subst hb; decide
      | 3 => simp [exCopyHeap] at hn; subst hn; simp at hb
      | _ + 4 => simp [exCopyHeap] at hn
    intro a ha
    have : ∀ b, Descendant exCopyHeap a b → a < b := by
      intro b hb
      induction hb with
      | single h => exact key _ _ h
      | tail _ h ih => exact Nat.lt_trans ih (key _ _ h)
    exact absurd (this a ha) (Nat.lt_irrefl a)
  have hall : ∀ (a : Addr) n, exCopyHeap[a]? = some n → n ∈ exCopyHeap := fun a n h => List.mem_of_getElem? h
  obtain ⟨s, c, _, _, h, _⟩ := C08_copy exCopyHeap ([42] : List Int) 4 0 10 (by decide) hac
    (by
      intro a n hn
      have := hall a n hn
      simp only [exCopyHeap, List.mem_cons, List.not_mem_nil, or_false] at this
      rcases this with rfl | rfl | rfl | rfl <;> constructor <;> unfold PyDict.WF <;> decide)
    (by
      intro a n hn k hk
      have := hall a n hn
      simp only [exCopyHeap, List.mem_cons, List.not_mem_nil, or_false] at this
      rcases this with rfl | rfl | rfl | rfl
      · simp [Node.hasParam, PyDict.get?] at hk
      · simp [Node.hasParam, PyDict.get?] at hk
      · simp [Node.hasParam, PyDict.get?] at hk
      · refine ⟨7, ?_⟩
        have : k = "W" := by
          by_contra hne
          simp only [Node.hasParam, PyDict.get?] at hk
          rw [if_neg (Ne.symm hne)] at hk
          split at hk <;> simp_all
        subst this; decide)
    (by
      intro a n hn
      have := hall a n hn
      simp only [exCopyHeap, List.mem_cons, List.not_mem_nil, or_false] at this
      rcases this with rfl | rfl | rfl | rfl <;> simp [exCopyHeap])
    (by decide)
  exact ⟨s, c, h⟩

/-- The shared leaf is copied once, with its content, a new id and a new shim. -/
example : let r := copyModel 10 exCopyHeap [42] 4 0
    r.2 = .ok 7 ∧ r.1.nodes.length = 8 ∧ r.1.shims = [42, 42] ∧
    (r.1.nodes.drop 4).map (fun n => (n.name, n.id, n.layers)) =
      [("leaf", 5, []), ("l", 6, [4]), ("r", 7, [4, 4]), ("root", 8, [5, 6])] ∧
    (r.1.nodes[4]?).map (fun n => (n.maybeGetParam "W", n.maybeGetGrad "W", n.shims)) =
      some (.ok (some 7), .ok (some 3), [1]) := by decide

end Thinc
