import Verif.Model.TreeWide
import Verif.Lemmas.WrapTree
import Mathlib.Tactic.SplitIfs
/-!
# C87: functions over the whole tree
-/
namespace Thinc.TreeWide
open Spec Thinc
variable {V A : Type}

/-! ### Attributes -/

theorem set_eq_map {d : PyDict String A} (hw : PyDict.WF d) {k : String} (hk : k ∈ d.keys) (v : A) :
    d.set k v = d.map fun p => (p.1, if p.1 = k then v else p.2) := by
  induction d with
  | nil => simp [PyDict.keys] at hk
  | cons e d ih =>
    obtain ⟨k', v'⟩ := e
    simp only [PyDict.WF, PyDict.keys, List.map_cons, List.nodup_cons] at hw
    simp only [PyDict.set, List.map_cons]
    by_cases h : k' = k
    · subst h
      simp only [if_true]
      congr 1
      rw [List.map_congr_left (g := id), List.map_id]
      intro p hp
      have : p.1 ≠ k' := fun e => hw.1 (e ▸ List.mem_map_of_mem (f := Prod.fst) hp)
      simp [this]
    · simp only [h, if_false]
      rw [ih hw.2]
      simp only [PyDict.keys, List.map_cons, List.mem_cons] at hk
      rcases hk with rfl | hk
      · exact absurd rfl h
      · exact hk

/-- The attributes with the values of those in `f` changed. -/
def withAttrs (f : String → Option A) (n : Node V A) : Node V A :=
  { n with attrs := n.attrs.map fun p => (p.1, (f p.1).getD p.2) }

theorem step_eq (n : Node V A) (hw : PyDict.WF n.attrs) (k : String) (v : A) :
    (if n.attrs.contains k then { n with attrs := n.attrs.set k v } else n) =
      withAttrs (fun q => if q = k then some v else none) n := by
  split_ifs with h
  · rw [set_eq_map hw ((PyDict.contains_iff _ _).1 h), withAttrs]
    congr 1
    refine List.map_congr_left fun p _ => ?_
    split_ifs <;> rfl
  · rw [withAttrs]
    have : (n.attrs.map fun p => (p.1, ((if p.1 = k then some v else none : Option A)).getD p.2)) = n.attrs := by
      rw [List.map_congr_left (g := id), List.map_id]
      intro p hp
      have : p.1 ≠ k := by
        rintro rfl
        exact h ((PyDict.contains_iff _ _).2 (List.mem_map_of_mem (f := Prod.fst) hp))
      simp [this]
    rw [this]

theorem keys_withAttrs (f : String → Option A) (n : Node V A) : (withAttrs f n).attrs.keys = n.attrs.keys := by
  simp [withAttrs, PyDict.keys, Function.comp_def]

theorem withAttrs_comp (f g : String → Option A) (n : Node V A) :
    withAttrs g (withAttrs f n) = withAttrs (fun q => (g q).or (f q)) n := by
  simp only [withAttrs, List.map_map, Function.comp_def]
  congr 1
  refine List.map_congr_left fun p _ => ?_
  cases g p.1 <;> simp

theorem setAttrsTo_eq (names : List String) (v : A) (n : Node V A) (hw : PyDict.WF n.attrs) :
    setAttrsTo names v n = withAttrs (fun q => if q ∈ names then some v else none) n := by
  unfold setAttrsTo
  induction names generalizing n with
  | nil => simp [withAttrs]
  | cons k names ih =>
    rw [List.foldl_cons, step_eq n hw, ih _ (by rw [PyDict.WF, keys_withAttrs]; exact hw), withAttrs_comp]
    congr 1
    funext q
    by_cases h2 : q = k
    · subst h2
      by_cases h1 : q ∈ names <;> simp [h1]
    · by_cases h1 : q ∈ names <;> simp [h1, h2]

theorem setAttrItems_eq (items : PyDict String A) (hi : PyDict.WF items) (n : Node V A) (hw : PyDict.WF n.attrs) :
    setAttrItems items n = withAttrs items.get? n := by
  unfold setAttrItems
  induction items generalizing n with
  | nil => simp [withAttrs]
  | cons e items ih =>
    obtain ⟨k, v⟩ := e
    have hi' : k ∉ PyDict.keys items ∧ PyDict.WF items := by
      simpa [PyDict.WF, PyDict.keys] using hi
    rw [List.foldl_cons]
    dsimp only
    rw [step_eq n hw, ih hi'.2 _ (by rw [PyDict.WF, keys_withAttrs]; exact hw), withAttrs_comp]
    congr 1
    funext q
    rw [PyDict.get?_cons]
    by_cases h : q = k
    · subst h
      simp [(PyDict.get?_eq_none_iff items q).2 hi'.1]
    · simp [h, Ne.symm h]

open Classical in
/-- **C87** (`set_dropout_rate`): in every node of the tree exactly the listed attributes that the node has are set to the
rate.  No attribute is added, and nothing else changes, in these nodes and elsewhere. -/
theorem C87_set_dropout_rate (h : Heap V A) (w : h.WF) (root : Addr) (drop : A) (names : List String) (b : Addr) :
    (setDropoutRate h root drop names)[b]? = if Reachable h root b then
      (h[b]?).map fun n => { n with attrs := n.attrs.map fun p => (p.1, if p.1 ∈ names then drop else p.2) } else h[b]? := by
  unfold setDropoutRate
  rw [Heap.get_foldl_modify _ _ (nodup_walkBfs h root)]
  simp only [mem_walkBfs]
  split_ifs with hr
  · cases hb : h[b]? with
    | none => rfl
    | some n =>
      simp only [Option.map_some, setAttrsTo_eq names drop n (w b n hb).attrs, withAttrs]
      congr 2
      refine List.map_congr_left fun p _ => ?_
      split_ifs <;> rfl
  · rfl

open Classical in
/-- **C87** (`change_attr_values`): in every node of the tree the attributes that the node has and for which the mapping
has a value under the name of the node get this value.  No attribute is added, and nothing else changes. -/
theorem C87_change_attr_values (h : Heap V A) (w : h.WF) (root : Addr) (mapping : PyDict String (PyDict String A))
    (hm : ∀ k items, mapping.get? k = some items → PyDict.WF items) (b : Addr) :
    (changeAttrValues h root mapping)[b]? = if Reachable h root b then
      (h[b]?).map fun n => { n with attrs := n.attrs.map fun p =>
        (p.1, ((mapping.get? n.name).bind fun items => items.get? p.1).getD p.2) } else h[b]? := by
  unfold changeAttrValues
  rw [Heap.get_foldl_modify _ _ (nodup_walkBfs h root)]
  simp only [mem_walkBfs]
  split_ifs with hr
  · cases hb : h[b]? with
    | none => rfl
    | some n =>
      simp only [Option.map_some, changeNodeAttrs]
      cases hn : mapping.get? n.name with
      | none => simp
      | some items => simp [setAttrItems_eq items (hm _ _ hn) n (w b n hb).attrs, withAttrs]
  · rfl

/-! ### Gradients -/

/-- The entry of a node for one name. -/
def HasEntry (n : Node V A) (name : String) (e : V × V) : Prop :=
  name ∈ n.gradNames ∧ n.getParam name = .ok e.1 ∧ n.getGrad name = .ok e.2

theorem collectGradients_names (n : Node V A) (names : List String)
    (hp : ∀ name ∈ names, ∃ e : V × V, n.getParam name = .ok e.1 ∧ n.getGrad name = .ok e.2)
    (d : PyDict (Nat × String) (V × V)) :
    ∃ d', forM' names d (collectGradient n) = .ok d' ∧ ∀ k e, d'.get? k = some e ↔
      (k.1 = n.id ∧ k.2 ∈ names ∧ n.getParam k.2 = .ok e.1 ∧ n.getGrad k.2 = .ok e.2) ∨
      (¬ (k.1 = n.id ∧ k.2 ∈ names) ∧ d.get? k = some e) := by
  induction names generalizing d with
  | nil => exact ⟨d, rfl, fun k e => by simp⟩
  | cons name names ih =>
    obtain ⟨e0, h1, h2⟩ := hp name (by simp)
    obtain ⟨d', h3, h4⟩ := ih (fun m hm => hp m (List.mem_cons_of_mem _ hm)) (d.set (n.id, name) e0)
    refine ⟨d', ?_, ?_⟩
    · rw [forM', collectGradient]
      simp only [h1, h2, bind, Except.bind, pure, Except.pure]
      exact h3
    · rintro ⟨i, q⟩ e
      rw [h4]
      by_cases hi : i = n.id
      · subst hi
        by_cases hq : q ∈ names
        · simp [hq]
        · by_cases hqn : q = name
          · subst hqn
            simp only [hq, PyDict.get?_set_self, h1, h2, and_false, false_and, not_false_eq_true, true_and, false_or,
              Option.some.injEq, List.mem_cons, true_or, Except.ok.injEq, not_true_eq_false, or_false]
            constructor
            · rintro rfl; exact ⟨rfl, rfl⟩
            · rintro ⟨a, b⟩; exact Prod.ext a b
          · have : (n.id, name) ≠ (n.id, q) := fun h => hqn (Prod.ext_iff.1 h).2.symm
            simp [hq, hqn, PyDict.get?_set_ne d this]
      · have : (n.id, name) ≠ (i, q) := fun h => hi (Prod.ext_iff.1 h).1.symm
        simp [hi, PyDict.get?_set_ne d this]

theorem getGradients_list (h : Heap V A) (l : List Addr) (hnd : l.Nodup)
    (hid : ∀ a ∈ l, ∀ b ∈ l, ∀ n m, h[a]? = some n → h[b]? = some m → n.id = m.id → a = b)
    (hp : ∀ a ∈ l, ∀ n, h[a]? = some n → ∀ name ∈ n.gradNames, ∃ e, HasEntry n name e)
    (d : PyDict (Nat × String) (V × V)) (hd : ∀ a ∈ l, ∀ n, h[a]? = some n → ∀ name, d.get? (n.id, name) = none) :
    ∃ d', forM' l d (collectGradients h) = .ok d' ∧ ∀ k e, d'.get? k = some e ↔
      (∃ a ∈ l, ∃ n, h[a]? = some n ∧ n.id = k.1 ∧ HasEntry n k.2 e) ∨ d.get? k = some e := by
  induction l generalizing d with
  | nil => exact ⟨d, rfl, fun k e => by simp⟩
  | cons a l ih =>
    rw [List.nodup_cons] at hnd
    have hid' : ∀ a ∈ l, ∀ b ∈ l, ∀ n m, h[a]? = some n → h[b]? = some m → n.id = m.id → a = b :=
      fun x hx y hy => hid x (List.mem_cons_of_mem _ hx) y (List.mem_cons_of_mem _ hy)
    cases ha : h[a]? with
    | none =>
      obtain ⟨d', h1, h2⟩ := ih hnd.2 hid' (fun x hx => hp x (List.mem_cons_of_mem _ hx)) d
        (fun x hx => hd x (List.mem_cons_of_mem _ hx))
      refine ⟨d', by rw [forM', collectGradients, ha]; exact h1, fun k e => ?_⟩
      rw [h2]
      constructor
      · rintro (⟨x, hx, r⟩ | r)
        · exact Or.inl ⟨x, List.mem_cons_of_mem _ hx, r⟩
        · exact Or.inr r
      · rintro (⟨x, hx, n, hn, r⟩ | r)
        · rcases List.mem_cons.1 hx with rfl | hx
          · rw [ha] at hn; cases hn
          · exact Or.inl ⟨x, hx, n, hn, r⟩
        · exact Or.inr r
    | some n =>
      obtain ⟨d1, g1, g2⟩ := collectGradients_names n n.gradNames (fun name hname => by
        obtain ⟨e, he⟩ := hp a (by simp) n ha name hname
        exact ⟨e, he.2⟩) d
      have hd1 : ∀ b ∈ l, ∀ m, h[b]? = some m → ∀ name, d1.get? (m.id, name) = none := by
        intro b hb m hm name
        have hne : m.id ≠ n.id := by
          intro he
          have := hid b (List.mem_cons_of_mem _ hb) a (by simp) m n hm ha he
          exact hnd.1 (this ▸ hb)
        cases hx : d1.get? (m.id, name) with
        | none => rfl
        | some e =>
          rcases (g2 _ _).1 hx with h1 | h1
          · exact absurd h1.1 hne
          · rw [hd b (List.mem_cons_of_mem _ hb) m hm] at h1
            exact absurd h1.2 (by simp)
      obtain ⟨d', h1, h2⟩ := ih hnd.2 hid' (fun x hx => hp x (List.mem_cons_of_mem _ hx)) d1 hd1
      refine ⟨d', by rw [forM', collectGradients, ha]; dsimp only; rw [g1]; exact h1, fun k e => ?_⟩
      rw [h2, g2]
      constructor
      · rintro (⟨x, hx, r⟩ | ⟨r1, r2⟩ | ⟨_, r⟩)
        · exact Or.inl ⟨x, List.mem_cons_of_mem _ hx, r⟩
        · exact Or.inl ⟨a, by simp, n, ha, r1.symm, r2⟩
        · exact Or.inr r
      · rintro (⟨x, hx, m, hm, r1, r2⟩ | r)
        · rcases List.mem_cons.1 hx with rfl | hx
          · rw [ha] at hm
            cases hm
            exact Or.inr (Or.inl ⟨r1.symm, r2⟩)
          · exact Or.inl ⟨x, hx, m, hm, r1, r2⟩
        · refine Or.inr (Or.inr ⟨?_, r⟩)
          rintro ⟨h3, _⟩
          have := hd a (by simp) n ha k.2
          rw [← h3] at this
          rw [this] at r
          cases r

/-- **C87** (`get_gradients`): in a tree whose nodes have different ids and in which every parameter with a gradient is
set, the result has exactly one entry for every parameter with a gradient in the tree, under the id of its node and its
name: the parameter and its gradient. -/
theorem C87_get_gradients (h : Heap V A) (root : Addr)
    (hid : ∀ a b, Reachable h root a → Reachable h root b → ∀ n m, h[a]? = some n → h[b]? = some m → n.id = m.id → a = b)
    (hp : ∀ a, Reachable h root a → ∀ n, h[a]? = some n → ∀ name ∈ n.gradNames, ∃ p, n.getParam name = .ok p) :
    ∃ d, getGradients h root = .ok d ∧ ∀ k e, d.get? k = some e ↔
      ∃ a n, Reachable h root a ∧ h[a]? = some n ∧ n.id = k.1 ∧ HasEntry n k.2 e := by
  have hm := mem_walkBfs h root
  obtain ⟨d, h1, h2⟩ := getGradients_list h (walkBfs h root) (nodup_walkBfs h root)
    (fun a ha b hb => hid a b ((hm a).1 ha) ((hm b).1 hb))
    (fun a ha n hn name hname => by
      obtain ⟨p, hp⟩ := hp a ((hm a).1 ha) n hn name hname
      have hg : n.hasGrad name = true := (List.mem_filter.1 hname).2
      unfold Node.hasGrad PyDict.contains at hg
      obtain ⟨g, hg⟩ := Option.isSome_iff_exists.1 hg
      exact ⟨(p, g), hname, hp, by simp [Node.getGrad, hg]⟩)
    [] (fun _ _ _ _ _ => rfl)
  refine ⟨d, h1, fun k e => ?_⟩
  rw [h2]
  constructor
  · rintro (⟨a, ha, n, r⟩ | r)
    · exact ⟨a, n, (hm a).1 ha, r⟩
    · simp at r
  · rintro ⟨a, n, ha, r⟩
    exact Or.inl ⟨a, (hm a).2 ha, n, r⟩

/-- A node with a parameter, its gradient and two attributes below a root. -/
def exGrad : Heap Nat Nat :=
  [{ name := "root", id := 1, layers := [1], attrs := [("dropout_rate", 3)] },
   { name := "leaf", id := 2, layers := [], hasParams := [("W", some ()), ("b", some ())],
     params := [((2, "W"), 7), ((2, "b"), 8)], grads := [((2, "W"), 9)], attrs := [("dropout_rate", 4), ("x", 5)] }]

example : getGradients exGrad 0 = .ok [((2, "W"), (7, 9))] ∧
    (setDropoutRate exGrad 0 1 ["dropout_rate", "y"]).map (·.attrs) =
      [[("dropout_rate", 1)], [("dropout_rate", 1), ("x", 5)]] ∧
    (changeAttrValues exGrad 0 [("leaf", [("x", 6), ("z", 2)])]).map (·.attrs) =
      [[("dropout_rate", 3)], [("dropout_rate", 4), ("x", 6)]] := by
  refine ⟨?_, ?_, ?_⟩
  · simp [getGradients, collectGradients, collectGradient, forM', walkBfs, bfsLoop, exGrad, layersOf, Node.gradNames, Node.paramNames,
      Node.hasGrad, Node.getParam, Node.getGrad, PyDict.keys, PyDict.contains, PyDict.get?, PyDict.set, bind, Except.bind, pure,
      Except.pure]
  · simp [setDropoutRate, setAttrsTo, walkBfs, bfsLoop, exGrad, layersOf, Heap.modify, List.modify, PyDict.contains, PyDict.get?,
      PyDict.set]
  · simp [changeAttrValues, changeNodeAttrs, setAttrItems, walkBfs, bfsLoop, exGrad, layersOf, Heap.modify, List.modify,
      PyDict.contains, PyDict.get?, PyDict.set]

/-! ### Wrapping -/

/-- Specification: the wrapper of the node `c`, if there are `N` nodes before and the wrappers are made in the order `L`. -/
def wrapperOf (N : Nat) (L : List Addr) (c : Addr) : Addr := N + L.idxOf c

/-- Specification: the node at `b` after wrapping.  Every layer is replaced by its wrapper and so is every reference, except a
reference of a node to itself. -/
def wrapped (N : Nat) (L : List Addr) (b : Addr) (n : Node V A) : Node V A :=
  { n with layers := n.layers.map (wrapperOf N L)
           refs := n.refs.map fun p => (p.1, p.2.map fun c => if c = b then c else wrapperOf N L c) }

/-- Specification: a call of `wrapper` makes one new object whose only layer is the given node. -/
def IsWrapping (wrapper : Heap V A → Addr → Heap V A × Addr) : Prop :=
  ∀ g a, ∃ n : Node V A, wrapper g a = (g ++ [n], g.length) ∧ n.layers = [a] ∧ n.refs = [] ∧ n.WF

open Classical in
/-- **C87** (`wrap_model_recursive`): in an acyclic model whose references are set and lie in the tree of their node, and for
a wrapper that makes a new node with the given node as its only layer: every layer of every node of the tree is replaced by a
wrapper of it, with one wrapper per node, so that a layer that occurs several times still does.  References follow.  The result is
a wrapper of the model, and nodes outside the tree do not change.
Missing for the full property: a reference of a node to itself still leads to the node and not to its wrapper (`wrapped`), and
the root is wrapped a second time, so that one wrapper made on the way is not in the result; models with unset references
(`C87_wrap_unset_ref`). -/
theorem C87_wrap_model_recursive_partial (h : Heap V A) (w : h.WF) (hac : Acyclic h)
    (hd : ∀ a b, Child h a b → b < h.length) (root : Addr) (hroot : root < h.length)
    (hrefs : ∀ a, Reachable h root a → ∀ n, h[a]? = some n → ∀ name o, n.refs.get? name = some o →
      ∃ c, o = some c ∧ Reachable h a c)
    (wrapper : Heap V A → Addr → Heap V A × Addr) (hwrap : IsWrapping wrapper) :
    ∃ (L : List Addr) (h' : Heap V A), L.Nodup ∧ (∀ a, a ∈ L ↔ Reachable h root a) ∧
      wrapModelRecursive wrapper h root = (h', .ok (h.length + L.length)) ∧
      (∀ b n, h[b]? = some n → h'[b]? = some (if Reachable h root b then wrapped h.length L b n else n)) ∧
      (∀ c ∈ L, ∃ n, h'[wrapperOf h.length L c]? = some n ∧ n.layers = [c]) ∧
      ∃ n, h'[h.length + L.length]? = some n ∧ n.layers = [root] := by
  have hm := mem_walkBfs h root
  obtain ⟨g, h1, h2⟩ := WrapTree.wrap_loop w hac hd hroot hrefs wrapper
    (fun g a => by obtain ⟨n, a1, a2, a3, a4⟩ := hwrap g a; exact ⟨n, a1, a2, a3, a4⟩) (walkBfs h root) [] h
    (by simpa using nodup_walkBfs h root) (fun c hc => (hm c).1 (by simpa using hc))
    ⟨by simp, fun b n hn => by
      rw [hn]
      have : WrapTree.upd h.length [] [] b n = n := by
        unfold WrapTree.upd WrapTree.wr
        simp
      simp [this], by simp⟩
  rw [List.nil_append] at h2
  obtain ⟨n, h3, h4, _⟩ := hwrap g root
  refine ⟨walkBfs h root, g ++ [n], nodup_walkBfs h root, hm, ?_, ?_, ?_, ?_⟩
  · unfold wrapModelRecursive
    rw [h1]
    dsimp only
    rw [h3, h2.len]
  · intro b m hb
    have h5 := h2.old b m hb
    have hlt : b < g.length := by
      have : b < h.length := by
        by_contra hx
        rw [List.getElem?_eq_none (Nat.le_of_not_lt hx)] at hb
        cases hb
      rw [h2.len]
      exact Nat.lt_of_lt_of_le this (Nat.le_add_right _ _)
    rw [List.getElem?_append_left hlt, h5]
    congr 1
    split
    · rename_i hr
      unfold WrapTree.upd wrapped
      congr 1
      · refine List.map_congr_left fun c hc => ?_
        rw [WrapTree.wr, if_pos ((hm c).2 (.tail hr ⟨m, hb, hc⟩)), wrapperOf]
      · refine List.map_congr_left fun p hp => ?_
        have h6 : m.refs.get? p.1 = some p.2 := PyDict.WF.get?_of_mem (w b m hb).refs hp
        obtain ⟨c, hc1, hc2⟩ := hrefs b hr m hb _ _ h6
        rw [hc1]
        simp only [Option.map_some]
        rw [WrapTree.wr, if_pos ((hm c).2 (Reachable.trans hr hc2)), wrapperOf]
    · rfl
  · intro c hc
    have hl := List.idxOf_lt_length_of_mem hc
    obtain ⟨m, hm1, hm2⟩ := h2.new _ hl
    refine ⟨m, ?_, ?_⟩
    · rw [wrapperOf, List.getElem?_append_left (by rw [h2.len]; exact Nat.add_lt_add_left hl _), hm1]
    · rw [hm2.layers, List.getElem_idxOf hl]
  · refine ⟨n, ?_, h4⟩
    rw [← h2.len]
    simp

/-- The wrapper of the examples. -/
def exWrap (h : Heap Nat Nat) (a : Addr) : Heap Nat Nat × Addr := (h ++ [exN [a] []], h.length)

theorem exWrap_ok : IsWrapping exWrap := by
  intro g a
  refine ⟨exN [a] [], rfl, rfl, rfl, ?_⟩
  constructor <;> simp [exN, PyDict.WF, PyDict.keys]

/-- A model with a layer that occurs twice and references. -/
def exModel : Heap Nat Nat := [exN [1, 2] [("a", some 2)], exN [2] [("s", some 1)], exN [] []]

example : exModel.WF ∧ Acyclic exModel ∧ (∀ a b, Child exModel a b → b < exModel.length) ∧
    ∀ a, Reachable exModel 0 a → ∀ n, exModel[a]? = some n → ∀ name o, n.refs.get? name = some o →
      ∃ c, o = some c ∧ Reachable exModel a c := by
  have hc : ∀ a b, Child exModel a b → a < b ∧ b < 3 := by
    rintro (_ | _ | _ | a) b ⟨n, hn, hb⟩
    · simp only [exModel, exN, List.getElem?_cons_zero, Option.some.injEq] at hn
      subst hn
      simp at hb
      rcases hb with rfl | rfl <;> decide
    · simp only [exModel, exN, List.getElem?_cons_zero, List.getElem?_cons_succ, Option.some.injEq] at hn
      subst hn
      simp at hb
      subst hb
      decide
    · simp only [exModel, exN, List.getElem?_cons_zero, List.getElem?_cons_succ, Option.some.injEq] at hn
      subst hn
      simp at hb
    · simp [exModel] at hn
  refine ⟨?_, ?_, fun a b h => (hc a b h).2, ?_⟩
  · intro a n hn
    have := List.mem_of_getElem? hn
    simp [exModel] at this
    rcases this with rfl | rfl | rfl <;> constructor <;> simp [exN, PyDict.WF, PyDict.keys]
  · have : ∀ a b, Descendant exModel a b → a < b := by
      intro a b h
      induction h with
      | single h => exact (hc _ _ h).1
      | tail _ h ih => exact Nat.lt_trans ih (hc _ _ h).1
    exact fun a h => Nat.lt_irrefl _ (this a a h)
  · rintro (_ | _ | _ | a) _ n hn name o ho
    · simp only [exModel, exN, List.getElem?_cons_zero, Option.some.injEq] at hn
      subst hn
      simp only [PyDict.get?_cons] at ho
      split at ho
      · cases ho
        exact ⟨2, rfl, .single ⟨_, rfl, by simp [exN]⟩⟩
      · cases ho
    · simp only [exModel, exN, List.getElem?_cons_zero, List.getElem?_cons_succ, Option.some.injEq] at hn
      subst hn
      simp only [PyDict.get?_cons] at ho
      split at ho
      · cases ho
        exact ⟨1, rfl, .refl⟩
      · cases ho
    · simp only [exModel, exN, List.getElem?_cons_zero, List.getElem?_cons_succ, Option.some.injEq] at hn
      subst hn
      cases ho
    · simp [exModel] at hn

/-- **C87** fails for a model with a reference that is not set: it raises ValueError, and the model is left half wrapped. -/
theorem C87_wrap_unset_ref : ∃ h : Heap Nat Nat, h.WF ∧ Acyclic h ∧
    (wrapModelRecursive exWrap h 0).2 = .error .valueError ∧ ((wrapModelRecursive exWrap h 0).1)[0]? ≠ h[0]? := by
  have hc : ∀ a b, Child [exN [1] [("a", none)], exN [] []] a b → a < b := by
    rintro (_ | _ | a) b ⟨n, hn, hb⟩
    · simp at hn
      subst hn
      simp [exN] at hb
      subst hb
      decide
    · simp at hn
      subst hn
      simp [exN] at hb
    · simp at hn
  have e : wrapModelRecursive exWrap [exN [1] [("a", none)], exN [] []] 0 =
      ([exN [3] [("a", none)], exN [] [], exN [0] [], exN [1] []], .error .valueError) := by
    simp [wrapModelRecursive, wrapStep, exWrap, replaceNode, replaceStep, replaceRef, walkBfs, bfsLoop, walkDfs, dfsLoop, exN,
      layersOf, Heap.modify, List.modify, loopE, Node.getRef, Node.refNames, PyDict.keys, PyDict.get?]
  refine ⟨[exN [1] [("a", none)], exN [] []], ?_, ?_, by rw [e], by rw [e]; simp [exN]⟩
  · intro a n hn
    have : n ∈ [exN [1] [("a", none)], exN [] []] := List.mem_of_getElem? hn
    simp at this
    rcases this with rfl | rfl <;> (constructor <;> simp [exN, PyDict.WF, PyDict.keys])
  · have : ∀ a b, Descendant [exN [1] [("a", none)], exN [] []] a b → a < b := by
      intro a b h
      induction h with
      | single h => exact hc _ _ h
      | tail _ h ih => exact Nat.lt_trans ih (hc _ _ h)
    exact fun a h => Nat.lt_irrefl _ (this a a h)

end Thinc.TreeWide
