import Verif.Spec.CanLoad
import Verif.Props.Serialize
/-!
# C12: `can_from_dict` says whether the message fits
-/
namespace Thinc
open Spec
variable {V A S B Sh : Type}

theorem canDims_iff (n : Node V A) (dims : PyDict String (Option Nat)) :
    canDims n dims = true ↔ ∀ d value, (d, value) ∈ dims → n.hasDim d ≠ some false ∧ ∀ v, n.getDim d = .ok v → value = some v := by
  induction dims with
  | nil => simp [canDims]
  | cons x rest ih =>
    obtain ⟨d, value⟩ := x
    have cons : ∀ {P : String → Option Nat → Prop}, P d value → ((∀ k v, (k, v) ∈ rest → P k v) ↔ ∀ k' v, (k', v) ∈ (d, value) :: rest → P k' v) := by
      intro P hP
      constructor
      · intro h k' v hm
        rcases List.mem_cons.1 hm with e | hm
        · cases e; exact hP
        · exact h k' v hm
      · exact fun h k' v hm => h k' v (List.mem_cons_of_mem _ hm)
    have hd : n.hasDim d = match n.dims.get? d with | none => some false | some (some _) => some true | some none => none := rfl
    have hg : n.getDim d = match n.dims.get? d with | none => .error .keyError | some none => .error .valueError | some (some v) => .ok v := rfl
    rw [canDims]
    cases hv : n.dims.get? d with
    | none =>
      rw [hv] at hd
      simp only at hd
      rw [if_pos hd]
      exact ⟨fun h => (by cases h), fun h => absurd hd (h d value (List.mem_cons_self ..)).1⟩
    | some o =>
      cases o with
      | none =>
        rw [hv] at hd hg
        simp only at hd hg
        rw [if_neg (by rw [hd]; simp), if_neg (by rw [hd]; simp), ih]
        exact cons ⟨by rw [hd]; simp, fun v e => by rw [hg] at e; cases e⟩
      | some v =>
        rw [hv] at hd hg
        simp only at hd hg
        rw [if_neg (by rw [hd]; simp)]
        by_cases he : value = some v
        · rw [if_neg (by rw [hg, he]; simp), ih]
          refine cons ⟨by rw [hd]; simp, fun v' e => ?_⟩
          rw [hg] at e
          cases e
          exact he
        · rw [if_pos (by rw [hg]; exact ⟨hd, fun e => he e.symm⟩)]
          exact ⟨fun h => (by cases h), fun h => absurd ((h d value (List.mem_cons_self ..)).2 v hg) he⟩

theorem canParams_iff [DecidableEq Sh] (ops : SerOps V A S B Sh) (n : Node V A) (params : PyDict String (Option V)) {b : Bool}
    (hb : canParams ops n params = .ok b) : b = true ↔ ∀ k value, (k, value) ∈ params → n.hasParam k ≠ some false ∧
      ∀ v p, n.hasParam k = some true → value = some v → n.getParam k = .ok p → ops.shape p = ops.shape v := by
  induction params with
  | nil => cases hb; simp
  | cons x rest ih =>
    obtain ⟨k, value⟩ := x
    have cons : ∀ {P : String → Option V → Prop}, P k value → ((∀ k v, (k, v) ∈ rest → P k v) ↔ ∀ k' v, (k', v) ∈ (k, value) :: rest → P k' v) := by
      intro P hP
      constructor
      · intro h k' v hm
        rcases List.mem_cons.1 hm with e | hm
        · cases e; exact hP
        · exact h k' v hm
      · exact fun h k' v hm => h k' v (List.mem_cons_of_mem _ hm)
    unfold canParams at hb
    split at hb
    · rename_i h1
      cases hb
      exact ⟨fun h => (by cases h), fun h => absurd h1 (h k value (List.mem_cons_self ..)).1⟩
    · rename_i h1
      split at hb
      · rename_i v h2
        cases hp : n.getParam k with
        | error e => rw [hp] at hb; cases hb
        | ok p =>
          rw [hp] at hb
          simp only at hb
          split at hb
          · rename_i h3
            cases hb
            exact ⟨fun h => (by cases h), fun h => absurd ((h k (some v) (List.mem_cons_self ..)).2 v p h2 rfl hp) h3⟩
          · rename_i h3
            refine (ih hb).trans (cons ⟨h1, fun v' p' _ e1 e2 => ?_⟩)
            cases e1
            rw [hp] at e2
            cases e2
            exact Classical.not_not.1 h3
      · rename_i h2
        refine (ih hb).trans (cons ⟨h1, fun v' p' e1 e2 _ => ?_⟩)
        exact absurd e2 (fun e => h2 v' e1 e)

theorem canAttrs_iff [DecidableEq B] (ops : SerOps V A S B Sh) (n : Node V A) (attrs : PyDict String B) {r : Bool}
    (hr : canAttrs ops n attrs = .ok r) :
    r = true ↔ ∀ k b, (k, b) ∈ attrs → ∀ v b', n.attrs.get? k = some v → ops.ser v = .ok b' → b' = b := by
  induction attrs with
  | nil => cases hr; simp
  | cons x rest ih =>
    obtain ⟨k, b⟩ := x
    have cons : ∀ {P : String → B → Prop}, P k b → ((∀ k v, (k, v) ∈ rest → P k v) ↔ ∀ k' v, (k', v) ∈ (k, b) :: rest → P k' v) := by
      intro P hP
      constructor
      · intro h k' v hm
        rcases List.mem_cons.1 hm with e | hm
        · cases e; exact hP
        · exact h k' v hm
      · exact fun h k' v hm => h k' v (List.mem_cons_of_mem _ hm)
    rw [canAttrs] at hr
    cases hv : n.attrs.get? k with
    | none =>
      rw [hv] at hr
      refine (ih hr).trans (cons fun v b' e _ => ?_)
      rw [hv] at e
      cases e
    | some v =>
      rw [hv] at hr
      simp only at hr
      cases hs : ops.ser v with
      | error e =>
        rw [hs] at hr
        have : canAttrs ops n rest = .ok r := by
          cases e <;> first | exact hr | cases hr
        refine (ih this).trans (cons fun v' b' e1 e2 => ?_)
        rw [hv] at e1
        cases e1
        rw [hs] at e2
        cases e2
      | ok b' =>
        rw [hs] at hr
        simp only at hr
        split at hr
        · rename_i hne
          cases hr
          exact ⟨fun h => (by cases h), fun h => absurd (h k b (List.mem_cons_self ..) v b' hv hs) hne⟩
        · rename_i he
          refine (ih hr).trans (cons fun v' b'' e1 e2 => ?_)
          rw [hv] at e1
          cases e1
          rw [hs] at e2
          cases e2
          exact Classical.not_not.1 he

theorem canNode_iff [DecidableEq B] [DecidableEq Sh] (ops : SerOps V A S B Sh) (h : Heap V A) (msg : Msg V B) (infos : List NodeInfo) (strict : Bool)
    {i : Nat} {a : Addr} {n : Node V A} {info : NodeInfo} (hn : h[a]? = some n) (hi : infos[i]? = some info) {r : Bool}
    (hr : canNode ops h msg infos strict (i, a) = .ok r) :
    r = true ↔ MessageFitsNode ops strict n info (msg.attrs.getD i []) (msg.params.getD i []) (msg.shims.getD i []) := by
  unfold canNode at hr
  simp only [hn, hi] at hr
  split at hr
  · rename_i h1
    cases hr
    exact ⟨fun h => (by cases h), fun h => absurd (h.name h1.1) h1.2⟩
  rename_i h1
  have h1 : strict = true → info.name = n.name := fun hs => Classical.not_not.1 fun hne => h1 ⟨hs, hne⟩
  cases hs : msg.shims[i]? with
  | none => rw [hs] at hr; cases hr
  | some bs =>
    have es : msg.shims.getD i [] = bs := by rw [List.getD_eq_getElem?_getD, hs]; rfl
    rw [hs] at hr
    simp only at hr
    rw [es]
    split at hr
    · rename_i h2
      cases hr
      exact ⟨fun h => (by cases h), fun h => absurd h.shims h2⟩
    rename_i h2
    split at hr
    · rename_i h3
      cases hr
      refine ⟨fun h => (by cases h), fun h => ?_⟩
      have := (canDims_iff n info.dims).2 h.dims
      rw [h3] at this
      cases this
    rename_i h3
    have h3 : canDims n info.dims = true := by simpa using h3
    cases hp : msg.params[i]? with
    | none => rw [hp] at hr; cases hr
    | some params =>
      have ep : msg.params.getD i [] = params := by rw [List.getD_eq_getElem?_getD, hp]; rfl
      rw [hp] at hr
      simp only at hr
      rw [ep]
      cases hc : canParams ops n params with
      | error e => rw [hc] at hr; cases hr
      | ok b =>
        rw [hc] at hr
        have hcp := canParams_iff ops n params hc
        cases b with
        | false =>
          cases hr
          exact ⟨fun h => (by cases h), fun h => (hcp.2 h.params)⟩
        | true =>
          simp only at hr
          cases strict with
          | false =>
            simp only [Bool.false_eq_true, if_false] at hr
            cases hr
            exact ⟨fun _ => ⟨h1, Classical.not_not.1 h2, (canDims_iff n info.dims).1 h3, hcp.1 rfl, fun h => (by cases h)⟩, fun _ => rfl⟩
          | true =>
            simp only [if_true] at hr
            cases ha : msg.attrs[i]? with
            | none => rw [ha] at hr; cases hr
            | some attrs =>
              have ea : msg.attrs.getD i [] = attrs := by rw [List.getD_eq_getElem?_getD, ha]; rfl
              rw [ha] at hr
              rw [ea]
              have hca := canAttrs_iff ops n attrs hr
              exact ⟨fun h => ⟨h1, Classical.not_not.1 h2, (canDims_iff n info.dims).1 h3, hcp.1 rfl, fun _ => hca.1 h⟩, fun h => hca.2 (h.attrs rfl)⟩

theorem allE_false {ε α : Type} {f : α → Except ε Bool} {l : List α} (h : allE f l = .ok false) : ∃ x ∈ l, f x = .ok false := by
  induction l with
  | nil => cases h
  | cons x l ih =>
    rw [allE] at h
    cases hx : f x with
    | error e => rw [hx] at h; cases h
    | ok b =>
      rw [hx] at h
      cases b with
      | false => exact ⟨x, List.mem_cons_self .., hx⟩
      | true =>
        obtain ⟨y, hy, e⟩ := ih h
        exact ⟨y, List.mem_cons_of_mem _ hy, e⟩

/-- C12: `can_from_dict` returns True if and only if the message fits the model, and False if and only if it does not (if it does not raise). -/
theorem C12_fits [DecidableEq B] [DecidableEq Sh] (ops : SerOps V A S B Sh) (s : LoadState V A S) (self : Addr) (msg : Msg V B) (strict : Bool)
    {r : Bool} (hr : canFromDict ops s self msg strict = .ok r) : r = true ↔ MessageFits ops s self msg strict := by
  unfold canFromDict at hr
  cases hm : msg.nodes with
  | none =>
    rw [hm] at hr
    cases hr
    refine ⟨fun h => (by cases h), fun ⟨infos, h, _⟩ => ?_⟩
    rw [hm] at h
    cases h
  | some infos =>
    rw [hm] at hr
    simp only at hr
    split at hr
    · rename_i hl
      cases hr
      refine ⟨fun h => (by cases h), fun ⟨infos', h, hl', _⟩ => ?_⟩
      rw [hm] at h
      cases h
      exact absurd hl' hl
    · rename_i hl
      have hl : infos.length = (walkBfs s.nodes self).length := Classical.not_not.1 hl
      have mem : ∀ (i : Nat) a, (walkBfs s.nodes self)[i]? = some a → (i, a) ∈ enumFrom' 0 (walkBfs s.nodes self) := by
        intro i a hWi
        have := enumFrom'_get (walkBfs s.nodes self) 0 i
        rw [hWi] at this
        simp only [Nat.zero_add, Option.map_some] at this
        exact List.mem_of_getElem? this
      cases r with
      | true =>
        refine ⟨fun _ => ⟨infos, hm, hl, fun i a n info hWi hn hi => ?_⟩, fun _ => rfl⟩
        exact (canNode_iff ops s.nodes msg infos strict hn hi (allE_true hr (i, a) (mem i a hWi))).1 rfl
      | false =>
        refine ⟨fun h => (by cases h), fun ⟨infos', h, _, hf⟩ => ?_⟩
        rw [hm] at h
        cases h
        obtain ⟨⟨i, a⟩, hx, e⟩ := allE_false hr
        obtain ⟨j, hj, hje⟩ := List.mem_iff_getElem.1 hx
        have hg : (enumFrom' 0 (walkBfs s.nodes self))[j]? = some (i, a) := by rw [List.getElem?_eq_getElem hj, hje]
        rw [enumFrom'_get] at hg
        cases hw : (walkBfs s.nodes self)[j]? with
        | none => rw [hw] at hg; cases hg
        | some a' =>
          rw [hw] at hg
          simp only [Nat.zero_add, Option.map_some, Option.some.injEq, Prod.mk.injEq] at hg
          obtain ⟨rfl, rfl⟩ := hg
          have e0 := e
          unfold canNode at e0
          simp only at e0
          cases hi : infos[j]? with
          | none => rw [hi] at e0; cases e0
          | some info =>
            cases hn : s.nodes[a']? with
            | none => rw [hi, hn] at e0; cases e0
            | some n => exact (canNode_iff ops s.nodes msg infos strict hn hi e).2 (hf j a' n info hw hn hi)

/-- The strict check, in the words of its docstring: it returns False if the model has an attribute that would be changed. -/
theorem C12_strict [DecidableEq B] [DecidableEq Sh] (ops : SerOps V A S B Sh) (s : LoadState V A S) (self : Addr) (msg : Msg V B)
    {infos : List NodeInfo} (hm : msg.nodes = some infos) {i : Nat} {a : Addr} {n : Node V A} {attrs : PyDict String B} {k : String} {b b' : B} {v : A}
    (hw : (walkBfs s.nodes self)[i]? = some a) (hn : s.nodes[a]? = some n) (ha : msg.attrs[i]? = some attrs) (hk : (k, b) ∈ attrs)
    (hv : n.attrs.get? k = some v) (hs : ops.ser v = .ok b') (hne : b' ≠ b) : canFromDict ops s self msg true ≠ .ok true := by
  intro hr
  obtain ⟨infos', h, hl, hf⟩ := (C12_fits ops s self msg true hr).1 rfl
  have hil : i < infos'.length := by
    rw [hl]
    exact (List.getElem?_eq_some_iff.1 hw).1
  have := (hf i a n infos'[i] hw hn (List.getElem?_eq_getElem hil)).attrs rfl k b (by rw [List.getD_eq_getElem?_getD, ha]; exact hk) v b' hv hs
  exact hne this

/-- Non-vacuity: a message with another value of the attribute. -/
example : canFromDict exOps exTgt 0 ⟨some [⟨"old", [("nO", some 4)], [("c", some 1)]⟩, ⟨"child", [], []⟩],
    [[("x", 101)], []], [[], [("W", some 3)]], [[9], []]⟩ ≠ .ok true := by
  have hw : walkBfs exTgt.nodes 0 = [0, 1] := by simp [walkBfs, bfsLoop, exTgt, layersOf]
  exact C12_strict exOps exTgt 0 _ rfl (i := 0) (a := 0) (k := "x") (b := 101) (b' := 100) (v := 0) (by rw [hw]; rfl) rfl rfl (List.mem_cons_self ..) rfl rfl (by decide)

end Thinc
