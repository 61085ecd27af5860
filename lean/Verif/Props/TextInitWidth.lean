import Verif.Lemmas.Initialize
import Verif.Model.TextInit
/-!
# C110: the widths that combinators have after `initialize`
-/
namespace Thinc

/-- Specification: the component `c` has no share in the dimensions of the node `id`: setting nO of `id` does not change nO of `c`. -/
def Spec.Apart (id : ℕ) (c : Comp) : Prop :=
  ∀ (s s' : NetState) (v : ℕ), s.setO id v = .ok s' → c.dimO s' = c.dimO s

/-- Specification: the components have these widths. -/
def Spec.HaveWidths (s : NetState) (cs : List Comp) (ws : List ℕ) : Prop :=
  List.Forall₂ (fun c w => c.dimO s = some (some w)) cs ws

open Spec

theorem sumDimsC_widths {s : NetState} {cs : List Comp} {ws : List ℕ} (h : HaveWidths s cs ws) : sumDimsC s cs = some ws.sum := by
  induction h with
  | nil => rfl
  | cons h _ ih => simp [sumDimsC, h, ih]

theorem widths_before {id : ℕ} {s s' : NetState} {v : ℕ} {cs : List Comp} {ws : List ℕ} (ha : ∀ c ∈ cs, Apart id c)
    (e : s.setO id v = .ok s') (h : HaveWidths s' cs ws) : HaveWidths s cs ws := by
  induction h with
  | nil => exact .nil
  | cons h _ ih =>
    exact .cons ((ha _ (by simp) _ _ _ e).symm.trans h) (ih fun c hc => ha c (List.mem_cons_of_mem _ hc))

/-- After `concatenate(...).initialize(...)`, if every layer has a width, the width of the concatenation is the sum of these. -/
theorem C110_concatenate_width {id : ℕ} {cs : List Comp} {X Y : Option Val} {s s' : NetState} {ws : List ℕ}
    (e : (concatenateC id cs).init X Y s = .ok s') (ha : ∀ c ∈ cs, Apart id c) (h : HaveWidths s' cs ws) :
    (concatenateC id cs).dimO s' = some (some ws.sum) := by
  obtain ⟨a, -, e⟩ := bind_ok (show Except.bind _ _ = _ from e)
  obtain ⟨b, -, e⟩ := bind_ok e
  replace e : concatFinishC id cs b = .ok s' := e
  show s'.nO id = _
  unfold concatFinishC at e
  rcases hd : sumDimsC b cs with _ | v <;> rw [hd] at e
  · cases e
    rw [sumDimsC_widths h] at hd
    cases hd
  · have hb := sumDimsC_widths (widths_before ha e h)
    rw [hd] at hb
    cases hb
    obtain ⟨rfl, -⟩ := setO_ok e
    simp

/-- After `add(...).initialize(...)` the width of the sum is the width of the first layer, and this one has a width. -/
theorem C110_add_width {id : ℕ} {c : Comp} {cs : List Comp} {X Y : Option Val} {s s' : NetState}
    (e : (addC id (c :: cs)).init X Y s = .ok s') (ha : Apart id c) :
    ∃ w, c.dimO s' = some (some w) ∧ (addC id (c :: cs)).dimO s' = some (some w) := by
  obtain ⟨a, -, e⟩ := bind_ok (show Except.bind _ _ = _ from e)
  obtain ⟨b, -, e⟩ := bind_ok e
  obtain ⟨d, -, e⟩ := bind_ok e
  obtain ⟨w, hw, e⟩ := bind_ok (show Except.bind (dimValue (c.dimO d)) _ = _ from e)
  have h := ha _ _ _ e
  obtain ⟨rfl, -⟩ := setO_ok e
  refine ⟨w, h.trans ?_, by show (if id = id then _ else _) = _; simp⟩
  rcases hd : c.dimO d with _ | _ | v <;> rw [hd] at hw <;> cases hw
  rfl

theorem copyO_width {id : ℕ} {c : Comp} {s s' : NetState} {w : ℕ} (e : c.copyO id s = .ok s') (ha : Apart id c)
    (h : c.dimO s' = some (some w)) : s'.nO id = some (some w) := by
  unfold Comp.copyO at e
  split at e
  · rename_i v hv
    have := ha _ _ _ e
    rw [h, hv] at this
    cases this
    obtain ⟨rfl, -⟩ := setO_ok e
    simp
  · rename_i hn
    cases e
    exact absurd h (hn _)

theorem copyI_nO {id : ℕ} {c : Comp} {s s' : NetState} (e : c.copyI id s = .ok s') : s'.nO = s.nO := by
  unfold Comp.copyI at e
  split at e
  · obtain ⟨d, -, e⟩ := bind_ok (show Except.bind _ _ = _ from e)
    cases e
    rfl
  · cases e
    rfl

/-- Specification: the width of `c` depends on the output dimensions of the network only. -/
def Spec.WidthFromO (c : Comp) : Prop := ∀ s s' : NetState, s.nO = s'.nO → c.dimO s = c.dimO s'

/-- After `residual(c).initialize(...)` and `with_array(c).initialize(...)`, if `c` has a width, the wrapper has the same. -/
theorem C110_wrapper_width {id pad : ℕ} {c : Comp} {X Y : Option Val} {s s' : NetState} {w : ℕ} (ha : Apart id c) (hc : WidthFromO c)
    (h : c.dimO s' = some (some w)) :
    ((residualC id c).init X Y s = .ok s' → (residualC id c).dimO s' = some (some w)) ∧
    ((withArrayC id pad c).init X Y s = .ok s' → (withArrayC id pad c).dimO s' = some (some w)) := by
  constructor
  · intro e
    obtain ⟨a, -, e⟩ := bind_ok (show Except.bind _ _ = _ from e)
    obtain ⟨b, hb, e⟩ := bind_ok e
    have hO := copyI_nO e
    show s'.nO id = _
    rw [hO]
    exact copyO_width hb ha ((hc _ _ hO.symm).trans h)
  · intro e
    obtain ⟨X', -, e⟩ := bind_ok (show Except.bind _ _ = _ from e)
    obtain ⟨Y', -, e⟩ := bind_ok e
    obtain ⟨a, -, e⟩ := bind_ok e
    obtain ⟨b, hb, e⟩ := bind_ok e
    have hO := copyI_nO e
    show s'.nO id = _
    rw [hO]
    exact copyO_width hb ha ((hc _ _ hO.symm).trans h)

/-! ### The hypotheses can be met -/

/-- Other nodes are apart. -/
theorem leafC_apart (T : TextEnv) {id k : ℕ} (h : k ≠ id) : Apart id (leafC T k) := by
  intro s s' v e
  obtain ⟨rfl, -⟩ := setO_ok e
  show (if k = id then _ else _) = _
  rw [if_neg h]
  rfl

theorem leafC_widthFromO (T : TextEnv) (k : ℕ) : WidthFromO (leafC T k) := fun _ _ h => congrFun h k

/-- Node 0 concatenates the nodes 1 and 2, with the widths 3 and 4. -/
def exWidths : NetState where
  nO k := if k = 0 then some none else some (some (k + 2))
  nI _ := none
  params _ := ⟨0, 0, fun _ => 0⟩
  ready _ := true
  draws := 0

/-- A component that has nothing to initialize. -/
def exSized (k : ℕ) : Comp where
  dimI _ := none
  dimO s := s.nO k
  setI _ _ := .error .keyError
  setO s := s.setO k
  init _ _ s := .ok s
  layer _ := fun _ _ X => .ok (X, fun d G => .ok (d, G))

theorem exSized_apart {id k : ℕ} (h : k ≠ id) : Apart id (exSized k) := by
  intro s s' v e
  obtain ⟨rfl, -⟩ := setO_ok e
  show (if k = id then _ else _) = _
  rw [if_neg h]
  rfl

example : ∃ s', (concatenateC 0 [exSized 1, exSized 2]).init none none exWidths = .ok s' ∧ HaveWidths s' [exSized 1, exSized 2] [3, 4] ∧
    (concatenateC 0 [exSized 1, exSized 2]).dimO s' = some (some 7) := by
  have h : ∃ s', (concatenateC 0 [exSized 1, exSized 2]).init none none exWidths = .ok s' ∧ HaveWidths s' [exSized 1, exSized 2] [3, 4] :=
    ⟨_, rfl, .cons rfl (.cons rfl .nil)⟩
  obtain ⟨s', e, hw⟩ := h
  refine ⟨s', e, hw, C110_concatenate_width e ?_ hw⟩
  intro c hc
  simp only [List.mem_cons, List.not_mem_nil, or_false] at hc
  rcases hc with rfl | rfl
  · exact exSized_apart (by decide)
  · exact exSized_apart (by decide)

example : ∃ s' w, (addC 0 [exSized 1, exSized 1]).init none none exWidths = .ok s' ∧ (addC 0 [exSized 1, exSized 1]).dimO s' = some (some w) :=
  ⟨_, 3, rfl, rfl⟩

example : ∃ s', (residualC 0 (exSized 1)).init none none exWidths = .ok s' ∧ (residualC 0 (exSized 1)).dimO s' = some (some 3) :=
  ⟨_, rfl, rfl⟩

end Thinc
