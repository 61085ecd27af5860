import Verif.Spec.Validate
import Verif.Props.WideInit
/-!
# C112: data validation

Which examples `initialize` accepts when data validation is on, and what it changes otherwise.
-/
namespace Thinc
open Spec

/-! ### Annotations -/

theorem dtypeOk_iff (dtype : Option String) (d : String) : dtypeOk dtype d = true ↔
    (dtype = none ∨ (dtype = some "f" ∧ d = "float32") ∨
      (dtype = some "i" ∧ (d = "int32" ∨ d = "int64" ∨ d = "uint32" ∨ d = "uint64"))) := by
  cases dtype with
  | none => simp [dtypeOk]
  | some k =>
    simp only [dtypeOk, dtypeNames, Option.some.injEq, reduceCtorEq, false_or]
    by_cases hf : k = "f"
    · simp [hf]
    · by_cases hi : k = "i"
      · simp [hi]
      · simp [hf, hi]

theorem ndimOk_iff (ndim : Option ℕ) (n : ℕ) : ndimOk ndim n = true ↔ ∀ m, ndim = some m → n = m := by
  cases ndim <;> simp [ndimOk]

/-- An array annotation accepts exactly the arrays with the right number of dimensions and a dtype of the right kind. -/
theorem C112_array (ndim : Option ℕ) (dtype : Option String) (v : Datum) :
    validateArray ndim dtype v = true ↔ ∃ n d, v = .arr n d ∧ ArrayConforms ndim dtype n d := by
  cases v with
  | arr n d =>
    rw [validateArray, Bool.and_eq_true, ndimOk_iff, dtypeOk_iff]
    constructor
    · exact fun h => ⟨n, d, rfl, h⟩
    · rintro ⟨n', d', h, h'⟩
      cases h
      exact h'
  | _ => simp [validateArray]

mutual
theorem annAccepts_iff : ∀ (a : Ann) (v : Datum), a.accepts v = true ↔ Conforms a v
  | .any, v => by
    rw [Ann.accepts]
    exact ⟨fun _ => .any v, fun _ => rfl⟩
  | .array ndim dtype, v => by
    rw [Ann.accepts, C112_array]
    constructor
    · rintro ⟨n, d, rfl, h⟩; exact .array h
    · intro h; cases h with
      | array h => exact ⟨_, _, rfl, h⟩
  | .list a, v => by
    have ih : ∀ w, a.accepts w = true ↔ Conforms a w := fun w => annAccepts_iff a w
    cases v with
    | list vs =>
      rw [Ann.accepts, List.all_eq_true]
      constructor
      · exact fun h => .list fun v hv => (ih v).1 (h v hv)
      · intro h; cases h with
        | list h => exact fun v hv => (ih v).2 (h v hv)
    | tup vs =>
      rw [Ann.accepts, List.all_eq_true]
      constructor
      · exact fun h => .listOfTuple fun v hv => (ih v).1 (h v hv)
      · intro h; cases h with
        | listOfTuple h => exact fun v hv => (ih v).2 (h v hv)
    | arr n d => exact ⟨fun h => by simp [Ann.accepts] at h, fun h => by cases h⟩
    | obj k => exact ⟨fun h => by simp [Ann.accepts] at h, fun h => by cases h⟩
    | fn => exact ⟨fun h => by simp [Ann.accepts] at h, fun h => by cases h⟩
  | .tuple as, v => by
    cases v with
    | list vs =>
      rw [Ann.accepts, acceptsAll_iff as vs]
      exact ⟨fun h => .tupleOfList h, fun h => by cases h with | tupleOfList h => exact h⟩
    | tup vs =>
      rw [Ann.accepts, acceptsAll_iff as vs]
      exact ⟨fun h => .tuple h, fun h => by cases h with | tuple h => exact h⟩
    | arr n d => exact ⟨fun h => by simp [Ann.accepts] at h, fun h => by cases h⟩
    | obj k => exact ⟨fun h => by simp [Ann.accepts] at h, fun h => by cases h⟩
    | fn => exact ⟨fun h => by simp [Ann.accepts] at h, fun h => by cases h⟩
  | .union as, v => by
    rw [Ann.accepts, acceptsAny_iff as v]
    constructor
    · rintro ⟨a, ha, h⟩; exact .union ha h
    · intro h; cases h with
      | union ha h => exact ⟨_, ha, h⟩
  | .cls k, v => by
    cases v with
    | obj c =>
      rw [Ann.accepts, beq_iff_eq]
      constructor
      · rintro rfl; exact .cls k
      · intro h; cases h; rfl
    | list vs => exact ⟨fun h => by simp [Ann.accepts] at h, fun h => by cases h⟩
    | tup vs => exact ⟨fun h => by simp [Ann.accepts] at h, fun h => by cases h⟩
    | arr n d => exact ⟨fun h => by simp [Ann.accepts] at h, fun h => by cases h⟩
    | fn => exact ⟨fun h => by simp [Ann.accepts] at h, fun h => by cases h⟩
  | .callable, v => by
    cases v with
    | fn => exact ⟨fun _ => .callable, fun _ => by simp [Ann.accepts]⟩
    | list vs => exact ⟨fun h => by simp [Ann.accepts] at h, fun h => by cases h⟩
    | tup vs => exact ⟨fun h => by simp [Ann.accepts] at h, fun h => by cases h⟩
    | arr n d => exact ⟨fun h => by simp [Ann.accepts] at h, fun h => by cases h⟩
    | obj k => exact ⟨fun h => by simp [Ann.accepts] at h, fun h => by cases h⟩

theorem acceptsAll_iff : ∀ (as : List Ann) (vs : List Datum), acceptsAll as vs = true ↔ List.Forall₂ Conforms as vs
  | [], [] => ⟨fun _ => .nil, fun _ => by simp [acceptsAll]⟩
  | [], v :: vs => ⟨fun h => by simp [acceptsAll] at h, fun h => by cases h⟩
  | a :: as, [] => ⟨fun h => by simp [acceptsAll] at h, fun h => by cases h⟩
  | a :: as, v :: vs => by
    rw [acceptsAll, Bool.and_eq_true, annAccepts_iff a v, acceptsAll_iff as vs, List.forall₂_cons]

theorem acceptsAny_iff : ∀ (as : List Ann) (v : Datum), acceptsAny as v = true ↔ ∃ a ∈ as, Conforms a v
  | [], v => ⟨fun h => by simp [acceptsAny] at h, fun ⟨_, h, _⟩ => by cases h⟩
  | a :: as, v => by
    rw [acceptsAny, Bool.or_eq_true, annAccepts_iff a v, acceptsAny_iff as v]
    simp
end

/-- The annotations that pydantic is given accept exactly the values that conform to them. -/
theorem C112_accepts_iff (a : Ann) (v : Datum) : a.accepts v = true ↔ Conforms a v := annAccepts_iff a v

/-! ### validate_fwd_input_output -/

/-- What is compared with the annotation: a list is cut after five items. -/
theorem cut_of_short {v : Datum} (h : ¬ LongList v) : v.cut = v := by
  cases v with
  | list vs =>
    rw [Datum.cut, if_neg]
    exact fun hl => h ⟨vs, rfl, hl⟩
  | _ => rfl

theorem validX_iff (ann : Option Ann) (X : Option Datum) : validX ann X = true ↔ SampleConforms ann (X.map Datum.cut) := by
  cases X with
  | none => simp [validX, SampleConforms]
  | some x =>
    cases ann with
    | none => simp [validX, SampleConforms]
    | some a => simp [validX, SampleConforms, annAccepts_iff]

theorem validY_iff (ann : Option Ann) (Y : Option Datum) :
    validY ann Y = true ↔ SampleConforms ann (Y.map fun y => .tup [y.cut, .fn]) := by
  cases Y with
  | none => simp [validY, SampleConforms]
  | some x =>
    cases ann with
    | none => simp [validY, SampleConforms]
    | some a => simp [validY, SampleConforms, annAccepts_iff]

/-- The examples are accepted if and only if the forward function has three parameters, X conforms to the annotation of the
second, and the pair of Y and a function conforms to the annotation of the result; otherwise the error is a ValueError.  What
is missing: of a list with more than five items only the first five are looked at, see `C112_sixth_item_violated`. -/
theorem C112_validate_partial (sig : Signature) (X Y : Option Datum) (hX : ∀ x, X = some x → ¬ LongList x)
    (hY : ∀ y, Y = some y → ¬ LongList y) :
    (validateFwd sig X Y = .ok () ↔ sig.params = 3 ∧ SampleConforms sig.annX X ∧
      SampleConforms sig.annY (Y.map fun y => .tup [y, .fn])) ∧
    (validateFwd sig X Y = .ok () ∨ validateFwd sig X Y = .error .valueError) := by
  have eX : X.map Datum.cut = X := by
    cases X with
    | none => rfl
    | some x => rw [Option.map_some, cut_of_short (hX x rfl)]
  have eY : (Y.map fun y => Datum.tup [y.cut, .fn]) = Y.map fun y => .tup [y, .fn] := by
    cases Y with
    | none => rfl
    | some y => rw [Option.map_some, Option.map_some, cut_of_short (hY y rfl)]
  have hv : (validX sig.annX X && validY sig.annY Y) = true ↔ SampleConforms sig.annX X ∧
      SampleConforms sig.annY (Y.map fun y => .tup [y, .fn]) := by
    rw [Bool.and_eq_true, validX_iff, validY_iff, eX, eY]
  unfold validateFwd
  by_cases h3 : sig.params = 3
  · rw [if_neg (by simp [h3])]
    by_cases h : (validX sig.annX X && validY sig.annY Y) = true
    · rw [if_pos h]
      exact ⟨⟨fun _ => ⟨h3, hv.1 h⟩, fun _ => rfl⟩, .inl rfl⟩
    · rw [if_neg h]
      exact ⟨⟨fun h' => (by cases h'), fun h' => absurd (hv.2 h'.2) h⟩, .inr rfl⟩
  · rw [if_pos h3]
    exact ⟨⟨fun h => (by cases h), fun h => absurd h.1 h3⟩, .inr rfl⟩

/-- Lists of any length: the first five items decide, so conforming examples are always accepted. -/
theorem C112_conforming_accepted (sig : Signature) (X Y : List Datum) (a b : Ann) (hp : sig.params = 3)
    (hX : sig.annX = some (.list a)) (hY : sig.annY = some (.tuple [.list b, .callable])) :
    validateFwd sig (some (.list X)) (some (.list Y)) = .ok () ↔ (∀ v ∈ X.take 5, Conforms a v) ∧ (∀ v ∈ Y.take 5, Conforms b v) := by
  have cut : ∀ vs : List Datum, (Datum.list vs).cut = .list (vs.take 5) := by
    intro vs
    rw [Datum.cut]
    split
    · rfl
    · rw [List.take_of_length_le (by omega)]
  have e1 : validX sig.annX (some (.list X)) = true ↔ ∀ v ∈ X.take 5, Conforms a v := by
    rw [validX_iff, hX, Option.map_some, cut]
    constructor
    · intro h
      have := h _ _ rfl rfl
      cases this with
      | list h => exact h
    · intro h a' v' e e'
      cases e; cases e'
      exact .list h
  have e2 : validY sig.annY (some (.list Y)) = true ↔ ∀ v ∈ Y.take 5, Conforms b v := by
    rw [validY_iff, hY, Option.map_some, cut]
    constructor
    · intro h
      have := h _ _ rfl rfl
      cases this with
      | tuple h =>
        cases h with
        | cons h _ =>
          cases h with
          | list h => exact h
    · intro h a' v' e e'
      cases e; cases e'
      exact .tuple (.cons (.list h) (.cons .callable .nil))
  unfold validateFwd
  rw [if_neg (by simp [hp])]
  by_cases h : (validX sig.annX (some (.list X)) && validY sig.annY (some (.list Y))) = true
  · rw [if_pos h]
    rw [Bool.and_eq_true, e1, e2] at h
    exact ⟨fun _ => h, fun _ => rfl⟩
  · rw [if_neg h]
    refine ⟨fun h' => (by cases h'), fun h' => absurd ?_ h⟩
    rw [Bool.and_eq_true, e1, e2]
    exact h'

/-- The annotations of `list2array`: a list of two-dimensional float arrays. -/
def exListSig : Signature := ⟨3, some (.list (.array (some 2) (some "f"))), some (.tuple [.array (some 2) (some "f"), .callable])⟩

/-- A list whose sixth item is an array of integers is accepted where a list of float arrays is expected. -/
theorem C112_sixth_item_violated : ∃ X : Datum, validateFwd exListSig (some X) none = .ok () ∧ ¬ SampleConforms exListSig.annX (some X) := by
  refine ⟨.list (List.replicate 5 (.arr 2 "float32") ++ [.arr 2 "int64"]), by decide, fun h => ?_⟩
  have := h _ _ rfl rfl
  cases this with
  | list h =>
    have := h (.arr 2 "int64") (by simp)
    cases this with
    | array h => simp [ArrayConforms] at h

/-- The hypotheses of `C112_validate_partial` are met: two float arrays conform, double precision does not. -/
example : validateFwd exListSig (some (.list [.arr 2 "float32", .arr 2 "float32"])) (some (.arr 2 "float32")) = .ok () :=
  (C112_validate_partial exListSig _ _ (by rintro x hx ⟨vs, rfl, h⟩; cases hx; simp at h)
    (by rintro x hx ⟨vs, rfl, h⟩; cases hx)).1.2
    ⟨rfl, by
      intro a v ha hv
      cases ha; cases hv
      exact .list (by simp [List.forall_mem_cons]; exact .array (by simp [ArrayConforms])), by
      intro a v ha hv
      cases ha; cases hv
      exact .tuple (.cons (.array (by simp [ArrayConforms])) (.cons .callable .nil))⟩

example : validateFwd exListSig (some (.list [.arr 2 "float64"])) none = .error .valueError := by decide

/-! ### Models -/

/-- The second computation succeeds with the same result whenever the first does. -/
def Le {α : Type} (x y : Except PyErr α) : Prop := ∀ a, x = .ok a → y = .ok a

theorem Le.refl {α : Type} (x : Except PyErr α) : Le x x := fun _ h => h

theorem Le.bind {α β : Type} {x y : Except PyErr α} {f g : α → Except PyErr β} (h : Le x y) (k : ∀ a, Le (f a) (g a)) :
    Le (x.bind f) (y.bind g) := by
  intro b hb
  obtain ⟨a, ha, hb⟩ := bind_ok hb
  rw [h a ha]
  exact k a b hb

theorem Le.of_eq {α : Type} {x y : Except PyErr α} (h : x = y) : Le x y := h ▸ Le.refl x

/-- The second layer is the first without data validation. -/
structure Ref (c d : Comp) : Prop where
  dimI : d.dimI = c.dimI
  dimO : d.dimO = c.dimO
  setI : d.setI = c.setI
  setO : d.setO = c.setO
  layer : d.layer = c.layer
  init : ∀ X Y s, Le (d.init X Y s) (c.init X Y s)

theorem Ref.checked {c d : Comp} (h : Ref c d) (sig : Signature) : Ref c (d.checked sig) := by
  refine ⟨h.dimI, h.dimO, h.setI, h.setO, h.layer, fun X Y s s' e => ?_⟩
  obtain ⟨-, -, e⟩ := bind_ok (show Except.bind _ _ = _ from e)
  exact h.init X Y s s' e

theorem Ref.rfl' (c : Comp) : Ref c c := ⟨rfl, rfl, rfl, rfl, rfl, fun _ _ _ => Le.refl _⟩

theorem Ref.predict {c d : Comp} (h : Ref c d) (s : NetState) (X : Val) : d.predict s X = c.predict s X := by
  unfold Comp.predict; rw [h.layer]

theorem Ref.copyI {c d : Comp} (h : Ref c d) (id : ℕ) (s : NetState) : d.copyI id s = c.copyI id s := by
  unfold Comp.copyI; rw [h.dimI]

theorem Ref.copyO {c d : Comp} (h : Ref c d) (id : ℕ) (s : NetState) : d.copyO id s = c.copyO id s := by
  unfold Comp.copyO; rw [h.dimO]

theorem Ref.target {c d : Comp} (h : Ref c d) (s : NetState) (Y : Option Val) : d.target s Y = c.target s Y := by
  unfold Comp.target; rw [h.dimO]

theorem ref_wrapper {c d : Comp} {id : ℕ} {f g : Option Val → Option Val → NetState → Except PyErr NetState} {K : Layer → Layer}
    (h : Ref c d) (hi : ∀ X Y s, Le (g X Y s) (f X Y s)) :
    Ref (wrapper id f fun s => K (c.layer s)) (wrapper id g fun s => K (d.layer s)) := by
  refine ⟨rfl, rfl, rfl, rfl, ?_, hi⟩
  simp only [wrapper, h.layer]

theorem ref_bare {c d : Comp} {f g : Option Val → Option Val → NetState → Except PyErr NetState} {K : Layer → Layer}
    (h : Ref c d) (hi : ∀ X Y s, Le (g X Y s) (f X Y s)) :
    Ref (bareWrapper f fun s => K (c.layer s)) (bareWrapper g fun s => K (d.layer s)) := by
  refine ⟨rfl, rfl, rfl, rfl, ?_, hi⟩
  simp only [bareWrapper, h.layer]

theorem ref_convert {c d : Comp} (h : Ref c d) (f : Val → Except PyErr Val) (X Y : Option Val) (s : NetState) :
    Le (convertInit f d X Y s) (convertInit f c X Y s) :=
  Le.bind (Le.refl _) fun _ => Le.bind (Le.refl _) fun _ => h.init _ _ _

/-- The layers of a combinator, without and with data validation. -/
abbrev Pairs2 := List (Comp × Comp)

theorem ref_layers {ps : Pairs2} (h : ∀ p ∈ ps, Ref p.1 p.2) (s : NetState) :
    (ps.map Prod.snd).map (fun c => c.layer s) = (ps.map Prod.fst).map fun c => c.layer s := by
  rw [List.map_map, List.map_map]
  exact List.map_congr_left fun p hp => by simp only [Function.comp, (h p hp).layer]

theorem ref_initAll : ∀ {ps : Pairs2}, (∀ p ∈ ps, Ref p.1 p.2) → ∀ X Y s,
    Le (initAllC (ps.map Prod.snd) X Y s) (initAllC (ps.map Prod.fst) X Y s)
  | [], _, _, _, _ => Le.refl _
  | p :: ps, h, X, Y, s => Le.bind ((h p (by simp)).init X Y s) fun a => ref_initAll (fun p hp => h p (by simp [hp])) X Y a

theorem ref_copyFirst {ps : Pairs2} (h : ∀ p ∈ ps, Ref p.1 p.2) (id : ℕ) (s : NetState) :
    copyFirstI id (ps.map Prod.snd) s = copyFirstI id (ps.map Prod.fst) s := by
  cases ps with
  | nil => rfl
  | cons p ps => exact (h p (by simp)).copyI id s

theorem ref_copyLast {ps : Pairs2} (h : ∀ p ∈ ps, Ref p.1 p.2) (id : ℕ) (s : NetState) :
    copyLastO id (ps.map Prod.snd) s = copyLastO id (ps.map Prod.fst) s := by
  unfold copyLastO
  rw [List.getLast?_map, List.getLast?_map]
  cases e : ps.getLast? with
  | none => rfl
  | some p => exact (h p (List.mem_of_getLast? e)).copyO id s

theorem ref_initChain : ∀ {ps : Pairs2}, (∀ p ∈ ps, Ref p.1 p.2) → ∀ X Y s,
    Le (initChainC (ps.map Prod.snd) X Y s) (initChainC (ps.map Prod.fst) X Y s)
  | [], _, _, _, _ => Le.refl _
  | p :: ps, h, X, Y, s => by
    have hp := h p (by simp)
    refine Le.bind (x := p.2.init X (p.2.target s Y) s) (y := p.1.init X (p.1.target s Y) s) ?_ fun a => ?_
    · rw [hp.target]; exact hp.init _ _ _
    · refine Le.bind (Le.of_eq ?_) fun V => ref_initChain (fun p hp => h p (by simp [hp])) V Y a
      unfold Comp.next
      cases X with
      | none => rfl
      | some x => simp only [hp.predict]

theorem ref_chain {ps : Pairs2} (h : ∀ p ∈ ps, Ref p.1 p.2) (id : ℕ) :
    Ref (chainC id (ps.map Prod.fst)) (chainC id (ps.map Prod.snd)) := by
  refine ⟨rfl, rfl, rfl, rfl, ?_, fun X Y s => ?_⟩
  · simp only [chainC, wrapper, ref_layers h]
  · refine Le.bind (x := chainStartC id (ps.map Prod.snd) X Y s) (y := chainStartC id (ps.map Prod.fst) X Y s) ?_ fun a =>
      Le.bind (ref_initChain h X Y a) fun r => ?_
    · unfold chainStartC
      split
      · refine Le.bind (ref_initAll h _ _ _) fun b => ?_
        rw [ref_copyFirst h]
        exact Le.bind (Le.refl _) fun c => Le.of_eq (ref_copyLast h id c)
      · exact Le.refl _
    · unfold chainFinishC
      rw [ref_copyFirst h]
      refine Le.bind (Le.refl _) fun b => Le.of_eq ?_
      unfold chainSetOC
      simp only [ref_copyLast h]

theorem ref_setAllI {w : ℕ} : ∀ {ps : Pairs2}, (∀ p ∈ ps, Ref p.1 p.2) → ∀ s,
    setAllIC w (ps.map Prod.snd) s = setAllIC w (ps.map Prod.fst) s
  | [], _, _ => rfl
  | p :: ps, h, s => by
    have hp := h p (by simp)
    have e : p.2.setIIfAny s w = p.1.setIIfAny s w := by unfold Comp.setIIfAny; rw [hp.dimI, hp.setI]
    simp only [List.map_cons, setAllIC, e]
    congr 1
    funext a
    exact ref_setAllI (fun p hp => h p (by simp [hp])) a

theorem ref_setAllO {w : ℕ} : ∀ {ps : Pairs2}, (∀ p ∈ ps, Ref p.1 p.2) → ∀ s,
    setAllOC w (ps.map Prod.snd) s = setAllOC w (ps.map Prod.fst) s
  | [], _, _ => rfl
  | p :: ps, h, s => by
    have hp := h p (by simp)
    have e : p.2.setOIfAny s w = p.1.setOIfAny s w := by unfold Comp.setOIfAny; rw [hp.dimO, hp.setO]
    simp only [List.map_cons, setAllOC, e]
    congr 1
    funext a
    exact ref_setAllO (fun p hp => h p (by simp [hp])) a

theorem ref_combInferI {ps : Pairs2} (h : ∀ p ∈ ps, Ref p.1 p.2) (id : ℕ) (X : Option Val) (s : NetState) :
    combInferIC id (ps.map Prod.snd) X s = combInferIC id (ps.map Prod.fst) X s := by
  unfold combInferIC
  simp only [ref_setAllI h]

theorem ref_addInferO {ps : Pairs2} (h : ∀ p ∈ ps, Ref p.1 p.2) (id : ℕ) (X : Option Val) (s : NetState) :
    addInferOC id (ps.map Prod.snd) X s = addInferOC id (ps.map Prod.fst) X s := by
  unfold addInferOC
  simp only [ref_setAllO h]

theorem ref_add {ps : Pairs2} (h : ∀ p ∈ ps, Ref p.1 p.2) (id : ℕ) : Ref (addC id (ps.map Prod.fst)) (addC id (ps.map Prod.snd)) := by
  refine ⟨rfl, rfl, rfl, rfl, ?_, fun X Y s => ?_⟩
  · simp only [addC, wrapper, ref_layers h]
  · refine Le.bind (x := combInferIC id (ps.map Prod.snd) X s) (y := combInferIC id (ps.map Prod.fst) X s)
      (Le.of_eq (ref_combInferI h id X s)) fun a => Le.bind (Le.of_eq (ref_addInferO h id Y a)) fun b =>
      Le.bind (ref_initAll h X Y b) fun c => Le.of_eq ?_
    cases ps with
    | nil => rfl
    | cons p ps => simp only [List.map_cons, addFinishC, (h p (by simp)).dimO]

theorem ref_sumDims : ∀ {ps : Pairs2}, (∀ p ∈ ps, Ref p.1 p.2) → ∀ s, sumDimsC s (ps.map Prod.snd) = sumDimsC s (ps.map Prod.fst)
  | [], _, _ => rfl
  | p :: ps, h, s => by
    have ih : sumDimsC s (ps.map Prod.snd) = sumDimsC s (ps.map Prod.fst) := ref_sumDims (fun q hq => h q (List.mem_cons_of_mem _ hq)) s
    simp only [List.map_cons, sumDimsC, (h p (by simp)).dimO, ih]

theorem ref_concatenate {ps : Pairs2} (h : ∀ p ∈ ps, Ref p.1 p.2) (id : ℕ) :
    Ref (concatenateC id (ps.map Prod.fst)) (concatenateC id (ps.map Prod.snd)) := by
  refine ⟨rfl, rfl, rfl, rfl, ?_, fun X Y s => ?_⟩
  · simp only [concatenateC, wrapper, ref_layers h]
  · refine Le.bind (x := combInferIC id (ps.map Prod.snd) X s) (y := combInferIC id (ps.map Prod.fst) X s)
      (Le.of_eq (ref_combInferI h id X s)) fun a => Le.bind (ref_initAll h X Y a) fun c => Le.of_eq ?_
    unfold concatFinishC
    rw [ref_sumDims h]

theorem ref_initTuplify : ∀ {ps : Pairs2}, (∀ p ∈ ps, Ref p.1 p.2) → ∀ ii X Y s,
    Le (initTuplify (ps.map Prod.snd) ii X Y s) (initTuplify (ps.map Prod.fst) ii X Y s)
  | [], _, _, _, _, _ => Le.refl _
  | p :: ps, h, ii, X, Y, s => by
    have hp := h p (by simp)
    refine Le.bind (x := tuplifyTarget p.2 ii Y s) (y := tuplifyTarget p.1 ii Y s) (Le.of_eq ?_) fun y =>
      Le.bind (hp.init X y s) fun a => ref_initTuplify (fun p hp => h p (by simp [hp])) (ii + 1) X Y a
    unfold tuplifyTarget
    rw [hp.dimO]

theorem ref_tuplify {ps : Pairs2} (h : ∀ p ∈ ps, Ref p.1 p.2) (id : ℕ) :
    Ref (tuplifyC id (ps.map Prod.fst)) (tuplifyC id (ps.map Prod.snd)) := by
  refine ⟨rfl, rfl, rfl, rfl, ?_, fun X Y s => ?_⟩
  · simp only [tuplifyC, ref_layers h]
  · refine Le.bind (x := tuplifyStart id (ps.map Prod.snd) X Y s) (y := tuplifyStart id (ps.map Prod.fst) X Y s) ?_ fun a =>
      Le.bind (ref_initTuplify h 0 X Y a) fun b => Le.of_eq (ref_copyFirst h id b)
    unfold tuplifyStart
    split
    · exact Le.bind (ref_initAll h _ _ _) fun b => Le.of_eq (ref_copyFirst h id b)
    · exact Le.refl _

theorem ref_siamese {c d c' d' : Comp} (h : Ref c d) (h' : Ref c' d') (id : ℕ) : Ref (siameseC id c c') (siameseC id d d') := by
  refine ⟨rfl, rfl, rfl, rfl, ?_, fun X Y s => ?_⟩
  · simp only [siameseC, wrapper, h.layer, h'.layer]
  · refine Le.bind (x := siameseEncode d X s) (y := siameseEncode c X s) ?_ fun r => Le.bind (h'.init _ _ _) fun a => ?_
    · unfold siameseEncode
      cases X with
      | none => exact Le.refl _
      | some x =>
        simp only [h.setI, h.predict]
        exact Le.bind (Le.refl _) fun x1 => Le.bind (Le.refl _) fun w => Le.bind (Le.refl _) fun t => Le.bind (Le.refl _) fun x0 =>
          Le.bind (h.init _ _ _) fun u => Le.refl _
    · rw [h.dimI, h'.dimO]
      exact Le.refl _

theorem validated_ref {W : WideEnv} {c d : Comp} (h : Validated W c d) : Ref c d := by
  induction h with
  | leaf sig id => exact (Ref.rfl' _).checked sig
  | more sig id k => exact (Ref.rfl' _).checked sig
  | plain sig L => exact (Ref.rfl' _).checked sig
  | withArray sig id pad c d _ ih =>
    refine Ref.checked (ref_wrapper (K := fun L => withArrayAny L pad) ih fun X Y s => ?_) sig
    unfold withArrayInit
    simp only [ih.copyI, ih.copyO]
    exact Le.bind (Le.refl _) fun _ => Le.bind (Le.refl _) fun _ => Le.bind (ih.init _ _ _) fun _ => Le.refl _
  | withList sig id c d _ ih => exact Ref.checked (ref_wrapper (K := withListL) ih fun X Y s => ref_convert ih _ X Y s) sig
  | withRagged sig c d _ ih => exact Ref.checked (ref_bare (K := withRaggedL) ih fun X Y s => ref_convert ih _ X Y s) sig
  | withPadded sig id c d _ ih => exact Ref.checked (ref_wrapper (K := withPaddedL) ih fun X Y s => ref_convert ih _ X Y s) sig
  | residual sig id c d _ ih =>
    refine Ref.checked (ref_wrapper (K := Thinc.residual) ih fun X Y s => ?_) sig
    unfold residualInitC
    simp only [ih.copyI, ih.copyO, ih.target]
    exact Le.bind (ih.init _ _ _) fun _ => Le.refl _
  | mapList sig c d _ ih =>
    exact Ref.checked (ref_bare (K := Thinc.mapList) ih fun X Y s =>
      Le.bind (Le.refl _) fun _ => Le.bind (Le.refl _) fun _ => ih.init _ _ _) sig
  | withGetitem sig idx c d _ ih =>
    exact Ref.checked (ref_bare (K := Thinc.withGetitem idx) ih fun X Y s => ref_convert ih _ X Y s) sig
  | uniqued sig id column fast c d _ ih =>
    refine Ref.checked (ref_wrapper (K := fun L => Thinc.uniqued L column fast) ih fun X Y s => ?_) sig
    unfold uniquedInit
    simp only [ih.copyI, ih.copyO]
    exact Le.bind (ih.init _ _ _) fun _ => Le.refl _
  | resizable sig id c d _ ih => exact Ref.checked (ref_wrapper (K := fun L => L) ih ih.init) sig
  | withCpu sig id c d _ ih => exact Ref.checked (ref_wrapper (K := fun L _ P X => L true P X) ih ih.init) sig
  | attentionV2 sig id c d _ ih =>
    refine Ref.checked (c := attentionV2C _ id c) (d := attentionV2C _ id d) ⟨rfl, rfl, rfl, rfl, ?_, fun X Y s => ?_⟩ sig
    · simp only [attentionV2C, ih.layer]
    · refine Le.bind (x := attentionV2Infer id d X s) (y := attentionV2Infer id c X s) (Le.of_eq ?_) fun a =>
        Le.bind (Le.refl _) fun o => Le.bind (Le.refl _) fun _ => Le.bind (Le.refl _) fun _ => ih.init _ _ _
      unfold attentionV2Infer attentionV2Dims
      simp only [ih.dimO, ih.setO]
  | bidirectional sig c d c' d' _ _ ih ih' =>
    refine Ref.checked (c := bidirectionalC c c') (d := bidirectionalC d d') ⟨rfl, rfl, rfl, rfl, ?_, fun X Y s => ?_⟩ sig
    · simp only [bidirectionalC, bareWrapper, ih.layer, ih'.layer]
    · exact Le.bind (Le.refl _) fun ys => Le.bind (ih.init _ _ _) fun _ => ih'.init _ _ _
  | siamese sig id c d c' d' _ _ ih ih' => exact Ref.checked (ref_siamese ih ih' id) sig
  | chain sig id ps _ ih => exact Ref.checked (ref_chain ih id) sig
  | add sig id ps _ ih => exact Ref.checked (ref_add ih id) sig
  | concatenate sig id ps _ ih => exact Ref.checked (ref_concatenate ih id) sig
  | tuplify sig id ps _ ih => exact Ref.checked (ref_tuplify ih id) sig

/-- Data validation never changes what `initialize` does, it only refuses examples: whatever the annotations of the layers
are, if `initialize` succeeds with it, it succeeds without it and ends in the same state; and `predict` is the same. -/
theorem C112_only_refuses {W : WideEnv} {c d : Comp} (h : Validated W c d) {X Y : Option Val} {s s' : NetState}
    (e : d.init X Y s = .ok s') : c.init X Y s = .ok s' ∧ ∀ t x, d.predict t x = c.predict t x :=
  ⟨(validated_ref h).init X Y s s' e, fun t x => (validated_ref h).predict t x⟩

/-- With data validation every layer refuses examples that do not conform to its annotations. -/
theorem C112_refused (c : Comp) (sig : Signature) {X Y : Option Val} {s s' : NetState} (h : (c.checked sig).init X Y s = .ok s')
    (hX : ∀ x, X = some x → ¬ LongList x.datum) (hY : ∀ y, Y = some y → ¬ LongList y.datum) :
    SampleConforms sig.annX (X.map Val.datum) ∧ SampleConforms sig.annY ((Y.map Val.datum).map fun y => .tup [y, .fn]) := by
  obtain ⟨u, hu, -⟩ := bind_ok (show Except.bind _ _ = _ from h)
  refine ((C112_validate_partial sig _ _ ?_ ?_).1.1 hu).2
  · intro x hx
    cases X with
    | none => cases hx
    | some X => cases hx; exact hX X rfl
  · intro y hy
    cases Y with
    | none => cases hy
    | some Y => cases hy; exact hY Y rfl

/-- A layer whose examples conform is initialized as without data validation, with the same result or the same error. -/
theorem C112_conforming_same (c : Comp) (sig : Signature) (hp : sig.params = 3) {X Y : Option Val} (s : NetState)
    (hX : ∀ x, X = some x → ¬ LongList x.datum) (hY : ∀ y, Y = some y → ¬ LongList y.datum)
    (cX : SampleConforms sig.annX (X.map Val.datum)) (cY : SampleConforms sig.annY ((Y.map Val.datum).map fun y => .tup [y, .fn])) :
    (c.checked sig).init X Y s = c.init X Y s := by
  have h : validateFwd sig (X.map Val.datum) (Y.map Val.datum) = .ok () := by
    refine (C112_validate_partial sig _ _ ?_ ?_).1.2 ⟨hp, cX, cY⟩
    · intro x hx
      cases X with
      | none => cases hx
      | some X => cases hx; exact hX X rfl
    · intro y hy
      cases Y with
      | none => cases hy
      | some Y => cases hy; exact hY Y rfl
  show Except.bind (validateFwd sig (X.map Val.datum) (Y.map Val.datum)) (fun _ => c.init X Y s) = _
  rw [h]
  rfl

/-- The annotations of Linear: thinc/layers/linear.py:35-37. -/
def exLinearSig : Signature := ⟨3, some (.array (some 2) (some "f")), some (.tuple [.array (some 2) (some "f"), .callable])⟩

/-- Chains have type variables as annotations: thinc/layers/chain.py:48. -/
def exAnySig : Signature := ⟨3, some .any, some (.tuple [.any, .callable])⟩

/-- `Linear(4, 3)` in a chain, with data validation. -/
noncomputable def exValidated : Comp := (chainC 7 [(leafC exWideEnv.text 0).checked exLinearSig]).checked exAnySig

theorem exValidated_is : Validated exWideEnv (chainC 7 [leafC exWideEnv.text 0]) exValidated :=
  .chain exAnySig 7 [(leafC exWideEnv.text 0, (leafC exWideEnv.text 0).checked exLinearSig)] fun p hp => by
    simp only [List.mem_singleton] at hp
    subst hp
    exact .leaf exLinearSig 0

/-- A float array is accepted; an array of integers is refused, which is not refused without data validation. -/
example : (∃ s', exValidated.init (some (.arr (Mat.ofFn 2 3 fun _ _ => 1))) none exWideState = .ok s') ∧
    exValidated.init (some (.intMat (Mat.ofFn 2 3 fun _ _ => 1))) none exWideState = .error .valueError ∧
    ∃ s', (leafC exWideEnv.text 0).init (some (.intMat (Mat.ofFn 2 3 fun _ _ => 1))) none exWideState = .ok s' :=
  ⟨⟨_, rfl⟩, rfl, ⟨_, rfl⟩⟩

end Thinc
