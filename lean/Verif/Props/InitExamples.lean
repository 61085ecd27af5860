import Verif.Props.WideInit
/-!
# C111: which examples the layers inside a combinator are initialized with
-/
namespace Thinc
open Spec

/-- The example for one item: the first one of a list or tuple, nothing if there is none. -/
inductive FirstItem : Option Val → Option Val → Prop
  | nothing : FirstItem none none
  | emptyList : FirstItem (some (.list [])) none
  | list (v : Val) (vs : List Val) : FirstItem (some (.list (v :: vs))) (some v)
  | emptyTuple : FirstItem (some (.tup [])) none
  | tuple (v : Val) (vs : List Val) : FirstItem (some (.tup (v :: vs))) (some v)

/-- `map_list` initializes its layer with the first item of each example, or without an example if there is no item. -/
theorem C111_map_list_examples (c : Comp) {X Y x y : Option Val} (hX : FirstItem X x) (hY : FirstItem Y y) (s : NetState) :
    (mapListC c).init X Y s = c.init x y s := by
  cases hX <;> cases hY <;> rfl

/-- The item at the place `idx` of a tuple, if there is an example. -/
inductive ItemAt (idx : ℕ) : Option Val → Option Val → Prop
  | nothing : ItemAt idx none none
  | item (vs : List Val) (v : Val) : vs[idx]? = some v → ItemAt idx (some (.tup vs)) (some v)

theorem tup_item {vs : List Val} {idx : ℕ} {v : Val} (h : vs[idx]? = some v) : Val.item (.tup vs) (idx : ℤ) = .ok v := by
  show pyIndex vs (idx : ℤ) = _
  unfold pyIndex
  simp only [show ¬ ((idx : ℤ) < 0) by omega, if_false, Int.toNat_natCast, h]

theorem itemAt_convert {idx : ℕ} {X x : Option Val} (h : ItemAt idx X x) : convertOpt (fun x => x.item (idx : ℤ)) X = .ok x := by
  cases h with
  | nothing => rfl
  | item vs v h =>
    show (do return some (← Val.item (.tup vs) (idx : ℤ)) : Except PyErr (Option Val)) = _
    rw [tup_item h]
    rfl

/-- `with_getitem(idx, layer)` initializes the layer with the items at `idx`. -/
theorem C111_getitem_examples (idx : ℕ) (c : Comp) {X Y x y : Option Val} (hX : ItemAt idx X x) (hY : ItemAt idx Y y) (s : NetState) :
    (withGetitemC idx c).init X Y s = c.init x y s := by
  show convertInit _ c X Y s = _
  unfold convertInit
  rw [itemAt_convert hX, itemAt_convert hY]
  rfl

/-- `siamese` sets the input width of the encoder from the second input, initializes it with the first, and initializes the similarity with the
encodings of the two inputs, in their order, and with `Y`. -/
theorem C111_siamese_examples {id : ℕ} {c sim : Comp} {x1 x2 : Val} {Y : Option Val} {s s' : NetState}
    (h : (siameseC id c sim).init (some (.tup [x1, x2])) Y s = .ok s') :
    ∃ w s1 s2 v1 v2 s3, getWidth x2 = .ok w ∧ c.setI s w = .ok s1 ∧ c.init (some x1) none s1 = .ok s2 ∧ c.predict s2 x1 = .ok v1 ∧
      c.predict s2 x2 = .ok v2 ∧ sim.init (some (.tup [v1, v2])) Y s2 = .ok s3 ∧
      ∃ i o s4, c.dimI s3 = some (some i) ∧ s3.setI id i = .ok s4 ∧ sim.dimO s4 = some (some o) ∧ s4.setO id o = .ok s' := by
  have h : siameseInit id c sim (some (.tup [x1, x2])) Y s = .ok s' := h
  obtain ⟨r, hr, h⟩ := bind_ok (show Except.bind _ _ = _ from h)
  obtain ⟨s3, h3, h⟩ := bind_ok h
  obtain ⟨i, hi, h⟩ := bind_ok h
  obtain ⟨s4, h4, h⟩ := bind_ok h
  obtain ⟨o, ho, h5⟩ := bind_ok h
  obtain ⟨w, hw, hr⟩ := bind_ok (show Except.bind (getWidth x2) _ = _ from hr)
  obtain ⟨s1, h1, hr⟩ := bind_ok hr
  obtain ⟨s2, h2, hr⟩ := bind_ok (show Except.bind (c.init (some x1) none s1) _ = _ from hr)
  obtain ⟨v1, hv1, hr⟩ := bind_ok hr
  obtain ⟨v2, hv2, hr⟩ := bind_ok hr
  cases hr
  have dim : ∀ {d : Option (Option ℕ)} {k : ℕ}, dimValue d = .ok k → d = some (some k) := by
    intro d k hd
    match d, hd with
    | some (some _), hd => cases hd; rfl
  exact ⟨w, s1, s2, v1, v2, s3, hw, h1, h2, hv1, hv2, h3, i, o, s4, dim hi, h4, dim ho, h5⟩

/-- What the layer at the place `ii` of a `tuplify` gets for `Y`: its own item, and only if its output width is not known. -/
inductive TargetAt (l : Comp) (ii : ℕ) (s : NetState) : Option Val → Option Val → Prop
  | known (Y : Option Val) : l.dimO s ≠ some none → TargetAt l ii s Y none
  | unknown {Y y : Option Val} : l.dimO s = some none → ItemAt ii Y y → TargetAt l ii s Y y

/-- The layers of a `tuplify` are initialized one after the other, all with `X`, and each with its own item of `Y`. -/
inductive TuplifyInits (X Y : Option Val) : List Comp → ℕ → NetState → NetState → Prop
  | nil (ii : ℕ) (s : NetState) : TuplifyInits X Y [] ii s s
  | cons {l : Comp} {ls : List Comp} {ii : ℕ} {y : Option Val} {s s1 s2 : NetState} : TargetAt l ii s Y y → l.init X y s = .ok s1 →
      TuplifyInits X Y ls (ii + 1) s1 s2 → TuplifyInits X Y (l :: ls) ii s s2

theorem tuplify_inits {X Y : Option Val} {ls : List Comp} {ii : ℕ} {s s' : NetState} (h : TuplifyInits X Y ls ii s s') :
    initTuplify ls ii X Y s = .ok s' := by
  induction h with
  | nil => rfl
  | @cons l ls ii y s s1 s2 ht h1 _ ih =>
    show (do
      let y ← tuplifyTarget l ii Y s
      let s ← l.init X y s
      initTuplify ls (ii + 1) X Y s) = _
    have e : tuplifyTarget l ii Y s = .ok y := by
      unfold tuplifyTarget
      cases ht with
      | known hne => rw [if_neg hne]
      | unknown he hi => rw [if_pos he, itemAt_convert hi]
    rw [e]
    show (do
      let s ← l.init X y s
      initTuplify ls (ii + 1) X Y s) = _
    rw [h1]
    exact ih

/-- `tuplify` with an example: if its layers can be initialized in this way, then that is what happens; afterwards the input width is that of the first
layer that has one. -/
theorem C111_tuplify_examples {id : ℕ} {ls : List Comp} {X Y : Option Val} (hXY : X ≠ none ∨ Y ≠ none) {s s1 : NetState}
    (h : TuplifyInits X Y ls 0 s s1) : (tuplifyC id ls).init X Y s = copyFirstI id ls s1 := by
  have e : (X.isNone && Y.isNone) = false := by
    cases X with
    | some _ => rfl
    | none =>
      cases Y with
      | some _ => rfl
      | none => simp at hXY
  show (do
    let s ← tuplifyStart id ls X Y s
    let s ← initTuplify ls 0 X Y s
    copyFirstI id ls s) = _
  unfold tuplifyStart
  rw [e]
  show (do
    let s ← initTuplify ls 0 X Y s
    copyFirstI id ls s) = _
  rw [tuplify_inits h]
  rfl

/-- `bidirectional` initializes both layers with `X`, first the one from left to right; each gets the same half of the columns of `Y`, the first one. -/
theorem C111_bidirectional_examples (l r : Comp) (X : Option Val) (A : Mat ℝ) (steps sizes lengths indices) (s : NetState) :
    (bidirectionalC l r).init X (some (.padded A steps sizes lengths indices)) s =
      (do
        let s ← l.init X (some (.padded (A.colBlock 0 (A.cols / 2)) steps sizes lengths indices)) s
        r.init X (some (.padded (A.colBlock 0 (A.cols / 2)) steps sizes lengths indices)) s) ∧
    (bidirectionalC l r).init X none s = (do
        let s ← l.init X none s
        r.init X none s) := ⟨rfl, rfl⟩

/-! ### Examples -/

/-- `tuplify(Linear(nI=3), Linear(nI=3))` with a Y of two arrays, of the widths 4 and 5: each layer takes its own width. -/
example : ∃ s', (tuplifyC 8 [leafC exWideEnv.text 0, leafC exWideEnv.text 3]).init (some (.arr (Mat.ofFn 2 3 fun _ _ => 1)))
      (some (.tup [.arr (Mat.ofFn 2 4 fun _ _ => 1), .arr (Mat.ofFn 2 5 fun _ _ => 1)])) { exWideState with nO := fun _ => some none } = .ok s' ∧
    s'.nO 0 = some (some 4) ∧ s'.nO 3 = some (some 5) := by
  refine okElim ?_
  exact ⟨rfl, rfl⟩

example : ItemAt 1 (some (.tup [.arr (Mat.ofFn 2 4 fun _ _ => 1), .arr (Mat.ofFn 2 5 fun _ _ => 1)])) (some (.arr (Mat.ofFn 2 5 fun _ _ => 1))) :=
  .item _ _ rfl

/-- The hypotheses of `C111_siamese_examples` are met. -/
example : ∃ s', (siameseC 9 (leafC exWideEnv.text 0) (moreC exWideEnv 1 .cauchy)).init (some exPair) none exWideState = .ok s' ∧ s'.ready 0 = true := by
  refine okElim ?_
  rfl

end Thinc
