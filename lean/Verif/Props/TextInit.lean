import Verif.Lemmas.TextArr
import Verif.Props.Initialize
/-!
# C110: one example settles which batches a model for text accepts

A batch consists of sequences with any number of rows.  A model that has been initialized with one batch (lists, `Ragged` or
`Padded`) accepts batches with any number of sequences of any lengths.
-/
namespace Thinc
open Spec

variable {T : TextEnv}

theorem takes_of {c : Comp} {s : NetState} {σ τ : Shape} (h : LFits (c.layer s) s.params σ τ) : TakesBatches c s σ τ := by
  intro ls hl X hX
  obtain ⟨Y, cb, e, hY⟩ := h ls hl X hX
  exact ⟨Y, by simp only [Comp.predict, e, bind, Except.bind, pure, Except.pure], hY⟩

/-- If the model accepts one batch with sequences of different lengths, then it accepts all batches in the same kind of
container and of the same width: any number of sequences, of any lengths.  The outputs have the same kind of container and
the same width, too.  This stays true when the model, or a model that it is a part of, is initialized again. -/
theorem C110_one_sample_settles_all {c : Comp} (h : TextModel T c) {s : NetState} (hs : TextSane T s) (hp : Positive T s)
    {σ : Shape} {ls : List ℕ} {X Y : Val} (hl : Varied ls) (hX : σ.Holds ls X) (e : c.predict s X = .ok Y) :
    ∃ τ : Shape, τ.Holds ls Y ∧ ∀ s', Later T s s' → TakesBatches c s' σ τ := by
  obtain ⟨⟨Y', cb⟩, e', h'⟩ := bind_ok (show Except.bind _ _ = _ from e)
  cases h'
  obtain ⟨τ, hτ⟩ := (good h).uniform hs hp σ ls X _ hl hX e'
  refine ⟨τ, ?_, fun s' hs' => takes_of (hτ ⟨s', hs'⟩)⟩
  obtain ⟨Z, cb', e2, hZ⟩ := hτ ⟨s, Later.refl T s⟩ ls hl.batch X hX
  simp only at e' e2
  rw [e'] at e2
  cases e2
  exact hZ

/-- `initialize` never changes a dimension that is set, nor the shape of a parameter. -/
theorem C110_init_keeps {c : Comp} (h : TextModel T c) {X Y : Option Val} {s s' : NetState} (e : c.init X Y s = .ok s') : Later T s s' :=
  (good h).init e

theorem chain_fits {cs : List Comp} {σ τ : Shape} {s : NetState} (hn : cs ≠ []) (h : ∀ ls', Nonvoid ls' → ∀ X', σ.Holds ls' X' → ∀ cbs,
      ∃ Y' cbs', chainLoop false s.params (cs.map fun c => c.layer s) X' cbs = .ok (Y', cbs') ∧ τ.Holds ls' Y') :
    LFits (chain (cs.map fun c => c.layer s)) s.params σ τ := by
  intro ls hl X hX
  obtain ⟨Y, cbs, e, hY⟩ := h ls hl X hX []
  have hne : (cs.map fun c => c.layer s).isEmpty = false := by
    cases cs with
    | nil => exact absurd rfl hn
    | cons c cs => rfl
  exact ⟨Y, _, by simp only [chain, hne, e, bind, Except.bind]; rfl, hY⟩

/-- What is known of `chain(...).initialize(X)`. -/
theorem chain_init_fits {id : ℕ} {cs : List Comp} (hc : ∀ c ∈ cs, TextModel T c) {X : Val} {Y : Option Val} {s s' : NetState}
    (e : (chainC id cs).init (some X) Y s = .ok s') (hs : TextSane T s) (hp : Positive T s') {σ : Shape} {ls : List ℕ} (hl : Varied ls)
    (hX : σ.Holds ls X) : ∃ τ : Shape, (∀ s₂, Later T s' s₂ → LFits ((chainC id cs).layer s₂) s₂.params σ τ) ∧
      ((∀ c ∈ cs, ∀ X Y s s', c.init X Y s = .ok s' → s'.nO id = s.nO id) → s.nO id = some none → ∀ w, τ.width = some w → s'.nO id = some (some w)) := by
  obtain ⟨a, ha, h⟩ := bind_ok (show Except.bind (chainStartC id cs (some X) Y s) _ = _ from e)
  obtain rfl : s = a := Except.ok.inj (show Except.ok s = .ok a from ha)
  obtain ⟨r, hr, h⟩ := bind_ok h
  have l2 : Later T r.2 s' := chainFinishC_later h
  obtain ⟨V, τ, e1, e2, e3⟩ := initChain_fits (fun c h => good (hc c h)) hr hs (l2.positive hp) hl hX
  have hn : cs ≠ [] := by
    rintro rfl
    cases h
  refine ⟨τ, fun s₂ h₂ => chain_fits hn (e3 s₂ (l2.trans h₂)), fun hk h0 w hw => ?_⟩
  have k : ∀ (cs : List Comp), (∀ c ∈ cs, ∀ X Y s s', c.init X Y s = .ok s' → s'.nO id = s.nO id) → ∀ X Y s r, initChainC cs X Y s = .ok r →
      r.2.nO id = s.nO id := by
    intro cs
    induction cs with
    | nil => intro _ X Y s r h; cases h; rfl
    | cons c cs ih =>
      intro hk X Y s r h
      obtain ⟨a, ha, h⟩ := bind_ok (show Except.bind _ _ = _ from h)
      obtain ⟨V, -, h⟩ := bind_ok h
      rw [ih (fun c h => hk c (by simp [h])) _ _ _ _ h, hk c (by simp) _ _ _ _ ha]
  have k1 := k cs hk _ _ _ _ hr
  obtain ⟨b, hb, h⟩ := bind_ok (show Except.bind _ _ = _ from h)
  have k2 : b.nO id = r.2.nO id := by
    cases cs with
    | nil => exact absurd rfl hn
    | cons c cs =>
      replace hb : c.copyI id r.2 = .ok b := hb
      unfold Comp.copyI at hb
      split at hb
      · obtain ⟨rfl, -⟩ := setI_ok hb
        rfl
      · cases hb; rfl
  rw [if_pos (by rw [k2, k1, h0]), e1] at h
  simp only [chainSetOC, getWidth_of hl.batch e2 hw] at h
  obtain ⟨rfl, -⟩ := setO_ok h
  simp

/-- After `chain(...).initialize(X)` the chain accepts every batch in the kind of container of X.  If its nO was not set and is
not written by its parts, then it is the width of the outputs. -/
theorem C110_chain_initialized {id : ℕ} {cs : List Comp} (hc : ∀ c ∈ cs, TextModel T c) {X : Val} {Y : Option Val} {s s' : NetState}
    (e : (chainC id cs).init (some X) Y s = .ok s') (hs : TextSane T s) (hp : Positive T s') {σ : Shape} {ls : List ℕ} (hl : Varied ls)
    (hX : σ.Holds ls X) : ∃ τ : Shape, (∀ s₂, Later T s' s₂ → TakesBatches (chainC id cs) s₂ σ τ) ∧
      ((∀ c ∈ cs, ∀ X Y s s', c.init X Y s = .ok s' → s'.nO id = s.nO id) → s.nO id = some none → ∀ w, τ.width = some w → s'.nO id = some (some w)) := by
  obtain ⟨τ, h1, h2⟩ := chain_init_fits hc e hs hp hl hX
  exact ⟨τ, fun s₂ h₂ => takes_of (h1 s₂ h₂), h2⟩

theorem getArray_of {mk : ℕ → Shape} (hm : mk = .ragged ∨ mk = .seqs ∨ mk = .padded) {w : ℕ} {ls : List ℕ} (hl : Varied ls) {X : Val}
    (hX : (mk w).Holds ls X) : ∃ A : Mat ℝ, X.getArray = .ok (.arr A) ∧ 3 ≤ A.rows ∧ A.cols = w := by
  have h1 := hl.lt
  have h2 := hl.length
  rcases hm with rfl | rfl | rfl
  · obtain ⟨-, A, rfl, h, h'⟩ := hX
    exact ⟨A, rfl, by omega, h'⟩
  · obtain ⟨seqs, x, e, hs⟩ := seqs_arrays hX
    have ef := flatten_of hX.1 hs hl.1.1
    obtain ⟨-, As, rfl, h, h'⟩ := hX
    obtain ⟨r, c⟩ := arr_of x
    refine ⟨_, ?_, by rw [r]; omega, c⟩
    have ea : As.map Mat.toArr = asList w seqs := by
      simp only [Val.arrays, Val.items, mapM_asArr, bind, Except.bind, pure, Except.pure] at e
      exact Except.ok.inj e
    simp only [Val.getArray, flattenVals, mapM_asArr, ea, ef]
    rfl
  · have h3 := hl.cells
    obtain ⟨-, A, ix, -, rfl, h, h'⟩ := hX
    exact ⟨A, rfl, by omega, h'⟩

theorem withArray_via (pad : ℕ) {mk : ℕ → Shape} (hm : mk = .ragged ∨ mk = .seqs ∨ mk = .padded) (w : ℕ) :
    ViaArray (fun L => withArrayAny L pad) (mk w) w mk := by
  rcases hm with rfl | rfl | rfl
  · exact withArray_ragged pad w
  · exact withArray_seqs pad w
  · exact withArray_padded pad w

/-- After `with_array(chain(...)).initialize(X)` with lists of arrays, a `Ragged` or a `Padded`, the model accepts every batch in
the kind of container of X, and gives the same kind of container: one row for each row.  (`initialize` runs the chain on an
array without the padding of `pad` rows that `predict` puts between the sequences of a list.) -/
theorem C110_with_array_initialized {id k pad : ℕ} {cs : List Comp} (hc : ∀ c ∈ cs, TextModel T c) {X : Val} {Y : Option Val} {s s' : NetState}
    (e : (withArrayC id pad (chainC k cs)).init (some X) Y s = .ok s') (hs : TextSane T s) (hp : Positive T s') {mk : ℕ → Shape}
    (hm : mk = .ragged ∨ mk = .seqs ∨ mk = .padded) {w : ℕ} {ls : List ℕ} (hl : Varied ls) (hX : (mk w).Holds ls X) :
    ∃ v, ∀ s₂, Later T s' s₂ → TakesBatches (withArrayC id pad (chainC k cs)) s₂ (mk w) (mk v) := by
  have hw : 0 < w := by rcases hm with rfl | rfl | rfl <;> exact hX.1
  obtain ⟨A, eA, h3, hA⟩ := getArray_of hm hl hX
  obtain ⟨X', hX', h⟩ := bind_ok (show Except.bind (convertOpt Val.getArray (some X)) _ = _ from e)
  simp only [convertOpt, eA, bind, Except.bind, pure, Except.pure] at hX'
  obtain rfl := Except.ok.inj hX'
  obtain ⟨Y', -, h⟩ := bind_ok h
  obtain ⟨a, ha, h⟩ := bind_ok h
  obtain ⟨b, hb, h⟩ := bind_ok h
  have l : Later T a s' := (copyOC_later hb).trans (copyIC_later h)
  have hA' : (Shape.arr .row w).Holds [1, A.rows - 1] (.arr A) := ⟨hw, A, rfl, (sum_two h3).symm, hA⟩
  obtain ⟨τ, h1, -⟩ := chain_init_fits hc ha hs (l.positive hp) (varied_two h3) hA'
  obtain ⟨Z, cb, eZ, hZ⟩ := h1 a (Later.refl _ _) _ (varied_two h3).batch _ hA'
  obtain ⟨B, rfl⟩ := model_arr (T := T) (.chain k cs hc) _ _ _ _ _ eZ
  obtain ⟨per, v, rfl, -⟩ := asArr_shape hZ rfl
  obtain rfl := rows_of_fits hw (h1 a (Later.refl _ _))
  refine ⟨v, fun s₂ h₂ => takes_of fun ls' hl' X' hX' => ?_⟩
  obtain ⟨A', g1, -, g2, g3⟩ := withArray_via pad hm w ls' hl' X' hX'
  obtain ⟨hv, Q, cb, eQ, r1, rfl⟩ := fits_rows (h1 s₂ (l.trans h₂)) g1 hw g2
  exact (g3 _ _).2 Q cb eQ r1 hv

/-! ### An example: sequences are summed, and the sums go through a linear layer -/

noncomputable def exTextEnv : TextEnv := ⟨fun _ => .net .linear, fun _ _ _ => 1 / 2⟩

noncomputable def exTextState : NetState := ⟨fun id => if id = 0 then some (some 4) else some none, fun _ => some none, fun _ => Mat.ofFn 0 0 fun _ _ => 0, fun _ => false, 0⟩

noncomputable def exTextX : Val := .list ([Mat.ofFn 1 3 fun _ _ => 1, Mat.ofFn 2 3 fun _ _ => 2].map .arr)

theorem exTextX_holds : (Shape.seqs 3).Holds [1, 2] exTextX :=
  ⟨by omega, [Mat.ofFn 1 3 fun _ _ => 1, Mat.ofFn 2 3 fun _ _ => 2], rfl, rfl, by simp [Mat.ofFn]⟩

theorem exText_varied : Varied [1, 2] := ⟨⟨by simp, by simp⟩, 1, by simp, 2, by simp, by omega⟩

noncomputable def exTextParts : List Comp := [plainC list2raggedL, plainC reduceSumLayer, leafC exTextEnv 0]

theorem exTextParts_ok : ∀ c ∈ exTextParts, TextModel exTextEnv c := by
  intro c hc
  simp only [exTextParts, List.mem_cons, List.not_mem_nil, or_false] at hc
  rcases hc with rfl | rfl | rfl
  · exact .plain _ .list2ragged
  · exact .plain _ .reduceSum
  · exact .leaf 0

theorem exText_init : ∃ s', (chainC 9 exTextParts).init (some exTextX) none exTextState = .ok s' ∧
    s'.nO 0 = some (some 4) ∧ s'.nI 0 = some (some 3) ∧ s'.nO 9 = some (some 4) ∧ (∀ id, s'.ready id = true → id = 0) ∧
    ∃ Y, (chainC 9 exTextParts).predict s' exTextX = .ok (.arr Y) ∧ Y.rows = 2 ∧ Y.cols = 4 := by
  refine okElim ⟨rfl, rfl, rfl, fun id h => ?_, _, rfl, rfl, rfl⟩
  by_contra hn
  have : (if id = 0 then true else false) = true := h
  rw [if_neg hn] at this
  cases this

theorem exText_sane : TextSane exTextEnv exTextState := fun _ h => by cases h

theorem exText_positive {s : NetState} (h1 : s.nO 0 = some (some 4)) (h2 : s.nI 0 = some (some 3)) (h3 : ∀ id, s.ready id = true → id = 0) :
    Positive exTextEnv s := by
  intro id h
  obtain rfl := h3 id h
  rw [h1, h2]
  refine ⟨fun v e => by cases e; omega, fun v e => by cases e; omega, fun _ _ _ _ _ e => by cases e⟩

/-- The model accepts all lists of arrays with three columns, and gives one row of four numbers for each. -/
example : ∃ s', (chainC 9 exTextParts).init (some exTextX) none exTextState = .ok s' ∧ TakesBatches (chainC 9 exTextParts) s' (.seqs 3) (.arr .seq 4) := by
  obtain ⟨s', e, h1, h2, -, h3, Y, eY, r, c⟩ := exText_init
  refine ⟨s', e, ?_⟩
  obtain ⟨τ, h, -⟩ := C110_chain_initialized exTextParts_ok e exText_sane (exText_positive h1 h2 h3) exText_varied exTextX_holds
  have ht := h s' (Later.refl _ _)
  obtain ⟨Y', eY', hY'⟩ := ht [1, 2] exText_varied.batch _ exTextX_holds
  rw [eY] at eY'
  cases eY'
  obtain ⟨per, v, rfl, -, -, r', rfl⟩ := asArr_shape hY' rfl
  cases per with
  | row => rw [r] at r'; cases r'
  | seq => rw [c] at ht; exact ht

/-- with_array(chain(Linear(4)), pad=2), initialized with the same lists: the hypotheses of `C110_with_array_initialized` are met. -/
example : ∃ s', (withArrayC 8 2 (chainC 9 [leafC exTextEnv 0])).init (some exTextX) none exTextState = .ok s' ∧
    ∃ v, TakesBatches (withArrayC 8 2 (chainC 9 [leafC exTextEnv 0])) s' (.seqs 3) (.seqs v) := by
  have h : ∃ s', (withArrayC 8 2 (chainC 9 [leafC exTextEnv 0])).init (some exTextX) none exTextState = .ok s' ∧
      s'.nO 0 = some (some 4) ∧ s'.nI 0 = some (some 3) ∧ (∀ id, s'.ready id = true → id = 0) := by
    refine okElim ⟨rfl, rfl, fun id h => ?_⟩
    by_contra hn
    have : (if id = 0 then true else false) = true := h
    rw [if_neg hn] at this
    cases this
  obtain ⟨s', e, h1, h2, h3⟩ := h
  obtain ⟨v, hv⟩ := C110_with_array_initialized (T := exTextEnv) (by simpa using TextModel.leaf 0) e exText_sane
    (exText_positive h1 h2 h3) (.inr (.inl rfl)) exText_varied exTextX_holds
  exact ⟨s', e, v, hv s' (Later.refl _ _)⟩

/-! ### The sequences of the example must have different lengths -/

/-- `add(chain(list2ragged(), reduce_sum()), list2array())`: one row for each sequence is added to one row for each row. -/
noncomputable def exUneven : Comp := addC 9 [chainC 8 [plainC list2raggedL, plainC reduceSumLayer], plainC list2arrayL]

theorem exUneven_ok (T : TextEnv) : TextModel T exUneven := by
  refine .add _ _ ?_ ?_
  · intro c hc
    simp only [List.mem_cons, List.not_mem_nil, or_false] at hc
    rcases hc with rfl | rfl
    · refine .chain _ _ ?_
      intro c hc
      simp only [List.mem_cons, List.not_mem_nil, or_false] at hc
      rcases hc with rfl | rfl
      · exact .plain _ .list2ragged
      · exact .plain _ .reduceSum
    · exact .plain _ .list2array
  · intro c hc
    simp only [List.mem_cons, List.not_mem_nil, or_false] at hc
    rcases hc with rfl | rfl
    · intro s P X Y cb h vs hv
      obtain ⟨⟨V, cbs⟩, e, h⟩ := bind_ok (show Except.bind _ _ = _ from h)
      cases h
      obtain ⟨⟨W, cb1⟩, -, e⟩ := bind_ok (show Except.bind _ _ = _ from e)
      obtain ⟨⟨Z, cb2⟩, e2, e⟩ := bind_ok (show Except.bind _ _ = _ from e)
      cases e
      obtain ⟨a, -, e2⟩ := bind_ok (show Except.bind _ _ = _ from e2)
      obtain ⟨b, -, e2⟩ := bind_ok (show Except.bind _ _ = _ from e2)
      obtain ⟨d, -, e2⟩ := bind_ok (show Except.bind _ _ = _ from e2)
      cases e2
      cases hv
    · intro s P X Y cb h vs hv
      obtain ⟨a, -, e⟩ := bind_ok (show Except.bind _ _ = _ from h)
      obtain ⟨b, -, e⟩ := bind_ok e
      cases e
      cases hv

/-- A batch of one sequence with one row is accepted, a batch of one sequence with two rows is not. -/
theorem C110_sample_must_vary (T : TextEnv) : TextModel T exUneven ∧ TextSane T exTextState ∧ Positive T exTextState ∧
    (∃ X, (Shape.seqs 1).Holds [1] X ∧ ∃ Y, exUneven.predict exTextState X = .ok Y) ∧
    ∃ X, (Shape.seqs 1).Holds [2] X ∧ ∃ e, exUneven.predict exTextState X = .error e := by
  refine ⟨exUneven_ok T, fun _ h => (by cases h), fun _ h => (by cases h), ⟨.list ([Mat.ofFn 1 1 fun _ _ => 1].map .arr), ?_, ?_⟩,
    .list ([Mat.ofFn 2 1 fun _ _ => 1].map .arr), ?_, ?_⟩
  · exact ⟨by omega, [Mat.ofFn 1 1 fun _ _ => 1], rfl, rfl, by simp [Mat.ofFn]⟩
  · exact ⟨_, rfl⟩
  · exact ⟨by omega, [Mat.ofFn 2 1 fun _ _ => 1], rfl, rfl, by simp [Mat.ofFn]⟩
  · exact ⟨_, rfl⟩

end Thinc
