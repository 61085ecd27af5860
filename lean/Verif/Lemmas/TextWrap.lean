import Verif.Lemmas.TextPlain
import Verif.Model.TextInit
/-! # Shapes of batches of sequences: wrappers

A family of layers with their parameters; one of them has seen a sample. -/
namespace Thinc
open Spec

section
variable {I : Type}

/-- All layers of the family map shape `σ` to shape `τ`. -/
def AllFit (L : I → Layer) (P : I → ParamVals) (σ τ : Shape) : Prop := ∀ i, LFits (L i) (P i) σ τ

/-- If the layer `i` accepts a varied sample, then all layers of the family accept the shape of the sample. -/
def Uniform (L : I → Layer) (P : I → ParamVals) (i : I) : Prop :=
  ∀ σ ls X r, Varied ls → σ.Holds ls X → L i false (P i) X = .ok r → ∃ τ, AllFit L P σ τ

theorem uniform_of_decides {L : Layer} (h : ∀ σ, Decides L σ) (P : I → ParamVals) (i : I) : Uniform (fun _ => L) P i := by
  intro σ ls X r hl hX e
  rcases h σ with ⟨τ, hτ⟩ | h
  · exact ⟨τ, fun j => hτ (P j)⟩
  · obtain ⟨e', he⟩ := h (P i) ls X hl.batch hX
    cases he.symm.trans e

/-- A wrapper that gives its layer an array. -/
def ViaArray (W : Layer → Layer) (σ : Shape) (w : ℕ) (mk : ℕ → Shape) : Prop :=
  ∀ ls, Nonvoid ls → ∀ X, σ.Holds ls X → ∃ A : Mat ℝ, 0 < A.rows ∧ (Varied ls → 3 ≤ A.rows) ∧ A.cols = w ∧ ∀ L P,
    (∀ r, W L false P X = .ok r → ∃ Y cb, L false P (.arr A) = .ok (.arr Y, cb)) ∧
    ∀ Y cb, L false P (.arr A) = .ok (.arr Y, cb) → Y.rows = A.rows → 0 < Y.cols →
      ∃ Z cb', W L false P X = .ok (Z, cb') ∧ (mk Y.cols).Holds ls Z

/-- The same for an array of integers. -/
def ViaIds (W : Layer → Layer) (σ : Shape) (w : ℕ) (mk : ℕ → Shape) : Prop :=
  ∀ ls, Nonvoid ls → ∀ X, σ.Holds ls X → ∃ A : Mat ℤ, 0 < A.rows ∧ (Varied ls → 3 ≤ A.rows) ∧ A.cols = w ∧ ∀ L P,
    (∀ r, W L false P X = .ok r → ∃ Y cb, L false P (.intMat A) = .ok (.arr Y, cb)) ∧
    ∀ Y cb, L false P (.intMat A) = .ok (.arr Y, cb) → Y.rows = A.rows → 0 < Y.cols →
      ∃ Z cb', W L false P X = .ok (Z, cb') ∧ (mk Y.cols).Holds ls Z

theorem uniform_viaArray {W : Layer → Layer} {σ : Shape} {w : ℕ} {mk : ℕ → Shape} (h : ViaArray W σ w mk) (hw : 0 < w) {L : I → Layer}
    {P : I → ParamVals} {i : I} (hU : Uniform L P i) {ls : List ℕ} {X : Val} {r : Val × Callback} (hl : Varied ls) (hX : σ.Holds ls X)
    (e : W (L i) false (P i) X = .ok r) : ∃ τ, AllFit (fun i => W (L i)) P σ τ := by
  obtain ⟨A, -, h3, hc, hA⟩ := h ls hl.batch X hX
  have h3 := h3 hl
  obtain ⟨Y, cb, eY⟩ := (hA (L i) (P i)).1 r e
  obtain ⟨τ, hτ⟩ := hU (.arr .row w) [1, A.rows - 1] (.arr A) (.arr Y, cb) (varied_two h3)
    ⟨hw, A, rfl, (sum_two h3).symm, hc⟩ eY
  obtain ⟨Y', cb', e', hY'⟩ := hτ i _ (varied_two h3).batch (.arr A) ⟨hw, A, rfl, (sum_two h3).symm, hc⟩
  rw [eY] at e'
  cases e'
  obtain ⟨per, v, rfl, -⟩ := asArr_shape hY' rfl
  obtain rfl := rows_of_fits hw (hτ i)
  refine ⟨mk v, fun j ls' hl' X' hX' => ?_⟩
  obtain ⟨A', h1, -, hc', hA'⟩ := h ls' hl' X' hX'
  obtain ⟨hv, Z, cb, eZ, r1, rfl⟩ := fits_rows (hτ j) h1 hw hc'
  exact (hA' (L j) (P j)).2 Z cb eZ r1 hv

theorem uniform_viaIds {W : Layer → Layer} {σ : Shape} {w : ℕ} {mk : ℕ → Shape} (h : ViaIds W σ w mk) (hw : 0 < w) {L : I → Layer}
    {P : I → ParamVals} {i : I} (hU : Uniform L P i) {ls : List ℕ} {X : Val} {r : Val × Callback} (hl : Varied ls) (hX : σ.Holds ls X)
    (e : W (L i) false (P i) X = .ok r) : ∃ τ, AllFit (fun i => W (L i)) P σ τ := by
  obtain ⟨A, -, h3, hc, hA⟩ := h ls hl.batch X hX
  have h3 := h3 hl
  obtain ⟨Y, cb, eY⟩ := (hA (L i) (P i)).1 r e
  obtain ⟨τ, hτ⟩ := hU (.ids .row w) [1, A.rows - 1] (.intMat A) (.arr Y, cb) (varied_two h3)
    ⟨hw, A, rfl, (sum_two h3).symm, hc⟩ eY
  obtain ⟨Y', cb', e', hY'⟩ := hτ i _ (varied_two h3).batch (.intMat A) ⟨hw, A, rfl, (sum_two h3).symm, hc⟩
  rw [eY] at e'
  cases e'
  obtain ⟨per, v, rfl, -⟩ := asArr_shape hY' rfl
  obtain rfl := rows_of_fits_ids hw (hτ i)
  refine ⟨mk v, fun j ls' hl' X' hX' => ?_⟩
  obtain ⟨A', h1, -, hc', hA'⟩ := h ls' hl' X' hX'
  obtain ⟨hv, Z, cb, eZ, r1, rfl⟩ := fits_rows_ids (hτ j) h1 hw hc'
  exact (hA' (L j) (P j)).2 Z cb eZ r1 hv

/-- A wrapper that gives its layer another container. -/
def ViaSeqs (W : Layer → Layer) (σ σ' : Shape) (sel : Val → Prop) (mk mk' : ℕ → Shape) : Prop :=
  ∀ ls, Nonvoid ls → ∀ X, σ.Holds ls X → ∃ u, σ'.Holds ls u ∧ ∀ L P,
    (∀ r, W L false P X = .ok r → ∃ Y cb, L false P u = .ok (Y, cb) ∧ sel Y) ∧
    ∀ Y cb v, L false P u = .ok (Y, cb) → (mk' v).Holds ls Y → ∃ Z cb', W L false P X = .ok (Z, cb') ∧ (mk v).Holds ls Z

theorem uniform_viaSeqs {W : Layer → Layer} {σ σ' : Shape} {sel : Val → Prop} {mk mk' : ℕ → Shape} (h : ViaSeqs W σ σ' sel mk mk')
    (hsel : ∀ τ ls Y, Nonvoid ls → Shape.Holds τ ls Y → sel Y → ∃ v, τ = mk' v) {L : I → Layer}
    {P : I → ParamVals} {i : I} (hU : Uniform L P i) {ls : List ℕ} {X : Val} {r : Val × Callback} (hl : Varied ls) (hX : σ.Holds ls X)
    (e : W (L i) false (P i) X = .ok r) : ∃ τ, AllFit (fun i => W (L i)) P σ τ := by
  obtain ⟨u, hu, hW⟩ := h ls hl.batch X hX
  obtain ⟨Y, cb, eY, hY⟩ := (hW (L i) (P i)).1 r e
  obtain ⟨τ, hτ⟩ := hU σ' ls u (Y, cb) hl hu eY
  obtain ⟨Y', cb', e', hY'⟩ := hτ i ls hl.batch u hu
  rw [eY] at e'
  cases e'
  obtain ⟨v, rfl⟩ := hsel τ ls Y hl.batch hY' hY
  refine ⟨mk v, fun j ls' hl' X' hX' => ?_⟩
  obtain ⟨u', hu', hW'⟩ := h ls' hl' X' hX'
  obtain ⟨Z, cb, eZ, hZ⟩ := hτ j ls' hl' u' hu'
  exact (hW' (L j) (P j)).2 Z cb v eZ hZ

/-- A wrapper that calls its layer. -/
theorem uniform_same {W : Layer → Layer} {σ : Shape} (h : ∀ ls X, σ.Holds ls X → ∀ L P, W L false P X = L false P X) {L : I → Layer}
    {P : I → ParamVals} {i : I} (hU : Uniform L P i) {ls : List ℕ} {X : Val} {r : Val × Callback} (hl : Varied ls) (hX : σ.Holds ls X)
    (e : W (L i) false (P i) X = .ok r) : ∃ τ, AllFit (fun i => W (L i)) P σ τ := by
  rw [h ls X hX] at e
  obtain ⟨τ, hτ⟩ := hU σ ls X r hl hX e
  refine ⟨τ, fun j ls' hl' X' hX' => ?_⟩
  obtain ⟨Y, cb, e', hY⟩ := hτ j ls' hl' X' hX'
  exact ⟨Y, cb, (h ls' X' hX' (L j) (P j)).trans e', hY⟩

end

/-! ### with_array -/

theorem asArr_ok {v : Val} {A : Mat ℝ} (h : v.asArr = .ok A) : v = .arr A := by
  cases v <;> cases h
  rfl

theorem withArray_ragged (pad w : ℕ) : ViaArray (fun L => withArrayAny L pad) (.ragged w) w .ragged := by
  intro ls hl X hX
  obtain ⟨x, ex⟩ := ragged_as hX
  obtain ⟨r, c⟩ := arr_of x
  have hd : ∀ L P, withArrayAny L pad false P X = withArrayRaggedL L false P X := by
    obtain ⟨-, A, rfl, -⟩ := hX
    exact fun L P => rfl
  refine ⟨_, by rw [r]; exact hl.sum_pos, fun hv => ?_, c, fun L P => ⟨fun res e => ?_, fun Y cb e h1 h2 => ?_⟩⟩
  · rw [r]
    have := hv.lt
    have := hv.length
    omega
  · simp only [hd] at e
    simp only [withArrayRaggedL, ex, Ragged.dataXd, bind, Except.bind] at e
    split at e
    · cases e
    · rename_i p ep
      obtain ⟨Y, cb⟩ := p
      simp only at e
      split at e
      · cases e
      · rename_i A eA
        obtain rfl := asArr_ok eA
        exact ⟨A, cb, ep⟩
  · simp only [hd]
    obtain ⟨y, ey⟩ := toArr_rows Y (h1.trans r) rfl
    exact ⟨_, _, by
      simp only [withArrayRaggedL, ex, Ragged.dataXd, bind, Except.bind, e, Val.asArr, ey, pure, Except.pure]; rfl, ragged_of hl h2 y⟩

theorem withArray_padded (pad w : ℕ) : ViaArray (fun L => withArrayAny L pad) (.padded w) w .padded := by
  intro ls hl X hX
  obtain ⟨hw, A, ix, ho, rfl, r, c⟩ := hX
  have hd : ∀ L P, withArrayAny L pad false P (.padded A (maxLength ls) ((List.range (maxLength ls)).map fun t => ls.countP (t < ·)) (ix.map fun i => ls.getD i 0) ix)
      = withArray2dPaddedL L false P (.padded A (maxLength ls) ((List.range (maxLength ls)).map fun t => ls.countP (t < ·)) (ix.map fun i => ls.getD i 0) ix) :=
    fun L P => rfl
  refine ⟨A, by rw [r]; exact hl.cells, fun hv => ?_, c, fun L P => ⟨fun res e => ?_, fun Y cb e h1 h2 => ?_⟩⟩
  · rw [r]
    have := hv.lt
    have := hv.length
    have := hv.cells
    omega
  · simp only [hd] at e
    simp only [withArray2dPaddedL, Val.paddedParts, bind, Except.bind] at e
    split at e
    · cases e
    · rename_i p ep
      obtain ⟨Y, cb⟩ := p
      simp only at e
      split at e
      · cases e
      · rename_i B eB
        obtain rfl := asArr_ok eB
        exact ⟨B, cb, ep⟩
  · simp only [hd]
    have hr : reshapeCells Y A.rows = .ok Y := if_pos h1
    exact ⟨_, _, by
      simp only [withArray2dPaddedL, Val.paddedParts, bind, Except.bind, e, Val.asArr, hr, pure, Except.pure]; rfl,
      h2, Y, ix, ho, rfl, h1.trans r, rfl⟩

theorem withArray_seqs (pad w : ℕ) : ViaArray (fun L => withArrayAny L pad) (.seqs w) w .seqs := by
  intro ls hl X hX
  obtain ⟨seqs, x, ex, hs⟩ := seqs_arrays hX
  have hd : ∀ L P, withArrayAny L pad false P X = withArrayListL L pad false P X := by
    obtain ⟨-, As, rfl, h1, -⟩ := hX
    cases As with
    | nil => exact absurd h1.symm hl.1
    | cons A As => exact fun L P => rfl
  have ef := flatten_pad_of hX.1 pad hs hl.1
  obtain ⟨r, c⟩ := arr_of (spread (blankedAt pad ls) x)
  have hb := hl.blanked pad
  refine ⟨_, by rw [r]; exact lt_of_lt_of_le hl.sum_pos hb, fun hv => ?_, c, fun L P => ⟨fun res e => ?_, fun Y cb e h1 h2 => ?_⟩⟩
  · rw [r]
    have := hv.lt
    have := hv.length
    omega
  · simp only [hd] at e
    simp only [withArrayListL, ex, ef, bind, Except.bind] at e
    split at e
    · cases e
    · rename_i p ep
      obtain ⟨Y, cb⟩ := p
      simp only at e
      split at e
      · cases e
      · rename_i B eB
        obtain rfl := asArr_ok eB
        exact ⟨B, cb, ep⟩
  · simp only [hd]
    obtain ⟨y, ey⟩ := toArr_rows Y (h1.trans r) rfl
    obtain ⟨yseqs, e2, hy⟩ := unflatten_pad_of pad ls y
    exact ⟨_, _, by
      simp only [withArrayListL, ex, ef, lens_asList hs, bind, Except.bind, e, Val.asArr, ey, e2, pure, Except.pure]; rfl, seqs_of h2 hy⟩

theorem withArray_idSeqs (pad w : ℕ) : ViaIds (fun L => withArrayAny L pad) (.idSeqs w) w .seqs := by
  intro ls hl X hX
  obtain ⟨seqs, x, ex, hs⟩ := idSeqs_arrays hX
  have hd : ∀ L P, withArrayAny L pad false P X = withArrayIdsL L pad false P X := by
    obtain ⟨-, As, rfl, h1, -⟩ := hX
    cases As with
    | nil => exact absurd h1.symm hl.1
    | cons A As => exact fun L P => rfl
  have ef := flatten_pad_of hX.1 pad hs hl.1
  have hm := toMat_of (spread (blankedAt pad ls) x)
  have r := hm.1
  have c := hm.2.1
  have hb := hl.blanked pad
  refine ⟨_, by rw [r]; exact lt_of_lt_of_le hl.sum_pos hb, fun hv => ?_, c, fun L P => ⟨fun res e => ?_, fun Y cb e h1 h2 => ?_⟩⟩
  · rw [r]
    have := hv.lt
    have := hv.length
    omega
  · simp only [hd] at e
    simp only [withArrayIdsL, ex, ef, bind, Except.bind] at e
    split at e
    · cases e
    · rename_i p ep
      obtain ⟨Y, cb⟩ := p
      simp only at e
      split at e
      · cases e
      · rename_i B eB
        obtain rfl := asArr_ok eB
        exact ⟨B, cb, ep⟩
  · simp only [hd]
    obtain ⟨y, ey⟩ := toArr_rows Y (h1.trans r) rfl
    obtain ⟨yseqs, e2, hy⟩ := unflatten_pad_of pad ls y
    exact ⟨_, _, by
      simp only [withArrayIdsL, ex, ef, lens_asList hs, bind, Except.bind, e, Val.asArr, ey, e2, pure, Except.pure]; rfl, seqs_of h2 hy⟩

theorem uniform_withArray {I : Type} (pad : ℕ) {L : I → Layer} {P : I → ParamVals} {i : I} (hU : Uniform L P i) :
    Uniform (fun j => withArrayAny (L j) pad) P i := by
  intro σ ls X r hl hX e
  cases σ with
  | arr per w =>
    exact uniform_same (W := fun L => withArrayAny L pad) (fun ls X hX L P => by obtain ⟨-, A, rfl, -⟩ := hX; rfl) hU hl hX e
  | ids per w =>
    exact uniform_same (W := fun L => withArrayAny L pad) (fun ls X hX L P => by obtain ⟨-, A, rfl, -⟩ := hX; rfl) hU hl hX e
  | ints per =>
    exact uniform_same (W := fun L => withArrayAny L pad) (fun ls X hX L P => by obtain ⟨A, rfl, -⟩ := hX; rfl) hU hl hX e
  | ragged w => exact uniform_viaArray (withArray_ragged pad w) hX.1 hU hl hX e
  | padded w => exact uniform_viaArray (withArray_padded pad w) hX.1 hU hl hX e
  | seqs w => exact uniform_viaArray (withArray_seqs pad w) hX.1 hU hl hX e
  | idSeqs w => exact uniform_viaIds (withArray_idSeqs pad w) hX.1 hU hl hX e

/-! ### with_list -/

theorem arrays_sel (τ : Shape) (ls : List ℕ) (Y : Val) (hl : Nonvoid ls) (h : τ.Holds ls Y) (hs : ∃ As, Y.arrays = .ok As) :
    ∃ v, τ = .seqs v := by
  obtain ⟨As, e⟩ := hs
  exact arrays_shape hl.1 h e

theorem ragged_sel (τ : Shape) (ls : List ℕ) (Y : Val) (_ : Nonvoid ls) (h : τ.Holds ls Y) (hs : ∃ r, Y.asRagged = .ok r) :
    ∃ v, τ = .ragged v := by
  obtain ⟨r, e⟩ := hs
  exact asRagged_shape h e

theorem padded_sel (τ : Shape) (ls : List ℕ) (Y : Val) (_ : Nonvoid ls) (h : τ.Holds ls Y) (hs : ∃ r, Y.asPadded = .ok r) :
    ∃ v, τ = .padded v := by
  obtain ⟨r, e⟩ := hs
  exact asPadded_shape h e

theorem withList_ragged (w : ℕ) : ViaSeqs withListL (.ragged w) (.seqs w) (fun Y => ∃ As, Y.arrays = .ok As) .ragged .seqs := by
  intro ls hl X hX
  obtain ⟨x, ex⟩ := ragged_as hX
  obtain ⟨seqs, e1, hs⟩ := unflatten_of ls x
  have hd : ∀ L P, withListL L false P X = withListRaggedL L false P X := by
    obtain ⟨-, A, rfl, -⟩ := hX
    exact fun L P => rfl
  refine ⟨_, seqs_of hX.1 hs, fun L P => ⟨fun res e => ?_, fun Y cb v e h => ?_⟩⟩
  · rw [hd] at e
    simp only [withListRaggedL, ex, e1, bind, Except.bind] at e
    split at e
    · cases e
    · rename_i p ep
      obtain ⟨Y, cb⟩ := p
      refine ⟨Y, cb, ep, ?_⟩
      simp only at e
      rcases or_error Y.arrays with h | ⟨e', he⟩
      · exact h
      · simp only [he] at e
        cases e
  · rw [hd]
    obtain ⟨yseqs, y, e2, hys⟩ := seqs_arrays h
    exact ⟨_, _, by
      simp only [withListRaggedL, ex, e1, bind, Except.bind, e, e2, flatten_of h.1 hys hl.1, pure, Except.pure]; rfl, ragged_of hl h.1 y⟩

theorem withList_padded (w : ℕ) : ViaSeqs withListL (.padded w) (.seqs w) (fun Y => ∃ As, Y.arrays = .ok As) .padded .seqs := by
  intro ls hl X hX
  obtain ⟨p, seqs, x, e0, e1, hs⟩ := padded_as hX
  have hd : ∀ L P, withListL L false P X = withListPaddedL L false P X := by
    obtain ⟨-, A, ix, -, rfl, -⟩ := hX
    exact fun L P => rfl
  refine ⟨_, seqs_of hX.1 hs, fun L P => ⟨fun res e => ?_, fun Y cb v e h => ?_⟩⟩
  · rw [hd] at e
    simp only [withListPaddedL, e0, e1, bind, Except.bind] at e
    split at e
    · cases e
    · rename_i p ep
      obtain ⟨Y, cb⟩ := p
      refine ⟨Y, cb, ep, ?_⟩
      simp only at e
      rcases or_error Y.arrays with h | ⟨e', he⟩
      · exact h
      · simp only [he] at e
        cases e
  · rw [hd]
    obtain ⟨yseqs, y, e2, hys⟩ := seqs_arrays h
    obtain ⟨q, e3, hq⟩ := padded_of hl h.1 hys
    exact ⟨_, _, by simp only [withListPaddedL, e0, e1, bind, Except.bind, e, e2, e3, pure, Except.pure]; rfl, hq⟩

theorem uniform_withList {I : Type} {L : I → Layer} {P : I → ParamVals} {i : I} (hU : Uniform L P i) :
    Uniform (fun j => withListL (L j)) P i := by
  intro σ ls X r hl hX e
  cases σ with
  | arr per w => exact uniform_same (fun ls X hX L P => by obtain ⟨-, A, rfl, -⟩ := hX; rfl) hU hl hX e
  | ids per w => exact uniform_same (fun ls X hX L P => by obtain ⟨-, A, rfl, -⟩ := hX; rfl) hU hl hX e
  | ints per => exact uniform_same (fun ls X hX L P => by obtain ⟨A, rfl, -⟩ := hX; rfl) hU hl hX e
  | seqs w => exact uniform_same (fun ls X hX L P => by obtain ⟨-, A, rfl, -⟩ := hX; rfl) hU hl hX e
  | idSeqs w => exact uniform_same (fun ls X hX L P => by obtain ⟨-, A, rfl, -⟩ := hX; rfl) hU hl hX e
  | ragged w => exact uniform_viaSeqs (withList_ragged w) arrays_sel hU hl hX e
  | padded w => exact uniform_viaSeqs (withList_padded w) arrays_sel hU hl hX e

/-! ### with_ragged -/

theorem withRagged_seqs (w : ℕ) : ViaSeqs withRaggedL (.seqs w) (.ragged w) (fun Y => ∃ As, Y.asRagged = .ok As) .seqs .ragged := by
  intro ls hl X hX
  obtain ⟨seqs, x, ex, hs⟩ := seqs_arrays hX
  have hd : ∀ L P, withRaggedL L false P X = withRaggedListL L false P X := by
    obtain ⟨-, A, rfl, -⟩ := hX
    exact fun L P => rfl
  refine ⟨_, ragged_of hl hX.1 x, fun L P => ⟨fun res e => ?_, fun Y cb v e h => ?_⟩⟩
  · rw [hd] at e
    simp only [withRaggedListL, ex, flatten_of hX.1 hs hl.1, lens_asList hs, bind, Except.bind] at e
    split at e
    · cases e
    · rename_i p ep
      obtain ⟨Y, cb⟩ := p
      refine ⟨Y, cb, ep, ?_⟩
      simp only at e
      rcases or_error Y.asRagged with h | ⟨e', he⟩
      · exact h
      · simp only [he] at e
        cases e
  · rw [hd]
    obtain ⟨y, ey⟩ := ragged_as h
    obtain ⟨yseqs, e2, hys⟩ := unflatten_of ls y
    exact ⟨_, _, by
      simp only [withRaggedListL, ex, flatten_of hX.1 hs hl.1, lens_asList hs, bind, Except.bind, e, ey, e2, pure, Except.pure]; rfl,
      seqs_of h.1 hys⟩

theorem withRagged_padded (w : ℕ) : ViaSeqs withRaggedL (.padded w) (.ragged w) (fun Y => ∃ As, Y.asRagged = .ok As) .padded .ragged := by
  intro ls hl X hX
  obtain ⟨p, seqs, x, e0, e1, hs⟩ := padded_as hX
  have hd : ∀ L P, withRaggedL L false P X = withRaggedPaddedL L false P X := by
    obtain ⟨-, A, ix, -, rfl, -⟩ := hX
    exact fun L P => rfl
  refine ⟨_, ragged_of hl hX.1 x, fun L P => ⟨fun res e => ?_, fun Y cb v e h => ?_⟩⟩
  · rw [hd] at e
    simp only [withRaggedPaddedL, e0, e1, flatten_of hX.1 hs hl.1, lens_asList hs, bind, Except.bind] at e
    split at e
    · cases e
    · rename_i p ep
      obtain ⟨Y, cb⟩ := p
      refine ⟨Y, cb, ep, ?_⟩
      simp only at e
      rcases or_error Y.asRagged with h | ⟨e', he⟩
      · exact h
      · simp only [he] at e
        cases e
  · rw [hd]
    obtain ⟨y, ey⟩ := ragged_as h
    obtain ⟨yseqs, e2, hys⟩ := unflatten_of ls y
    obtain ⟨q, e3, hq⟩ := padded_of hl h.1 hys
    exact ⟨_, _, by
      simp only [withRaggedPaddedL, e0, e1, flatten_of hX.1 hs hl.1, lens_asList hs, bind, Except.bind, e, ey, e2, e3, pure, Except.pure]; rfl,
      hq⟩

theorem uniform_withRagged {I : Type} {L : I → Layer} {P : I → ParamVals} {i : I} (hU : Uniform L P i) :
    Uniform (fun j => withRaggedL (L j)) P i := by
  intro σ ls X r hl hX e
  cases σ with
  | arr per w => obtain ⟨-, A, rfl, -⟩ := hX; cases e
  | ids per w => obtain ⟨-, A, rfl, -⟩ := hX; cases e
  | ints per => obtain ⟨A, rfl, -⟩ := hX; cases e
  | ragged w => exact uniform_same (fun ls X hX L P => by obtain ⟨-, A, rfl, -⟩ := hX; rfl) hU hl hX e
  | idSeqs w =>
    obtain ⟨e', he⟩ := arrays_or (fun w' h => by cases h) hl.batch hX
    have hd : ∀ L P, withRaggedL L false P X = withRaggedListL L false P X := by
      obtain ⟨-, A, rfl, -⟩ := hX
      exact fun L P => rfl
    simp only [hd, withRaggedListL, he, bind, Except.bind] at e
    cases e
  | seqs w => exact uniform_viaSeqs (withRagged_seqs w) ragged_sel hU hl hX e
  | padded w => exact uniform_viaSeqs (withRagged_padded w) ragged_sel hU hl hX e

/-! ### with_padded -/

theorem withPadded_ragged (w : ℕ) : ViaSeqs withPaddedL (.ragged w) (.padded w) (fun Y => ∃ As, Y.asPadded = .ok As) .ragged .padded := by
  intro ls hl X hX
  obtain ⟨x, ex⟩ := ragged_as hX
  obtain ⟨seqs, e1, hs⟩ := unflatten_of ls x
  obtain ⟨q, eq, hq⟩ := padded_of hl hX.1 hs
  have hd : ∀ L P, withPaddedL L false P X = withPaddedRaggedL L false P X := by
    obtain ⟨-, A, rfl, -⟩ := hX
    exact fun L P => rfl
  refine ⟨_, hq, fun L P => ⟨fun res e => ?_, fun Y cb v e h => ?_⟩⟩
  · rw [hd] at e
    simp only [withPaddedRaggedL, ex, e1, eq, bind, Except.bind] at e
    split at e
    · cases e
    · rename_i p ep
      obtain ⟨Y, cb⟩ := p
      refine ⟨Y, cb, ep, ?_⟩
      simp only at e
      rcases or_error Y.asPadded with h | ⟨e', he⟩
      · exact h
      · simp only [he] at e
        cases e
  · rw [hd]
    obtain ⟨p', yseqs, y, e3, e4, hys⟩ := padded_as h
    exact ⟨_, _, by
      simp only [withPaddedRaggedL, ex, e1, eq, bind, Except.bind, e, e3, e4, flatten_of h.1 hys hl.1, pure, Except.pure]; rfl,
      ragged_of hl h.1 y⟩

theorem withPadded_seqs (w : ℕ) : ViaSeqs withPaddedL (.seqs w) (.padded w) (fun Y => ∃ As, Y.asPadded = .ok As) .seqs .padded := by
  intro ls hl X hX
  obtain ⟨seqs, x, ex, hs⟩ := seqs_arrays hX
  obtain ⟨q, eq, hq⟩ := padded_of hl hX.1 hs
  have hd : ∀ L P, withPaddedL L false P X = withPaddedListL L false P X := by
    obtain ⟨-, A, rfl, -⟩ := hX
    exact fun L P => rfl
  refine ⟨_, hq, fun L P => ⟨fun res e => ?_, fun Y cb v e h => ?_⟩⟩
  · rw [hd] at e
    simp only [withPaddedListL, ex, eq, bind, Except.bind] at e
    split at e
    · cases e
    · rename_i p ep
      obtain ⟨Y, cb⟩ := p
      refine ⟨Y, cb, ep, ?_⟩
      simp only at e
      rcases or_error Y.asPadded with h | ⟨e', he⟩
      · exact h
      · simp only [he] at e
        cases e
  · rw [hd]
    obtain ⟨p', yseqs, y, e3, e4, hys⟩ := padded_as h
    exact ⟨_, _, by simp only [withPaddedListL, ex, eq, bind, Except.bind, e, e3, e4, pure, Except.pure]; rfl, seqs_of h.1 hys⟩

theorem uniform_withPadded {I : Type} {L : I → Layer} {P : I → ParamVals} {i : I} (hU : Uniform L P i) :
    Uniform (fun j => withPaddedL (L j)) P i := by
  intro σ ls X r hl hX e
  cases σ with
  | arr per w => obtain ⟨-, A, rfl, -⟩ := hX; cases e
  | ids per w => obtain ⟨-, A, rfl, -⟩ := hX; cases e
  | ints per => obtain ⟨A, rfl, -⟩ := hX; cases e
  | padded w => exact uniform_same (fun ls X hX L P => by obtain ⟨-, A, ix, -, rfl, -⟩ := hX; rfl) hU hl hX e
  | idSeqs w =>
    obtain ⟨e', he⟩ := arrays_or (fun w' h => by cases h) hl.batch hX
    have hd : ∀ L P, withPaddedL L false P X = withPaddedListL L false P X := by
      obtain ⟨-, A, rfl, -⟩ := hX
      exact fun L P => rfl
    simp only [hd, withPaddedListL, he, bind, Except.bind] at e
    cases e
  | seqs w => exact uniform_viaSeqs (withPadded_seqs w) padded_sel hU hl hX e
  | ragged w => exact uniform_viaSeqs (withPadded_ragged w) padded_sel hU hl hX e

end Thinc
