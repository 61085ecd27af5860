import Verif.Lemmas.TextLeaf
import Verif.Lemmas.Columns
/-! # Shapes of batches of sequences: chain, add, concatenate, residual -/
namespace Thinc
open Spec

theorem count_inj {ls : List ℕ} (h : Varied ls) {p q : Per} (e : p.count ls = q.count ls) : p = q := by
  have := h.lt
  cases p <;> cases q <;> simp only [Per.count] at e <;> first | rfl | omega

theorem two_le_count {ls : List ℕ} (h : Varied ls) (p : Per) : 2 ≤ p.count ls := by
  have := h.lt
  have := h.length
  cases p <;> simp only [Per.count] <;> omega

theorem count_of_broadcast {ls : List ℕ} (h : Varied ls) {p q : Per} (e : p.count ls = q.count ls ∨ p.count ls = 1) : p = q := by
  rcases e with e | e
  · exact count_inj h e
  · have := two_le_count h p
    omega

/-! ### chain -/

section
variable {I : Type} {P : I → ParamVals} {i : I}

theorem chainLoop_uniform : ∀ (Ls : List (I → Layer)), (∀ L ∈ Ls, Uniform L P i) → ∀ (σ : Shape) (ls : List ℕ) (X : Val), Varied ls →
    σ.Holds ls X → ∀ cbs r, chainLoop false (P i) (Ls.map fun L => L i) X cbs = .ok r →
    ∃ τ : Shape, ∀ j ls', Nonvoid ls' → ∀ X', σ.Holds ls' X' → ∀ cbs, ∃ Y cbs', chainLoop false (P j) (Ls.map fun L => L j) X' cbs = .ok (Y, cbs') ∧
      τ.Holds ls' Y
  | [], _, σ, ls, X, hl, hX, cbs, r, e => ⟨σ, fun j ls' hl' X' hX' cbs => ⟨X', cbs, rfl, hX'⟩⟩
  | L :: Ls, hU, σ, ls, X, hl, hX, cbs, r, e => by
    simp only [List.map_cons, chainLoop] at e
    obtain ⟨⟨Y, cb⟩, eY, e⟩ := bind_ok e
    obtain ⟨τ, hτ⟩ := hU L (by simp) σ ls X _ hl hX eY
    obtain ⟨Y', cb', e', hY⟩ := hτ i ls hl.batch X hX
    rw [eY] at e'
    cases e'
    obtain ⟨υ, hυ⟩ := chainLoop_uniform Ls (fun L hL => hU L (by simp [hL])) τ ls Y hl hY _ _ e
    refine ⟨υ, fun j ls' hl' X' hX' cbs => ?_⟩
    obtain ⟨Z, cb, eZ, hZ⟩ := hτ j ls' hl' X' hX'
    obtain ⟨V, cbs', eV, hV⟩ := hυ j ls' hl' Z hZ (cbs ++ [cb])
    refine ⟨V, cbs', ?_, hV⟩
    simp only [List.map_cons, chainLoop, eZ, bind, Except.bind]
    exact eV

theorem uniform_chain (Ls : List (I → Layer)) (hU : ∀ L ∈ Ls, Uniform L P i) : Uniform (fun j => chain (Ls.map fun L => L j)) P i := by
  intro σ ls X r hl hX e
  by_cases hne : Ls = []
  · subst hne
    simp only [chain, List.map_nil, List.isEmpty_nil, if_true] at e
    cases e
  have hE : ∀ j, (Ls.map fun L => L j).isEmpty = false := fun j => by simpa using hne
  simp only [chain, hE, Bool.false_eq_true, if_false] at e
  obtain ⟨q, eq, e⟩ := bind_ok e
  obtain ⟨τ, hτ⟩ := chainLoop_uniform Ls hU σ ls X hl hX [] q eq
  refine ⟨τ, fun j ls' hl' X' hX' => ?_⟩
  obtain ⟨Y, cbs, eY, hY⟩ := hτ j ls' hl' X' hX' []
  refine ⟨Y, fun dY G => forM' cbs.reverse (dY, G) (fun (dY, G) callback => callback dY G), ?_, hY⟩
  simp only [chain, hE, Bool.false_eq_true, if_false, eY, bind, Except.bind, pure, Except.pure]

/-! ### add -/

/-- `Y += Z` works for all batches, as it works for one varied batch. -/
theorem iadd_uniform {ls : List ℕ} (hl : Varied ls) {σ τ : Shape} {Y Z R : Val} (hY : σ.Holds ls Y) (hZ : τ.Holds ls Z)
    (hn : ∀ vs, Y ≠ .list vs) (e : Y.iadd Z = .ok R) :
    (∀ ls' Y' Z', σ.Holds ls' Y' → τ.Holds ls' Z' → ∃ R', Y'.iadd Z' = .ok R' ∧ σ.Holds ls' R') ∧ ∀ vs, R ≠ .list vs := by
  cases σ with
  | arr per w =>
    obtain ⟨hw, A, rfl, r1, c1⟩ := hY
    cases τ with
    | arr per' w' =>
      obtain ⟨hw', B, rfl, r2, c2⟩ := hZ
      obtain ⟨C, eC, e⟩ := bind_ok e
      by_cases h : (B.rows = A.rows ∨ B.rows = 1) ∧ (B.cols = A.cols ∨ B.cols = 1)
      · obtain ⟨h1, h2⟩ := h
        rw [r1, r2] at h1
        rw [c1, c2] at h2
        obtain rfl := count_of_broadcast hl h1
        refine ⟨?_, fun vs h => ?_⟩
        · rintro ls' _ _ ⟨-, A', rfl, r1', c1'⟩ ⟨-, B', rfl, r2', c2'⟩
          obtain ⟨C', eC', r3, c3⟩ := npUpdate_shape (· + ·) (A := A') (B := B') (Or.inl (r2'.trans r1'.symm)) (by rw [c1', c2']; exact h2)
          exact ⟨_, by simp only [Val.iadd, eC', bind, Except.bind, pure, Except.pure], hw, C', rfl, r3.trans r1', c3.trans c1'⟩
        · rw [h] at e
          cases e
      · rw [npUpdate, if_neg h] at eC
        cases eC
    | ids per' w' => obtain ⟨-, B, rfl, -⟩ := hZ; cases e
    | ints per' => obtain ⟨B, rfl, -⟩ := hZ; cases e
    | ragged w' => obtain ⟨-, B, rfl, -⟩ := hZ; cases e
    | seqs w' => obtain ⟨-, B, rfl, -⟩ := hZ; cases e
    | idSeqs w' => obtain ⟨-, B, rfl, -⟩ := hZ; cases e
    | padded w' => obtain ⟨-, B, ix, -, rfl, -⟩ := hZ; cases e
  | ids per w =>
    obtain ⟨hw, A, rfl, r1, c1⟩ := hY
    cases τ with
    | ids per' w' =>
      obtain ⟨hw', B, rfl, r2, c2⟩ := hZ
      by_cases h : A.rows = B.rows ∧ A.cols = B.cols
      · simp only [Val.iadd, if_pos h] at e
        obtain ⟨h1, h2⟩ := h
        rw [r1, r2] at h1
        rw [c1, c2] at h2
        obtain rfl := count_inj hl h1
        obtain rfl := h2
        refine ⟨?_, fun vs h => ?_⟩
        · rintro ls' _ _ ⟨-, A', rfl, r1', c1'⟩ ⟨-, B', rfl, r2', c2'⟩
          exact ⟨_, if_pos ⟨r1'.trans r2'.symm, c1'.trans c2'.symm⟩, hw, _, rfl, r1', c1'⟩
        · rw [h] at e
          cases e
      · simp only [Val.iadd, if_neg h] at e
        cases e
    | arr per' w' => obtain ⟨-, B, rfl, -⟩ := hZ; cases e
    | ints per' => obtain ⟨B, rfl, -⟩ := hZ; cases e
    | ragged w' => obtain ⟨-, B, rfl, -⟩ := hZ; cases e
    | seqs w' => obtain ⟨-, B, rfl, -⟩ := hZ; cases e
    | idSeqs w' => obtain ⟨-, B, rfl, -⟩ := hZ; cases e
    | padded w' => obtain ⟨-, B, ix, -, rfl, -⟩ := hZ; cases e
  | ints per =>
    obtain ⟨ks, rfl, r1⟩ := hY
    cases τ with
    | ints per' =>
      obtain ⟨ks', rfl, r2⟩ := hZ
      by_cases h : ks.length = ks'.length
      · simp only [Val.iadd, if_pos h] at e
        rw [r1, r2] at h
        obtain rfl := count_inj hl h
        refine ⟨?_, fun vs h => ?_⟩
        · rintro ls' _ _ ⟨a, rfl, r1'⟩ ⟨b, rfl, r2'⟩
          exact ⟨_, if_pos (r1'.trans r2'.symm), _, rfl, by rw [List.length_zipWith, r1', r2', Nat.min_self]⟩
        · rw [h] at e
          cases e
      · simp only [Val.iadd, if_neg h] at e
        cases e
    | arr per' w' => obtain ⟨-, B, rfl, -⟩ := hZ; cases e
    | ids per' w' => obtain ⟨-, B, rfl, -⟩ := hZ; cases e
    | ragged w' => obtain ⟨-, B, rfl, -⟩ := hZ; cases e
    | seqs w' => obtain ⟨-, B, rfl, -⟩ := hZ; cases e
    | idSeqs w' => obtain ⟨-, B, rfl, -⟩ := hZ; cases e
    | padded w' => obtain ⟨-, B, ix, -, rfl, -⟩ := hZ; cases e
  | ragged w => obtain ⟨-, A, rfl, -⟩ := hY; cases e
  | padded w => obtain ⟨-, A, ix, -, rfl, -⟩ := hY; cases e
  | seqs w => obtain ⟨-, A, rfl, -⟩ := hY; exact absurd rfl (hn _)
  | idSeqs w => obtain ⟨-, A, rfl, -⟩ := hY; exact absurd rfl (hn _)

theorem addLoop_uniform {σ : Shape} {ls : List ℕ} (hl : Varied ls) {X : Val} (hX : σ.Holds ls X) {τ : Shape} :
    ∀ (Ls : List (I → Layer)), (∀ L ∈ Ls, Uniform L P i) → ∀ (Y : Val), τ.Holds ls Y → (∀ vs, Y ≠ .list vs) →
    ∀ cbs r, forM' (Ls.map fun L => L i) (Y, cbs) (addForwardStep false (P i) X) = .ok r →
    ∀ j ls', Nonvoid ls' → ∀ X', σ.Holds ls' X' → ∀ Y', τ.Holds ls' Y' → ∀ cbs, ∃ Z cbs',
      forM' (Ls.map fun L => L j) (Y', cbs) (addForwardStep false (P j) X') = .ok (Z, cbs') ∧ τ.Holds ls' Z
  | [], _, Y, hY, hn, cbs, r, e => fun j ls' hl' X' hX' Y' hY' cbs => ⟨Y', cbs, rfl, hY'⟩
  | L :: Ls, hU, Y, hY, hn, cbs, r, e => by
    simp only [List.map_cons, forM'] at e
    split at e
    · rename_i s' es
      obtain ⟨⟨Z, cb⟩, eZ, es⟩ := bind_ok es
      obtain ⟨R, eR, es⟩ := bind_ok es
      cases es
      obtain ⟨υ, hυ⟩ := hU L (by simp) σ ls X _ hl hX eZ
      obtain ⟨Z', cb', e', hZ⟩ := hυ i ls hl.batch X hX
      rw [eZ] at e'
      cases e'
      obtain ⟨k1, k2⟩ := iadd_uniform hl hY hZ hn eR
      obtain ⟨R', eR', hR⟩ := k1 ls Y Z hY hZ
      simp only at eR
      rw [eR] at eR'
      cases eR'
      intro j ls' hl' X' hX' Y' hY' cbs
      obtain ⟨Z', cb, eZ', hZ'⟩ := hυ j ls' hl' X' hX'
      obtain ⟨R', eR', hR'⟩ := k1 ls' Y' Z' hY' hZ'
      obtain ⟨V, cbs', eV, hV⟩ := addLoop_uniform hl hX Ls (fun L hL => hU L (by simp [hL])) R hR k2 _ _ e j ls' hl' X' hX' R' hR' (cbs ++ [cb])
      refine ⟨V, cbs', ?_, hV⟩
      have : addForwardStep false (P j) X' (Y', cbs) (L j) = .ok (R', cbs ++ [cb]) := by
        simp only [addForwardStep, eZ', eR', bind, Except.bind, pure, Except.pure]
      simp only [List.map_cons, forM', this]
      exact eV
    · cases e

theorem uniform_add (Ls : List (I → Layer)) (hU : ∀ L ∈ Ls, Uniform L P i)
    (hn : ∀ L ∈ Ls, ∀ X Y cb, L i false (P i) X = .ok (Y, cb) → ∀ vs, Y ≠ .list vs) :
    Uniform (fun j => addLayers (Ls.map fun L => L j)) P i := by
  intro σ ls X r hl hX e
  cases Ls with
  | nil => exact ⟨σ, fun j ls' hl' X' hX' => ⟨X', _, rfl, hX'⟩⟩
  | cons L Ls =>
    simp only [addLayers, List.map_cons] at e
    obtain ⟨⟨Y, cb⟩, eY, e⟩ := bind_ok e
    obtain ⟨q, eq, e⟩ := bind_ok e
    obtain ⟨τ, hτ⟩ := hU L (by simp) σ ls X _ hl hX eY
    obtain ⟨Y', cb', e', hY⟩ := hτ i ls hl.batch X hX
    rw [eY] at e'
    cases e'
    have key := addLoop_uniform hl hX Ls (fun L hL => hU L (by simp [hL])) Y hY (hn L (by simp) X Y cb eY) [] q eq
    refine ⟨τ, fun j ls' hl' X' hX' => ?_⟩
    obtain ⟨Z, cb, eZ, hZ⟩ := hτ j ls' hl' X' hX'
    obtain ⟨V, cbs, eV, hV⟩ := key j ls' hl' X' hX' Z hZ []
    simp only [addLayers, List.map_cons, eZ, eV, bind, Except.bind, pure, Except.pure]
    exact ⟨V, _, rfl, hV⟩

/-! ### concatenate -/

theorem mapM_uniform {σ : Shape} {ls : List ℕ} (hl : Varied ls) {X : Val} (hX : σ.Holds ls X) : ∀ (Ls : List (I → Layer)),
    (∀ L ∈ Ls, Uniform L P i) → ∀ outs, (Ls.map fun L => L i).mapM (fun L => L false (P i) X) = .ok outs →
    ∃ τs : List Shape, List.Forall₂ (fun τ (o : Val × Callback) => τ.Holds ls o.1) τs outs ∧
      ∀ j ls', Nonvoid ls' → ∀ X', σ.Holds ls' X' → ∃ outs', (Ls.map fun L => L j).mapM (fun L => L false (P j) X') = .ok outs' ∧
        List.Forall₂ (fun τ (o : Val × Callback) => τ.Holds ls' o.1) τs outs'
  | [], _, outs, e => by
    cases e
    exact ⟨[], .nil, fun j ls' hl' X' hX' => ⟨[], rfl, .nil⟩⟩
  | L :: Ls, hU, outs, e => by
    rw [List.map_cons, List.mapM_cons] at e
    obtain ⟨⟨Y, cb⟩, eY, e⟩ := bind_ok e
    obtain ⟨rest, er, e⟩ := bind_ok e
    cases e
    obtain ⟨τ, hτ⟩ := hU L (by simp) σ ls X _ hl hX eY
    obtain ⟨Y', cb', e', hY⟩ := hτ i ls hl.batch X hX
    rw [eY] at e'
    cases e'
    obtain ⟨τs, h1, h2⟩ := mapM_uniform hl hX Ls (fun L hL => hU L (by simp [hL])) rest er
    refine ⟨τ :: τs, .cons hY h1, fun j ls' hl' X' hX' => ?_⟩
    obtain ⟨Z, cb, eZ, hZ⟩ := hτ j ls' hl' X' hX'
    obtain ⟨outs', eo, ho⟩ := h2 j ls' hl' X' hX'
    refine ⟨(Z, cb) :: outs', ?_, .cons hZ ho⟩
    rw [List.map_cons, List.mapM_cons]
    simp only [eZ, eo, bind, Except.bind, pure, Except.pure]

theorem forall₂_map {α β γ : Type} {R : α → γ → Prop} (f : β → γ) : ∀ {as : List α} {bs : List β},
    List.Forall₂ (fun a b => R a (f b)) as bs → List.Forall₂ R as (bs.map f)
  | _, _, .nil => .nil
  | _, _, .cons h t => .cons h (forall₂_map f t)

theorem hstack2_ok {A B C : Mat ℝ} (h : hstack2 A B = .ok C) : A.rows = B.rows ∧ C.rows = A.rows := by
  unfold hstack2 at h
  split at h
  · cases h
    rename_i e
    exact ⟨e, rfl⟩
  · cases h

theorem hstack_rows : ∀ (Bs : List (Mat ℝ)) (A C : Mat ℝ), forM' Bs A hstack2 = .ok C → ∀ B ∈ Bs, B.rows = A.rows
  | [], _, _, _, _, hB => by simp at hB
  | B :: Bs, A, C, e, B', hB => by
    simp only [forM'] at e
    split at e
    · rename_i D eD
      obtain ⟨h1, h2⟩ := hstack2_ok eD
      rcases List.mem_cons.1 hB with rfl | hB
      · exact h1.symm
      · exact (hstack_rows Bs D C e B' hB).trans h2
    · cases e

/-- All outputs are arrays with as many rows as the first one. -/
theorem arrays_same {ls : List ℕ} (hl : Varied ls) {per : Per} : ∀ {τs : List Shape} {Ys : List Val} {As : List (Mat ℝ)},
    List.Forall₂ (fun τ Y => Shape.Holds τ ls Y) τs Ys → Ys.mapM Val.asArr = .ok As → (∀ A ∈ As, A.rows = per.count ls) →
    ∃ ws : List ℕ, τs = ws.map (Shape.arr per)
  | _, _, _, .nil, _, _ => ⟨[], rfl⟩
  | _, _, _, .cons (a := τ) h t, e, hr => by
    obtain ⟨A, As, e1, e2, rfl⟩ := mapM_cons_ok e
    obtain ⟨per', w, rfl, -⟩ := asArr_shape h e1
    obtain ⟨ws, rfl⟩ := arrays_same hl t e2 fun A hA => hr A (by simp [hA])
    obtain ⟨-, B, rfl, r1, -⟩ := h
    cases e1
    obtain rfl := count_inj hl (r1.symm.trans (hr A (by simp)))
    exact ⟨w :: ws, rfl⟩

theorem arrays_hold {ls : List ℕ} {per : Per} : ∀ {ws : List ℕ} {Ys : List Val},
    List.Forall₂ (fun τ Y => Shape.Holds τ ls Y) (ws.map (Shape.arr per)) Ys →
    ∃ As, Ys.mapM Val.asArr = .ok As ∧ (∀ A ∈ As, A.rows = per.count ls) ∧ As.map Mat.cols = ws ∧ ∀ w ∈ ws, 0 < w
  | [], _, .nil => ⟨[], rfl, by simp, rfl, by simp⟩
  | w :: ws, _, .cons h t => by
    obtain ⟨hw, A, rfl, r1, c1⟩ := h
    obtain ⟨As, e, h1, h2, h3⟩ := arrays_hold t
    refine ⟨A :: As, ?_, ?_, by simp [c1, h2], by simpa [hw] using h3⟩
    · rw [List.mapM_cons]
      simp only [Val.asArr, e, bind, Except.bind, pure, Except.pure]
    · simpa [r1] using h1

theorem ragged_same {ls : List ℕ} : ∀ {τs : List Shape} {Ys : List Val} {As : List (Mat ℝ)},
    List.Forall₂ (fun τ Y => Shape.Holds τ ls Y) τs Ys → Ys.mapM Val.raggedData = .ok As → ∃ ws : List ℕ, τs = ws.map Shape.ragged
  | _, _, _, .nil, _ => ⟨[], rfl⟩
  | _, _, _, .cons (a := τ) h t, e => by
    obtain ⟨A, As, e1, e2, rfl⟩ := mapM_cons_ok e
    obtain ⟨ws, rfl⟩ := ragged_same t e2
    cases τ with
    | ragged w => exact ⟨w :: ws, rfl⟩
    | arr per w => obtain ⟨-, B, rfl, -⟩ := h; cases e1
    | ids per w => obtain ⟨-, B, rfl, -⟩ := h; cases e1
    | ints per => obtain ⟨B, rfl, -⟩ := h; cases e1
    | seqs w => obtain ⟨-, B, rfl, -⟩ := h; cases e1
    | idSeqs w => obtain ⟨-, B, rfl, -⟩ := h; cases e1
    | padded w => obtain ⟨-, B, ix, -, rfl, -⟩ := h; cases e1

theorem ragged_hold {ls : List ℕ} : ∀ {ws : List ℕ} {Ys : List Val},
    List.Forall₂ (fun τ Y => Shape.Holds τ ls Y) (ws.map Shape.ragged) Ys →
    ∃ As, Ys.mapM Val.raggedData = .ok As ∧ (∀ A ∈ As, A.rows = ls.sum) ∧ As.map Mat.cols = ws ∧ ∀ w ∈ ws, 0 < w
  | [], _, .nil => ⟨[], rfl, by simp, rfl, by simp⟩
  | w :: ws, _, .cons h t => by
    obtain ⟨hw, A, rfl, r1, c1⟩ := h
    obtain ⟨As, e, h1, h2, h3⟩ := ragged_hold t
    refine ⟨A :: As, ?_, ?_, by simp [c1, h2], by simpa [hw] using h3⟩
    · rw [List.mapM_cons]
      simp only [Val.raggedData, e, bind, Except.bind, pure, Except.pure]
    · simpa [r1] using h1

theorem stacked_same {ls : List ℕ} (hl : Nonvoid ls) : ∀ {τs : List Shape} {Ys : List Val} {As : List (Mat ℝ)},
    List.Forall₂ (fun τ Y => Shape.Holds τ ls Y) τs Ys → Ys.mapM Val.stacked = .ok As → ∃ ws : List ℕ, τs = ws.map Shape.seqs
  | _, _, _, .nil, _ => ⟨[], rfl⟩
  | _, _, _, .cons (a := τ) h t, e => by
    obtain ⟨A, As, e1, e2, rfl⟩ := mapM_cons_ok e
    obtain ⟨ws, rfl⟩ := stacked_same hl t e2
    cases τ with
    | ragged w => obtain ⟨-, B, rfl, -⟩ := h; cases e1
    | arr per w => obtain ⟨-, B, rfl, -⟩ := h; cases e1
    | ids per w => obtain ⟨-, B, rfl, -⟩ := h; cases e1
    | ints per => obtain ⟨B, rfl, -⟩ := h; cases e1
    | seqs w => exact ⟨w :: ws, rfl⟩
    | idSeqs w =>
      obtain ⟨-, Bs, rfl, h1, -⟩ := h
      cases Bs with
      | nil => exact absurd h1.symm hl.1
      | cons B Bs => cases e1
    | padded w => obtain ⟨-, B, ix, -, rfl, -⟩ := h; cases e1

theorem vstack_shape : ∀ (Bs : List (Mat ℝ)) (A : Mat ℝ) (w : ℕ), A.cols = w → (∀ B ∈ Bs, B.cols = w) →
    ∃ C, forM' Bs A vstack2 = .ok C ∧ C.rows = A.rows + (Bs.map Mat.rows).sum ∧ C.cols = w
  | [], A, w, hA, _ => ⟨A, rfl, by simp, hA⟩
  | B :: Bs, A, w, hA, h => by
    have e : vstack2 A B = .ok _ := if_pos (hA.trans (h B (by simp)).symm)
    obtain ⟨C, eC, h1, h2⟩ := vstack_shape Bs (Mat.ofFn (A.rows + B.rows) A.cols (fun i j => if i < A.rows then A.at i j else B.at (i - A.rows) j))
      w hA (fun Z hZ => h Z (by simp [hZ]))
    refine ⟨C, by simp only [forM', e, eC], ?_, h2⟩
    rw [h1, List.map_cons, List.sum_cons, ← Nat.add_assoc]
    rfl

theorem seqs_stacked {ls : List ℕ} (hl : Nonvoid ls) {w : ℕ} {Y : Val} (h : (Shape.seqs w).Holds ls Y) :
    ∃ A, Y.stacked = .ok A ∧ A.rows = ls.sum ∧ A.cols = w := by
  obtain ⟨-, Bs, rfl, h1, h2⟩ := h
  cases Bs with
  | nil => exact absurd h1.symm hl.1
  | cons B Bs =>
    obtain ⟨C, eC, r, c⟩ := vstack_shape Bs B w (h2 B (by simp)) fun B hB => h2 B (by simp [hB])
    refine ⟨C, ?_, ?_, c⟩
    · have hm := mapM_asArr (B :: Bs)
      simp only [Val.stacked, Val.items, hm, vstack, bind, Except.bind]
      exact eC
    · rw [r, ← h1]
      simp

theorem stacked_hold {ls : List ℕ} (hl : Nonvoid ls) : ∀ {ws : List ℕ} {Ys : List Val},
    List.Forall₂ (fun τ Y => Shape.Holds τ ls Y) (ws.map Shape.seqs) Ys →
    ∃ As, Ys.mapM Val.stacked = .ok As ∧ (∀ A ∈ As, A.rows = ls.sum) ∧ As.map Mat.cols = ws ∧ ∀ w ∈ ws, 0 < w
  | [], _, .nil => ⟨[], rfl, by simp, rfl, by simp⟩
  | w :: ws, _, .cons h t => by
    obtain ⟨A, eA, r1, c1⟩ := seqs_stacked hl h
    obtain ⟨As, e, h1, h2, h3⟩ := stacked_hold hl t
    refine ⟨A :: As, ?_, ?_, by simp [c1, h2], by simpa [h.1] using h3⟩
    · rw [List.mapM_cons]
      simp only [eA, e, bind, Except.bind, pure, Except.pure]
    · simpa [r1] using h1

theorem matUnflatten_shape (A : Mat ℝ) : ∀ (ls : List ℕ) (start : ℕ), start + ls.sum ≤ A.rows →
    (matUnflatten A ls start).map Mat.rows = ls ∧ ∀ B ∈ matUnflatten A ls start, B.cols = A.cols
  | [], _, _ => ⟨rfl, by simp [matUnflatten]⟩
  | l :: ls, start, h => by
    rw [List.sum_cons] at h
    obtain ⟨h1, h2⟩ := matUnflatten_shape A ls (start + l) (by omega)
    refine ⟨?_, ?_⟩
    · rw [matUnflatten, List.map_cons, h1]
      congr 1
      simp only [Mat.rowBlock, Mat.ofFn]
      omega
    · intro B hB
      rw [matUnflatten] at hB
      rcases List.mem_cons.1 hB with rfl | hB
      · rfl
      · exact h2 B hB

theorem items_lens {σ : Shape} {ls : List ℕ} {X : Val} (hX : σ.Holds ls X) {vs : List Val} (e : X.items = .ok vs) :
    vs.mapM Val.len = .ok ls ∧ ((∃ w, σ = .seqs w) ∨ ∃ w, σ = .idSeqs w) := by
  have key : ∀ {α : Type} (f : α → Val) (len : α → ℕ) (_ : ∀ a, (f a).len = .ok (len a)) (As : List α),
      (As.map f).mapM Val.len = .ok (As.map len) := by
    intro α f len h As
    induction As with
    | nil => rfl
    | cons A As ih =>
      rw [List.map_cons, List.mapM_cons, h, ih]
      rfl
  cases σ with
  | ragged w => obtain ⟨-, B, rfl, -⟩ := hX; cases e
  | arr per w => obtain ⟨-, B, rfl, -⟩ := hX; cases e
  | ids per w => obtain ⟨-, B, rfl, -⟩ := hX; cases e
  | ints per => obtain ⟨B, rfl, -⟩ := hX; cases e
  | padded w => obtain ⟨-, B, ix, -, rfl, -⟩ := hX; cases e
  | seqs w =>
    obtain ⟨-, As, rfl, h1, -⟩ := hX
    cases e
    exact ⟨by rw [key Val.arr Mat.rows (fun _ => rfl), h1], Or.inl ⟨w, rfl⟩⟩
  | idSeqs w =>
    obtain ⟨-, As, rfl, h1, -⟩ := hX
    cases e
    exact ⟨by rw [key Val.intMat Mat.rows (fun _ => rfl), h1], Or.inr ⟨w, rfl⟩⟩

theorem seqs_items {σ : Shape} {ls : List ℕ} {X : Val} (hX : σ.Holds ls X) (h : (∃ w, σ = .seqs w) ∨ ∃ w, σ = .idSeqs w) :
    ∃ vs, X.items = .ok vs := by
  rcases h with ⟨w, rfl⟩ | ⟨w, rfl⟩
  · obtain ⟨-, As, rfl, -⟩ := hX
    exact ⟨_, rfl⟩
  · obtain ⟨-, As, rfl, -⟩ := hX
    exact ⟨_, rfl⟩

theorem sum_pos_of {ws : List ℕ} (h : ∀ w ∈ ws, 0 < w) (hne : ws ≠ []) : 0 < ws.sum := by
  cases ws with
  | nil => exact absurd rfl hne
  | cons w ws =>
    have := h w (by simp)
    rw [List.sum_cons]
    omega

theorem hstack_of {As : List (Mat ℝ)} {r : ℕ} (hne : As ≠ []) (hr : ∀ A ∈ As, A.rows = r) :
    ∃ C, hstack As = .ok C ∧ C.rows = r ∧ C.cols = (As.map Mat.cols).sum := by
  cases As with
  | nil => exact absurd rfl hne
  | cons A As =>
    obtain ⟨C, e, h1, h2⟩ := hstack_shape As A r (hr A (by simp)) fun B hB => hr B (by simp [hB])
    exact ⟨C, e, h1, by rw [h2]; simp⟩

theorem concat_uniform {σ : Shape} {ls : List ℕ} (hl : Varied ls) {X : Val} (hX : σ.Holds ls X) {τs : List Shape} {Ys : List Val}
    (hY : List.Forall₂ (fun τ Y => Shape.Holds τ ls Y) τs Ys) {cbs : List Callback} {r : Val × Callback}
    (e : concatOutputs X Ys cbs = .ok r) :
    ∃ υ : Shape, ∀ ls', Nonvoid ls' → ∀ X', σ.Holds ls' X' → ∀ Ys', List.Forall₂ (fun τ Y => Shape.Holds τ ls' Y) τs Ys' → ∀ cbs',
      ∃ Z cb, concatOutputs X' Ys' cbs' = .ok (Z, cb) ∧ υ.Holds ls' Z := by
  cases hY with
  | nil => cases e
  | @cons τ Y τs Ys h t =>
    have hall : List.Forall₂ (fun τ Y => Shape.Holds τ ls Y) (τ :: τs) (Y :: Ys) := .cons h t
    cases τ with
    | ids per w =>
      obtain ⟨-, B, rfl, -⟩ := h
      obtain ⟨As, eA, -⟩ := bind_ok (show concatArrays _ _ = _ from e)
      obtain ⟨_, _, e1, -⟩ := mapM_cons_ok eA
      cases e1
    | ints per =>
      obtain ⟨B, rfl, -⟩ := h
      obtain ⟨As, eA, -⟩ := bind_ok (show concatArrays _ _ = _ from e)
      obtain ⟨_, _, e1, -⟩ := mapM_cons_ok eA
      cases e1
    | padded w =>
      obtain ⟨-, B, ix, -, rfl, -⟩ := h
      obtain ⟨As, eA, -⟩ := bind_ok (show concatArrays _ _ = _ from e)
      obtain ⟨_, _, e1, -⟩ := mapM_cons_ok eA
      cases e1
    | arr per w =>
      obtain ⟨hw, B, rfl, r1, c1⟩ := h
      obtain ⟨As, eA, e⟩ := bind_ok (show concatArrays _ _ = _ from e)
      obtain ⟨C, eC, e⟩ := bind_ok e
      obtain ⟨B', As, e1, -, rfl⟩ := mapM_cons_ok eA
      cases e1
      have hr := hstack_rows As B C eC
      obtain ⟨ws, ews⟩ := arrays_same hl hall eA (per := per) (by
        intro A hA
        rcases List.mem_cons.1 hA with rfl | hA
        · exact r1
        · exact (hr A hA).trans r1)
      rw [ews]
      refine ⟨.arr per ws.sum, fun ls' hl' X' hX' Ys' hY' cbs' => ?_⟩
      have hne : ws ≠ [] := by rintro rfl; cases ews
      obtain ⟨As', e1, e2, e3, e4⟩ := arrays_hold hY'
      obtain ⟨C', eC', r', c'⟩ := hstack_of (by rintro rfl; exact hne (by simpa using e3.symm)) e2
      have hd : concatOutputs X' Ys' cbs' = concatArrays Ys' cbs' := by
        cases ws with
        | nil => exact absurd rfl hne
        | cons w ws =>
          cases hY' with
          | cons h t =>
            obtain ⟨-, D, rfl, -⟩ := h
            rfl
      rw [hd]
      exact ⟨_, _, by simp only [concatArrays, e1, eC', bind, Except.bind, pure, Except.pure]; rfl, sum_pos_of e4 hne, C', rfl, r',
        by rw [c', e3]⟩
    | ragged w =>
      obtain ⟨hw, B, rfl, r1, c1⟩ := h
      obtain ⟨As, eA, -⟩ := bind_ok (show concatRagged _ _ = _ from e)
      obtain ⟨ws, ews⟩ := ragged_same hall eA
      rw [ews]
      refine ⟨.ragged ws.sum, fun ls' hl' X' hX' Ys' hY' cbs' => ?_⟩
      have hne : ws ≠ [] := by rintro rfl; cases ews
      obtain ⟨As', e1, e2, e3, e4⟩ := ragged_hold hY'
      obtain ⟨C', eC', r', c'⟩ := hstack_of (by rintro rfl; exact hne (by simpa using e3.symm)) e2
      have hd : concatOutputs X' Ys' cbs' = concatRagged Ys' cbs' ∧ ∃ Y', firstItem Ys' = .ok Y' ∧ Y'.lengths = .ok ls' := by
        cases ws with
        | nil => exact absurd rfl hne
        | cons w ws =>
          cases hY' with
          | cons h t =>
            obtain ⟨-, D, rfl, -⟩ := h
            exact ⟨rfl, _, rfl, rfl⟩
      obtain ⟨hd, Y', f1, f2⟩ := hd
      rw [hd]
      exact ⟨_, _, by simp only [concatRagged, e1, eC', f1, f2, bind, Except.bind, pure, Except.pure]; rfl, sum_pos_of e4 hne, C', rfl, r',
        by rw [c', e3]⟩
    | seqs w =>
      obtain ⟨hw, Bs, rfl, h1, h2⟩ := h
      obtain ⟨items, ei, e⟩ := bind_ok (show concatLists _ _ _ = _ from e)
      obtain ⟨lens, el, e⟩ := bind_ok e
      obtain ⟨As, eA, e⟩ := bind_ok e
      obtain ⟨ws, ews⟩ := stacked_same hl.batch hall eA
      have hσ := (items_lens hX ei).2
      rw [ews]
      refine ⟨.seqs ws.sum, fun ls' hl' X' hX' Ys' hY' cbs' => ?_⟩
      have hne : ws ≠ [] := by rintro rfl; cases ews
      obtain ⟨As', e1, e2, e3, e4⟩ := stacked_hold hl' hY'
      obtain ⟨C', eC', r', c'⟩ := hstack_of (by rintro rfl; exact hne (by simpa using e3.symm)) e2
      obtain ⟨vs, ev⟩ := seqs_items hX' hσ
      have elen := (items_lens hX' ev).1
      have hd : concatOutputs X' Ys' cbs' = concatLists X' Ys' cbs' := by
        cases ws with
        | nil => exact absurd rfl hne
        | cons w ws =>
          cases hY' with
          | cons h t =>
            obtain ⟨-, D, rfl, -⟩ := h
            rfl
      rw [hd]
      obtain ⟨m1, m2⟩ := matUnflatten_shape C' ls' 0 (by omega)
      exact ⟨_, _, by simp only [concatLists, ev, elen, e1, eC', bind, Except.bind, pure, Except.pure]; rfl, sum_pos_of e4 hne, _, rfl, m1,
        fun B hB => by rw [m2 B hB, c', e3]⟩
    | idSeqs w =>
      obtain ⟨hw, Bs, rfl, h1, h2⟩ := h
      obtain ⟨items, ei, e⟩ := bind_ok (show concatLists _ _ _ = _ from e)
      obtain ⟨lens, el, e⟩ := bind_ok e
      obtain ⟨As, eA, e⟩ := bind_ok e
      obtain ⟨ws, ews⟩ := stacked_same hl.batch hall eA
      cases ws <;> cases ews

theorem uniform_concatenate (Ls : List (I → Layer)) (hU : ∀ L ∈ Ls, Uniform L P i) :
    Uniform (fun j => concatenateForward (Ls.map fun L => L j)) P i := by
  intro σ ls X r hl hX e
  obtain ⟨outs, eo, e⟩ := bind_ok (show Except.bind _ _ = _ from e)
  obtain ⟨τs, h1, h2⟩ := mapM_uniform hl hX Ls hU outs eo
  obtain ⟨υ, hυ⟩ := concat_uniform hl hX (forall₂_map Prod.fst h1) e
  refine ⟨υ, fun j ls' hl' X' hX' => ?_⟩
  obtain ⟨outs', eo', h3⟩ := h2 j ls' hl' X' hX'
  obtain ⟨Z, cb, eZ, hZ⟩ := hυ ls' hl' X' hX' _ (forall₂_map Prod.fst h3) (outs'.map Prod.snd)
  refine ⟨Z, cb, ?_, hZ⟩
  simp only [concatenateForward, eo', bind, Except.bind]
  exact eZ

/-! ### residual -/

theorem broadcast_ok {a b c : ℕ} (h : broadcastDim a b = .ok c) : (a = b ∧ c = a) ∨ (a = 1 ∧ c = b) ∨ (b = 1 ∧ c = a) := by
  unfold broadcastDim at h
  split at h
  · cases h; exact Or.inl ⟨by assumption, rfl⟩
  · split at h
    · cases h; exact Or.inr (Or.inl ⟨by assumption, rfl⟩)
    · split at h
      · cases h; exact Or.inr (Or.inr ⟨by assumption, rfl⟩)
      · cases h

theorem npBinary_ok {f : ℝ → ℝ → ℝ} {A B C : Mat ℝ} (h : npBinary f A B = .ok C) :
    broadcastDim A.rows B.rows = .ok C.rows ∧ broadcastDim A.cols B.cols = .ok C.cols := by
  obtain ⟨r, e1, h⟩ := bind_ok (show Except.bind _ _ = _ from h)
  obtain ⟨c, e2, h⟩ := bind_ok h
  cases h
  exact ⟨e1, e2⟩

theorem broadcast_pos {a b c : ℕ} (h : broadcastDim a b = .ok c) (ha : 0 < a) (hb : 0 < b) : 0 < c := by
  rcases broadcast_ok h with ⟨-, rfl⟩ | ⟨-, rfl⟩ | ⟨-, rfl⟩ <;> assumption

/-- Adding sequences to sequences. -/
theorem addItems_shape {c : ℕ} {w v : ℕ} (hc : broadcastDim w v = .ok c) : ∀ (As Bs : List (Mat ℝ)),
    As.map Mat.rows = Bs.map Mat.rows → (∀ A ∈ As, A.cols = w) → (∀ B ∈ Bs, B.cols = v) →
    ∃ Cs : List (Mat ℝ), addItems (As.map .arr) (Bs.map .arr) = .ok (Cs.map .arr) ∧ Cs.map Mat.rows = As.map Mat.rows ∧ ∀ C ∈ Cs, C.cols = c
  | [], _, _, _, _ => ⟨[], rfl, rfl, by simp⟩
  | A :: As, [], h, _, _ => by simp at h
  | A :: As, B :: Bs, h, hA, hB => by
    simp only [List.map_cons, List.cons.injEq] at h
    obtain ⟨Cs, e, h1, h2⟩ := addItems_shape hc As Bs h.2 (fun A h => hA A (by simp [h])) (fun B h => hB B (by simp [h]))
    obtain ⟨C, eC, r, c'⟩ := npBinary_shape (· + ·) (A := A) (B := B) (r := A.rows) (c := c) (by rw [h.1]; exact broadcast_same _)
      (by rw [hA A (by simp), hB B (by simp)]; exact hc)
    refine ⟨C :: Cs, ?_, by simp [r, h1], ?_⟩
    · simp only [List.map_cons, addItems, Val.add, eC, e, bind, Except.bind, pure, Except.pure]
    · intro D hD
      rcases List.mem_cons.1 hD with rfl | hD
      · exact c'
      · exact h2 D hD

theorem uniform_residual {L : I → Layer} (hU : Uniform L P i) : Uniform (fun j => residual (L j)) P i := by
  intro σ ls X r hl hX e
  obtain ⟨⟨Y, cb⟩, eY, e⟩ := bind_ok (show Except.bind _ _ = _ from e)
  obtain ⟨τ, hτ⟩ := hU σ ls X _ hl hX eY
  obtain ⟨Y', cb', e', hY⟩ := hτ i ls hl.batch X hX
  rw [eY] at e'
  cases e'
  simp only at e
  cases σ with
  | arr per w =>
    obtain ⟨hw, A, rfl, r1, c1⟩ := hX
    obtain ⟨R, eR, -⟩ := bind_ok (show Except.bind _ _ = _ from e)
    cases τ with
    | arr per' v =>
      obtain ⟨hv, B, rfl, r2, c2⟩ := hY
      obtain ⟨C, eC, -⟩ := bind_ok (show Except.bind _ _ = _ from eR)
      obtain ⟨h1, h2⟩ := npBinary_ok eC
      rw [r1, r2] at h1
      rw [c1, c2] at h2
      have k1 := two_le_count hl per
      have k2 := two_le_count hl per'
      obtain rfl : per = per' := count_inj hl (by rcases broadcast_ok h1 with h | h | h <;> omega)
      refine ⟨.arr per C.cols, fun j ls' hl' X' hX' => ?_⟩
      obtain ⟨Z, cb, eZ, hZ⟩ := hτ j ls' hl' X' hX'
      obtain ⟨-, A', rfl, r1', c1'⟩ := hX'
      obtain ⟨-, B', rfl, r2', c2'⟩ := hZ
      obtain ⟨D, eD, r3, c3⟩ := npBinary_shape (· + ·) (A := A') (B := B') (by rw [r1', r2']; exact broadcast_same _)
        (by rw [c1', c2']; exact h2)
      exact ⟨_, _, by simp only [residual, eZ, Val.add, eD, bind, Except.bind, pure, Except.pure]; rfl, broadcast_pos h2 hw hv, D, rfl, r3, c3⟩
    | ids per' v => obtain ⟨-, B, rfl, -⟩ := hY; cases eR
    | ints per' => obtain ⟨B, rfl, -⟩ := hY; cases eR
    | ragged v => obtain ⟨-, B, rfl, -⟩ := hY; cases eR
    | seqs v => obtain ⟨-, B, rfl, -⟩ := hY; cases eR
    | idSeqs v => obtain ⟨-, B, rfl, -⟩ := hY; cases eR
    | padded v => obtain ⟨-, B, ix, -, rfl, -⟩ := hY; cases eR
  | ids per w =>
    obtain ⟨hw, A, rfl, r1, c1⟩ := hX
    obtain ⟨R, eR, -⟩ := bind_ok (show Except.bind _ _ = _ from e)
    cases eR
  | ints per =>
    obtain ⟨A, rfl, r1⟩ := hX
    obtain ⟨R, eR, -⟩ := bind_ok (show Except.bind _ _ = _ from e)
    cases eR
  | ragged w =>
    obtain ⟨hw, A, rfl, r1, c1⟩ := hX
    obtain ⟨R, eR, -⟩ := bind_ok (show Except.bind _ _ = _ from e)
    cases τ with
    | ragged v =>
      obtain ⟨hv, B, rfl, r2, c2⟩ := hY
      obtain ⟨h1, h2⟩ := npBinary_ok eR
      rw [c1, c2] at h2
      refine ⟨.ragged R.cols, fun j ls' hl' X' hX' => ?_⟩
      obtain ⟨Z, cb, eZ, hZ⟩ := hτ j ls' hl' X' hX'
      obtain ⟨-, A', rfl, r1', c1'⟩ := hX'
      obtain ⟨-, B', rfl, r2', c2'⟩ := hZ
      obtain ⟨D, eD, r3, c3⟩ := npBinary_shape (· + ·) (A := A') (B := B') (by rw [r1', r2']; exact broadcast_same _)
        (by rw [c1', c2']; exact h2)
      exact ⟨_, _, by simp only [residual, eZ, addData, eD, bind, Except.bind, pure, Except.pure]; rfl, broadcast_pos h2 hw hv, D, rfl, r3, c3⟩
    | padded v =>
      obtain ⟨-, B, ix, -, rfl, r2, -⟩ := hY
      exfalso
      obtain ⟨h1, -⟩ := npBinary_ok (show npBinary _ _ _ = _ from eR)
      have := hl.cells
      have := hl.lt
      have := hl.length
      rw [r1, r2] at h1
      rcases broadcast_ok h1 with h | h | h <;> omega
    | arr per' v => obtain ⟨-, B, rfl, -⟩ := hY; cases eR
    | ids per' v => obtain ⟨-, B, rfl, -⟩ := hY; cases eR
    | ints per' => obtain ⟨B, rfl, -⟩ := hY; cases eR
    | seqs v => obtain ⟨-, B, rfl, -⟩ := hY; cases eR
    | idSeqs v => obtain ⟨-, B, rfl, -⟩ := hY; cases eR
  | padded w =>
    obtain ⟨hw, A, ix, ho, rfl, r1, c1⟩ := hX
    obtain ⟨R, eR, -⟩ := bind_ok (show Except.bind _ _ = _ from e)
    cases τ with
    | padded v =>
      obtain ⟨hv, B, ix', ho', rfl, r2, c2⟩ := hY
      obtain ⟨C, eC, -⟩ := bind_ok (show Except.bind _ _ = _ from eR)
      by_cases h : (A.rows = B.rows ∨ A.rows = 1) ∧ (A.cols = B.cols ∨ A.cols = 1)
      · obtain ⟨-, h2⟩ := h
        rw [c1, c2] at h2
        refine ⟨.padded v, fun j ls' hl' X' hX' => ?_⟩
        obtain ⟨Z, cb, eZ, hZ⟩ := hτ j ls' hl' X' hX'
        obtain ⟨-, A', iy, -, rfl, r1', c1'⟩ := hX'
        obtain ⟨-, B', iz, hz, rfl, r2', c2'⟩ := hZ
        obtain ⟨D, eD, r3, c3⟩ := npUpdate_shape (· + ·) (A := B') (B := A') (Or.inl (r1'.trans r2'.symm)) (by rw [c1', c2']; exact h2)
        exact ⟨_, _, by simp only [residual, eZ, Val.iaddData, eD, bind, Except.bind, pure, Except.pure]; rfl, hv, D, iz, hz, rfl,
          r3.trans r2', c3.trans c2'⟩
      · rw [npUpdate, if_neg h] at eC
        cases eC
    | ragged v => obtain ⟨-, B, rfl, -⟩ := hY; cases eR
    | arr per' v => obtain ⟨-, B, rfl, -⟩ := hY; cases eR
    | ids per' v => obtain ⟨-, B, rfl, -⟩ := hY; cases eR
    | ints per' => obtain ⟨B, rfl, -⟩ := hY; cases eR
    | seqs v => obtain ⟨-, B, rfl, -⟩ := hY; cases eR
    | idSeqs v => obtain ⟨-, B, rfl, -⟩ := hY; cases eR
  | seqs w =>
    obtain ⟨hw, As, rfl, h1, h2⟩ := hX
    obtain ⟨items, ei, e⟩ := bind_ok (show Except.bind _ _ = _ from e)
    obtain ⟨R, eR, -⟩ := bind_ok e
    cases As with
    | nil => exact absurd h1.symm hl.batch.1
    | cons A As =>
      cases τ with
      | seqs v =>
        obtain ⟨hv, Bs, rfl, h3, h4⟩ := hY
        cases ei
        cases Bs with
        | nil => exact absurd h3.symm hl.batch.1
        | cons B Bs =>
          simp only [List.map_cons, addItems] at eR
          obtain ⟨C, eC, -⟩ := bind_ok (show Except.bind _ _ = _ from eR)
          obtain ⟨D, eD, -⟩ := bind_ok (show Except.bind _ _ = _ from eC)
          obtain ⟨-, hc⟩ := npBinary_ok eD
          rw [h2 A (by simp), h4 B (by simp)] at hc
          refine ⟨.seqs D.cols, fun j ls' hl' X' hX' => ?_⟩
          obtain ⟨Z, cb, eZ, hZ⟩ := hτ j ls' hl' X' hX'
          obtain ⟨-, As', rfl, q1, q2⟩ := hX'
          obtain ⟨-, Bs', rfl, q3, q4⟩ := hZ
          obtain ⟨Cs, eCs, r3, c3⟩ := addItems_shape hc As' Bs' (q1.trans q3.symm) q2 q4
          exact ⟨_, _, by simp only [residual, eZ, Val.items, eCs, bind, Except.bind, pure, Except.pure]; rfl, broadcast_pos hc hw hv, Cs, rfl,
            r3.trans q1, c3⟩
      | idSeqs v =>
        obtain ⟨hv, Bs, rfl, h3, h4⟩ := hY
        cases ei
        cases Bs with
        | nil => exact absurd h3.symm hl.batch.1
        | cons B Bs => cases eR
      | arr per' v => obtain ⟨-, B, rfl, -⟩ := hY; cases ei
      | ids per' v => obtain ⟨-, B, rfl, -⟩ := hY; cases ei
      | ints per' => obtain ⟨B, rfl, -⟩ := hY; cases ei
      | ragged v => obtain ⟨-, B, rfl, -⟩ := hY; cases ei
      | padded v => obtain ⟨-, B, ix, -, rfl, -⟩ := hY; cases ei
  | idSeqs w =>
    obtain ⟨hw, As, rfl, h1, h2⟩ := hX
    obtain ⟨items, ei, e⟩ := bind_ok (show Except.bind _ _ = _ from e)
    obtain ⟨R, eR, -⟩ := bind_ok e
    cases As with
    | nil => exact absurd h1.symm hl.batch.1
    | cons A As =>
      cases items with
      | nil => cases eR
      | cons B Bs => cases eR

end

end Thinc
