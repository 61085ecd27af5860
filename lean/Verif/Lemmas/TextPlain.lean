import Verif.Lemmas.TextShapes
import Verif.Props.WindowLayer
import Verif.Props.PoolLayers
/-! # Shapes of batches of sequences: layers without parameters -/
namespace Thinc
open Spec

/-- The layer gives a shape to every value of shape `σ`, or it raises for all of them. -/
def Decides (L : Layer) (σ : Shape) : Prop :=
  (∃ τ, ∀ P, LFits L P σ τ) ∨ ∀ P ls X, Nonvoid ls → σ.Holds ls X → ∃ e, L false P X = .error e

theorem or_error {α : Type} (x : Except PyErr α) : (∃ a, x = .ok a) ∨ ∃ e, x = .error e := by
  cases x with
  | ok a => exact Or.inl ⟨a, rfl⟩
  | error e => exact Or.inr ⟨e, rfl⟩

/-- The layer accepts what some exact layer accepts. -/
theorem exact_accepts {L : Layer} {E F : Type} [NormedAddCommGroup E] [NormedSpace ℝ E] [Tensor E] [NormedAddCommGroup F]
    [NormedSpace ℝ F] [Tensor F] {K : Kind E} {M : Kind F} {f : Params (N := 0) Fin.elim0 × E → F} {x : E} {v : Val} (P : ParamVals)
    (h : Exact L false K M f (fun p => Fin.elim0 p) x) (hv : K.val v x) : ∃ y cb, L false P v = .ok (y, cb) ∧ ∃ z, M.val y z := by
  obtain ⟨y, cb, -, e, hy, -⟩ := h P v (fun p => Fin.elim0 p) hv
  exact ⟨y, cb, e, _, hy⟩

theorem arrays_or {σ : Shape} (h : ∀ w, σ ≠ .seqs w) {ls : List ℕ} (hl : Nonvoid ls) {X : Val} (hX : σ.Holds ls X) :
    ∃ e, X.arrays = .error e := by
  rcases or_error X.arrays with ⟨As, e⟩ | h'
  · obtain ⟨w, rfl⟩ := arrays_shape hl.1 hX e
    exact absurd rfl (h w)
  · exact h'

theorem asRagged_or {σ : Shape} (h : ∀ w, σ ≠ .ragged w) {ls : List ℕ} {X : Val} (hX : σ.Holds ls X) : ∃ e, X.asRagged = .error e := by
  rcases or_error X.asRagged with ⟨As, e⟩ | h'
  · obtain ⟨w, rfl⟩ := asRagged_shape hX e
    exact absurd rfl (h w)
  · exact h'

theorem asPadded_or {σ : Shape} (h : ∀ w, σ ≠ .padded w) {ls : List ℕ} {X : Val} (hX : σ.Holds ls X) : ∃ e, X.asPadded = .error e := by
  rcases or_error X.asPadded with ⟨As, e⟩ | h'
  · obtain ⟨w, rfl⟩ := asPadded_shape hX e
    exact absurd rfl (h w)
  · exact h'

theorem asArr_or {σ : Shape} (h : ∀ per w, σ ≠ .arr per w) {ls : List ℕ} {X : Val} (hX : σ.Holds ls X) : ∃ e, X.asArr = .error e := by
  rcases or_error X.asArr with ⟨As, e⟩ | h'
  · obtain ⟨per, w, rfl, -⟩ := asArr_shape hX e
    exact absurd rfl (h per w)
  · exact h'

/-- The layer raises unless it gets a `Ragged`. -/
theorem raggedOnly {L : Layer} {g : Mat ℝ → List ℕ → Except PyErr (Val × Callback)} (h : ∀ P X, L false P X = do
      let lengths ← X.lengths
      let A ← X.raggedData
      g A lengths) {σ : Shape} (hσ : ∀ w, σ ≠ .ragged w) : ∀ P ls X, Nonvoid ls → σ.Holds ls X → ∃ e, L false P X = .error e := by
  intro P ls X hl hX
  rw [h]
  cases σ with
  | arr per w => obtain ⟨-, B, rfl, -⟩ := hX; exact ⟨_, rfl⟩
  | ids per w => obtain ⟨-, B, rfl, -⟩ := hX; exact ⟨_, rfl⟩
  | ints per => obtain ⟨B, rfl, -⟩ := hX; exact ⟨_, rfl⟩
  | ragged w => exact absurd rfl (hσ w)
  | seqs w => obtain ⟨-, B, rfl, -⟩ := hX; exact ⟨_, rfl⟩
  | idSeqs w => obtain ⟨-, B, rfl, -⟩ := hX; exact ⟨_, rfl⟩
  | padded w => obtain ⟨-, B, ix, -, rfl, -⟩ := hX; exact ⟨_, rfl⟩

/-- A pooling layer. -/
theorem pool_decides {L : Layer} {g : Mat ℝ → List ℕ → Except PyErr (Val × Callback)} (h : ∀ P X, L false P X = do
      let lengths ← X.lengths
      let A ← X.raggedData
      g A lengths) (hg : ∀ A ls, Nonvoid ls → A.rows = ls.sum → ∃ Y cb, g A ls = .ok (.arr Y, cb) ∧ Y.rows = ls.length ∧ Y.cols = A.cols)
    (σ : Shape) : Decides L σ := by
  by_cases hσ : ∃ w, σ = .ragged w
  · obtain ⟨w, rfl⟩ := hσ
    refine Or.inl ⟨.arr .seq w, fun P ls hl X hX => ?_⟩
    obtain ⟨hw, A, rfl, h1, h2⟩ := hX
    obtain ⟨Y, cb, e, r, c⟩ := hg A ls hl h1
    refine ⟨.arr Y, cb, ?_, hw, Y, rfl, r, c.trans h2⟩
    rw [h]
    exact e
  · exact Or.inr (raggedOnly h fun w e => hσ ⟨w, e⟩)

theorem noEmpty_of {ls : List ℕ} (h : Nonvoid ls) : NoEmpty ls := fun b => h.2 _ (List.get_mem ls b)

theorem list2ragged_fits (P : ParamVals) (w : ℕ) : LFits list2raggedL P (.seqs w) (.ragged w) := by
  intro ls hl X hX
  obtain ⟨seqs, x, e1, hs⟩ := seqs_arrays hX
  exact ⟨_, _, by
    simp only [list2raggedL, e1, bind, Except.bind, flatten_of hX.1 hs hl.1, lens_asList hs, pure, Except.pure]; rfl,
    ragged_of hl hX.1 x⟩

theorem list2array_fits (P : ParamVals) (w : ℕ) : LFits list2arrayL P (.seqs w) (.arr .row w) := by
  intro ls hl X hX
  obtain ⟨seqs, x, e1, hs⟩ := seqs_arrays hX
  obtain ⟨r, c⟩ := arr_of x
  exact ⟨.arr _, _, by
    simp only [list2arrayL, e1, bind, Except.bind, flatten_of hX.1 hs hl.1, lens_asList hs, pure, Except.pure]; rfl,
    hX.1, _, rfl, r, c⟩

theorem reduceSum_fits (P : ParamVals) (w : ℕ) : LFits reduceSumLayer P (.ragged w) (.arr .seq w) := by
  intro ls hl X hX
  obtain ⟨hw, A, rfl, h1, h2⟩ := hX
  obtain ⟨Y, e, r, c, -⟩ := C37_reduce_sum_partial A ls (by rw [h1]; exact hl.sum_pos) (by omega)
  unfold asInts at e
  exact ⟨.arr Y, _, by simp only [reduceSumLayer, Val.lengths, Val.raggedData, e, bind, Except.bind, pure, Except.pure]; rfl, hw, Y, rfl, r,
    c.trans h2⟩

theorem plain_decides {L : Layer} (h : PlainLayer L) (σ : Shape) : Decides L σ := by
  cases h with
  | noop => exact Or.inl ⟨σ, fun P ls hl X hX => ⟨X, _, rfl, hX⟩⟩
  | dropout rate isEnabled draws =>
    exact Or.inl ⟨σ, fun P ls hl X hX => ⟨X, _, by simp only [dropout, Bool.and_false, or_true, if_true]; rfl, hX⟩⟩
  | list2ragged =>
    by_cases hσ : ∃ w, σ = .seqs w
    · obtain ⟨w, rfl⟩ := hσ
      exact Or.inl ⟨.ragged w, fun P => list2ragged_fits P w⟩
    · refine Or.inr fun P ls X hl hX => ?_
      obtain ⟨e, he⟩ := arrays_or (fun w e => hσ ⟨w, e⟩) hl hX
      exact ⟨e, by simp only [list2raggedL, he, bind, Except.bind]⟩
  | ragged2list =>
    by_cases hσ : ∃ w, σ = .ragged w
    · obtain ⟨w, rfl⟩ := hσ
      refine Or.inl ⟨.seqs w, fun P ls hl X hX => ?_⟩
      obtain ⟨x, e0⟩ := ragged_as hX
      obtain ⟨seqs, e1, hs⟩ := unflatten_of ls x
      exact ⟨_, _, by simp only [ragged2listL, e0, bind, Except.bind, Ragged.dataXd, e1, pure, Except.pure]; rfl, seqs_of hX.1 hs⟩
    · refine Or.inr fun P ls X hl hX => ?_
      obtain ⟨e, he⟩ := asRagged_or (fun w e => hσ ⟨w, e⟩) hX
      exact ⟨e, by simp only [ragged2listL, he, bind, Except.bind]⟩
  | list2array =>
    by_cases hσ : ∃ w, σ = .seqs w
    · obtain ⟨w, rfl⟩ := hσ
      exact Or.inl ⟨.arr .row w, fun P => list2array_fits P w⟩
    · refine Or.inr fun P ls X hl hX => ?_
      obtain ⟨e, he⟩ := arrays_or (fun w e => hσ ⟨w, e⟩) hl hX
      exact ⟨e, by simp only [list2arrayL, he, bind, Except.bind]⟩
  | list2padded =>
    by_cases hσ : ∃ w, σ = .seqs w
    · obtain ⟨w, rfl⟩ := hσ
      refine Or.inl ⟨.padded w, fun P ls hl X hX => ?_⟩
      obtain ⟨seqs, x, e1, hs⟩ := seqs_arrays hX
      obtain ⟨p, e2, hp⟩ := padded_of hl hX.1 hs
      exact ⟨_, _, by simp only [list2paddedL, e1, bind, Except.bind, e2, pure, Except.pure]; rfl, hp⟩
    · refine Or.inr fun P ls X hl hX => ?_
      obtain ⟨e, he⟩ := arrays_or (fun w e => hσ ⟨w, e⟩) hl hX
      exact ⟨e, by simp only [list2paddedL, he, bind, Except.bind]⟩
  | padded2list =>
    by_cases hσ : ∃ w, σ = .padded w
    · obtain ⟨w, rfl⟩ := hσ
      refine Or.inl ⟨.seqs w, fun P ls hl X hX => ?_⟩
      obtain ⟨p, seqs, x, e1, e2, hs⟩ := padded_as hX
      exact ⟨_, _, by simp only [padded2listL, e1, bind, Except.bind, e2, pure, Except.pure]; rfl, seqs_of hX.1 hs⟩
    · refine Or.inr fun P ls X hl hX => ?_
      obtain ⟨e, he⟩ := asPadded_or (fun w e => hσ ⟨w, e⟩) hX
      exact ⟨e, by simp only [padded2listL, he, bind, Except.bind]⟩
  | column column =>
    by_cases hσ : ∃ per w, σ = .ids per w
    · obtain ⟨per, w, rfl⟩ := hσ
      have hpos : ∀ ls, Nonvoid ls → 0 < per.count ls := by
        intro ls hl
        cases per with
        | row => exact hl.sum_pos
        | seq => exact hl.length_pos
      rcases or_error (npIndex w column) with ⟨col, ec⟩ | ⟨e, ee⟩
      · refine Or.inl ⟨.ints per, fun P ls hl X hX => ?_⟩
        obtain ⟨hw, A, rfl, h1, rfl⟩ := hX
        have := hpos ls hl
        have h0 : ¬ A.rows = 0 := by omega
        exact ⟨.ints (A.column col), _, by
          simp only [intsGetitemColumn, if_neg h0, ec, bind, Except.bind, pure, Except.pure]; rfl,
          _, rfl, by simp [Mat.column, h1]⟩
      · refine Or.inr fun P ls X hl hX => ?_
        obtain ⟨hw, A, rfl, h1, rfl⟩ := hX
        have := hpos ls hl
        have h0 : ¬ A.rows = 0 := by omega
        exact ⟨e, by simp only [intsGetitemColumn, if_neg h0, ee, bind, Except.bind]⟩
    · refine Or.inr fun P ls X hl hX => ?_
      cases σ with
      | ids per w => exact absurd ⟨per, w, rfl⟩ hσ
      | arr per w => obtain ⟨-, B, rfl, -⟩ := hX; exact ⟨_, rfl⟩
      | ints per => obtain ⟨B, rfl, -⟩ := hX; exact ⟨_, rfl⟩
      | ragged w => obtain ⟨-, B, rfl, -⟩ := hX; exact ⟨_, rfl⟩
      | seqs w => obtain ⟨-, B, rfl, -⟩ := hX; exact ⟨_, rfl⟩
      | idSeqs w => obtain ⟨-, B, rfl, -⟩ := hX; exact ⟨_, rfl⟩
      | padded w => obtain ⟨-, B, ix, -, rfl, -⟩ := hX; exact ⟨_, rfl⟩
  | window nW =>
    cases σ with
    | arr per w =>
      refine Or.inl ⟨.arr per ((2 * nW + 1) * w), fun P ls hl X hX => ?_⟩
      obtain ⟨hw, A, rfl, h1, rfl⟩ := hX
      obtain ⟨y, cb, e, z, B, rfl, r, c, -⟩ := exact_accepts P (C76_floats nW false _ _) ⟨A, rfl, isMat_self A⟩
      exact ⟨_, cb, e, Nat.mul_pos (by omega) hw, B, rfl, r.trans h1, c⟩
    | ragged w =>
      refine Or.inl ⟨.ragged ((2 * nW + 1) * w), fun P ls hl X hX => ?_⟩
      obtain ⟨hw, A, rfl, h1, rfl⟩ := hX
      obtain ⟨y, cb, e, z, B, rfl, r, c, -⟩ := exact_accepts P
        (C76_ragged ls nW false _ (fun (i : Fin ls.sum) (j : Fin A.cols) => A.at i j)) ⟨A, rfl, h1, rfl, fun _ _ => rfl⟩
      exact ⟨_, cb, e, Nat.mul_pos (by omega) hw, B, rfl, r, c⟩
    | ids per w => exact Or.inr fun P ls X hl hX => by obtain ⟨-, B, rfl, -⟩ := hX; exact ⟨_, rfl⟩
    | ints per => exact Or.inr fun P ls X hl hX => by obtain ⟨B, rfl, -⟩ := hX; exact ⟨_, rfl⟩
    | seqs w => exact Or.inr fun P ls X hl hX => by obtain ⟨-, B, rfl, -⟩ := hX; exact ⟨_, rfl⟩
    | idSeqs w => exact Or.inr fun P ls X hl hX => by obtain ⟨-, B, rfl, -⟩ := hX; exact ⟨_, rfl⟩
    | padded w => exact Or.inr fun P ls X hl hX => by obtain ⟨-, B, ix, -, rfl, -⟩ := hX; exact ⟨_, rfl⟩
  | reduceSum =>
    refine pool_decides (g := fun A lengths => reduceSumLayer false (fun _ => A) (.ragged A lengths)) (fun P X => ?_)
      (fun A ls hl hA => ?_) σ
    · cases X <;> rfl
    · obtain ⟨Y, e, r, c, -⟩ := C37_reduce_sum_partial A ls (by rw [hA]; exact hl.sum_pos) (by omega)
      unfold asInts at e
      exact ⟨Y, _, by simp only [reduceSumLayer, Val.lengths, Val.raggedData, e, bind, Except.bind, pure, Except.pure]; rfl, r, c⟩
  | reduceMean =>
    refine pool_decides (g := fun A lengths => reduceMeanLayer false (fun _ => A) (.ragged A lengths)) (fun P X => ?_)
      (fun A ls hl hA => ?_) σ
    · cases X <;> rfl
    · obtain ⟨Y, e, r, c, -⟩ := C37_reduce_mean_partial A ls (by rw [hA]; exact hl.sum_pos) (by omega)
      unfold asInts at e
      exact ⟨Y, _, by simp only [reduceMeanLayer, Val.lengths, Val.raggedData, e, bind, Except.bind, pure, Except.pure]; rfl, r, c⟩
  | reduceMax junk =>
    refine pool_decides (g := fun A lengths => reduceMaxLayer junk false (fun _ => A) (.ragged A lengths)) (fun P X => ?_)
      (fun A ls hl hA => ?_) σ
    · cases X <;> rfl
    · obtain ⟨Y, W, e, r, c, -⟩ := C38_reduce_max junk A ls hl.2 (by omega)
      unfold asInts at e
      exact ⟨Y, _, by simp only [reduceMaxLayer, Val.lengths, Val.raggedData, e, bind, Except.bind, pure, Except.pure]; rfl, r, c⟩
  | reduceFirst =>
    refine pool_decides (g := fun A lengths => reduceFirstLayer false (fun _ => A) (.ragged A lengths)) (fun P X => ?_)
      (fun A ls hl hA => ?_) σ
    · cases X <;> rfl
    · obtain ⟨y, cb, e, z, B, rfl, r, c, -⟩ := exact_accepts (fun _ => A)
        (C75_first hl.1 (noEmpty_of hl) false _ (fun (i : Fin ls.sum) (j : Fin A.cols) => A.at i j)) ⟨A, rfl, hA, rfl, fun _ _ => rfl⟩
      exact ⟨B, cb, e, r, c⟩
  | reduceLast =>
    refine pool_decides (g := fun A lengths => reduceLastLayer false (fun _ => A) (.ragged A lengths)) (fun P X => ?_)
      (fun A ls hl hA => ?_) σ
    · cases X <;> rfl
    · obtain ⟨y, cb, e, z, B, rfl, r, c, -⟩ := exact_accepts (fun _ => A)
        (C75_last hl.1 (noEmpty_of hl) false _ (fun (i : Fin ls.sum) (j : Fin A.cols) => A.at i j)) ⟨A, rfl, hA, rfl, fun _ _ => rfl⟩
      exact ⟨B, cb, e, r, c⟩
  | activation _ h h' =>
    by_cases hσ : ∃ per w, σ = .arr per w
    · obtain ⟨per, w, rfl⟩ := hσ
      refine Or.inl ⟨.arr per w, fun P ls hl X hX => ?_⟩
      obtain ⟨hw, A, rfl, h1, h2⟩ := hX
      obtain ⟨Y, cb, e, r, c⟩ := h false P A
      exact ⟨_, cb, e, hw, Y, rfl, r.trans h1, c.trans h2⟩
    · refine Or.inr fun P ls X hl hX => h' P X ?_
      rintro A rfl
      obtain ⟨per, w, e, -⟩ := asArr_shape hX rfl
      exact hσ ⟨per, w, e⟩

end Thinc
