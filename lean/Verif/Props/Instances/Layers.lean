import Verif.Props.Linear
import Verif.Props.Chain
import Verif.Props.AddLayer
import Verif.Props.Combinators
import Verif.Props.Concatenate
import Verif.Props.ConcatenateSeqs
import Verif.Props.Tuples
import Verif.Props.TextLayers
import Verif.Props.SeqLayers
import Verif.Props.Embed
import Verif.Props.Uniqued
import Verif.Props.Cauchy
import Verif.Props.PoolLayers
import Verif.Props.SeqLayersPadded
import Verif.Props.SoftmaxLayer
import Verif.Props.MaxoutLayer
import Mathlib.Tactic.FinCases
/-!
# Concrete cases that meet the hypotheses of the theorems about layers and combinators

Two linear layers with parameters of given values, applied to three rows of width 2, which may be a batch of two sequences of the lengths
1 and 2; and an embedding table.
-/
set_option linter.defProp false
namespace Thinc
open Spec

/-- A layer of width 2, a layer of width 3, and a table with 4 rows. -/
def insShapes : Fin 5 → ℕ × ℕ := ![(2, 2), (1, 2), (3, 2), (1, 3), (4, 2)]

/-- The parameters. -/
def insParams : Params insShapes := fun p i j => (p : ℝ) + 2 * (i : ℕ) - (j : ℕ)

/-- Three rows. -/
def insRows : Fin 3 → Fin 2 → ℝ := fun i j => (i : ℝ) - 3 * (j : ℕ)

/-- The parameters as arrays. -/
def insVals : ParamVals := fun p => if h : p < 5 then ⟨(insShapes ⟨p, h⟩).1, (insShapes ⟨p, h⟩).2,
    fun k => (p : ℝ) + 2 * ((k / (insShapes ⟨p, h⟩).2 : ℕ) : ℝ) - ((k % (insShapes ⟨p, h⟩).2 : ℕ) : ℝ)⟩ else Mat.zeros 0 0

theorem insVals_ok : IsParams insVals insParams := by
  intro p
  have hp : (p : ℕ) < 5 := p.2
  refine ⟨by simp [insVals], by simp [insVals], fun i j => ?_⟩
  have h2 : 0 < (insShapes p).2 := Nat.lt_of_le_of_lt (Nat.zero_le _) j.2
  simp only [insVals, Mat.at, hp, dif_pos, insParams]
  have e1 : ((i : ℕ) * (insShapes p).2 + j) / (insShapes p).2 = i := by
    rw [Nat.mul_comm, Nat.mul_add_div h2, Nat.div_eq_of_lt j.2, Nat.add_zero]
  have e2 : ((i : ℕ) * (insShapes p).2 + j) % (insShapes p).2 = j := by
    rw [Nat.mul_comm, Nat.mul_add_mod, Nat.mod_eq_of_lt j.2]
  rw [e1, e2]

/-- The layer of width 2 is exact. -/
theorem ins_linear (x : Fin 3 → Fin 2 → ℝ) : Exact (linear 0 1) true (Kind.arr 3 2) (Kind.arr 3 2)
    (fun p => affine p.2 (Params.get p.1 0 (n := 2) (m := 2) rfl) (Params.vec p.1 1 (m := 2) rfl)) insParams x :=
  C56_linear (sh := insShapes) (n := 3) (nO := 2) (nI := 2) 0 1 rfl rfl true insParams x

/-- The layer of width 3 is exact. -/
theorem ins_wide (x : Fin 3 → Fin 2 → ℝ) : Exact (linear 2 3) true (Kind.arr 3 2) (Kind.arr 3 3)
    (fun p => affine p.2 (Params.get p.1 2 (n := 3) (m := 2) rfl) (Params.vec p.1 3 (m := 3) rfl)) insParams x :=
  C56_linear (sh := insShapes) (n := 3) (nO := 3) (nI := 2) 2 3 rfl rfl true insParams x

example := C51_composes (linear 0 1) [linear 2 3] (by simp) true insVals
/-- `chain(Linear(2, 2), Linear(3, 2))` -/
example := C51_chain (.cons (ins_linear insRows) (.one (ins_wide _)))
/-- `add(Linear(2, 2), Linear(2, 2))`, the same layer twice -/
example := C52_add (Ls := [linear 0 1, linear 0 1]) (by simp) (.cons (ins_linear insRows) (.cons (ins_linear insRows) .nil))
/-- `concatenate(Linear(2, 2), Linear(3, 2))` -/
example := C53_arrays (.cons (ins_linear insRows) (.one (ins_wide insRows)))
/-- `residual(Linear(2, 2))` -/
example := C54_residual_arrays (ins_linear insRows)
/-- `tuplify(Linear(2, 2), Linear(3, 2))` -/
example := C54_tuplify (.cons (ins_linear insRows) (.one (ins_wide insRows)))
/-- `map_list(Linear(2, 2))` on two arrays -/
example := C54_map_list (k := 2) (x := ![insRows, insRows + 1]) (fun i => ins_linear (![insRows, insRows + 1] i))
/-- `siamese(Linear(2, 2), CauchySimilarity(2))` on two arrays -/
example := C54_siamese (ins_linear insRows) (ins_linear (insRows + 1))
  (C78_cauchy_similarity_nonneg (sh := insShapes) (n := 3) (m := 2) 1 rfl true insParams _ _
    (by intro j; fin_cases j <;> simp [insParams, Params.vec, Params.get]))

/-! ### Sequences -/

/-- The rows as a batch of two sequences. -/
def insSeqs : Fin ([1, 2] : List ℕ).sum → Fin 2 → ℝ := insRows

example := C80_list2ragged (sh := insShapes) (train := true) (θ := insParams) (ls := [1, 2]) (m := 2) (by simp) (by simp) insSeqs
example := C80_ragged2list (sh := insShapes) (train := true) (θ := insParams) (ls := [1, 2]) (m := 2) (by simp) (by simp) insSeqs
example := C80_list2array (sh := insShapes) (train := true) (θ := insParams) (ls := [1, 2]) (m := 2) (by simp) (by simp) insSeqs
/-- `with_array(Linear(2, 2))` on a Ragged. -/
theorem ins_with_array : Exact (withArray2dL (linear 0 1) 0) true (Kind.ragged [1, 2] 2) (Kind.ragged [1, 2] 2)
    (fun p => affine p.2 (Params.get p.1 0 (n := 2) (m := 2) rfl) (Params.vec p.1 1 (m := 2) rfl)) insParams insSeqs :=
  C80_with_array_ragged (ls := [1, 2]) (m := 2) (k := 2) (by simp) (by simp) (by simp) 0 (ins_linear insRows)
example := C80_with_ragged_list (ls := [1, 2]) (m := 2) (k := 2) (by simp) (by simp) (by simp) ins_with_array
theorem ins_with_array_list : Exact (withArray2dL (linear 0 1) 0) true (Kind.seqs [1, 2] 2) (Kind.seqs [1, 2] 2)
    (fun p => affine p.2 (Params.get p.1 0 (n := 2) (m := 2) rfl) (Params.vec p.1 1 (m := 2) rfl)) insParams insSeqs :=
  C80_with_array_list (ls := [1, 2]) (m := 2) (k := 2) (by simp) (by simp) (by simp) (ins_linear insRows)
example := C80_with_list_ragged (ls := [1, 2]) (m := 2) (k := 2) (by simp) (by simp) (by simp) ins_with_array_list
example := C54_residual_ragged ins_with_array
example := C54_residual_lists ins_with_array_list

/-- A concatenation of layers on Ragged batches. -/
example := C53_ragged_partial (.cons ins_with_array (.one ins_with_array)) insVals_ok
  (v := .ragged ⟨3, 2, fun k => ((k / 2 : ℕ) : ℝ) - 3 * ((k % 2 : ℕ) : ℝ)⟩ [1, 2]) ⟨_, rfl, rfl, rfl, by
    intro i j; fin_cases i <;> fin_cases j <;> simp [Mat.at, insSeqs, insRows]⟩
example := C54_tuplify_ragged_partial (.cons ins_with_array (.one ins_with_array)) insVals_ok
  (v := .ragged ⟨3, 2, fun k => ((k / 2 : ℕ) : ℝ) - 3 * ((k % 2 : ℕ) : ℝ)⟩ [1, 2]) ⟨_, rfl, rfl, rfl, by
    intro i j; fin_cases i <;> fin_cases j <;> simp [Mat.at, insSeqs, insRows]⟩
/-- Pooling. -/
def ins_sum := C75_sum_partial (sh := insShapes) (ls := [1, 2]) (m := 2) (by simp) true insParams insSeqs
def ins_first := C75_first (sh := insShapes) (ls := [1, 2]) (m := 2) (by simp) (by simp [NoEmpty]) true insParams insSeqs
def ins_last := C75_last (sh := insShapes) (ls := [1, 2]) (m := 2) (by simp) (by simp [NoEmpty]) true insParams insSeqs
/-- `concatenate(reduce_first(), reduce_last())` -/
example := C53_arrays_of_ragged (.cons ins_first (.one ins_last))
example := C75_shape_checked (ls := [1, 2]) (by simp) true insVals (Mat.zeros 3 2) rfl (Mat.zeros 2 5) (fun _ => none) (.inr (by simp [Mat.zeros]))

/-! ### Ids -/

/-- Three ids. -/
def insIds : Fin 3 → Fin 4 := ![3, 0, 3]

/-- The numbers of nothing. -/
def insNone : Fin 0 → ℝ := fun i => i.elim0

def ins_embed := C58_embed_partial (sh := insShapes) (V := 4) (O := 2) 4 rfl none (fun _ _ => 1) true true insIds insParams insNone
example := C52_add_ints (Ls := [_, _]) (by simp) (.cons ins_embed (.cons ins_embed .nil))
example := C53_arrays_of_ints (.cons ins_embed (.one ins_embed))
example := C54_tuplify_ints (.cons ins_embed (.one ins_embed))
example := C58_negative_id (sh := insShapes) (V := 4) (O := 2) (by norm_num) (by norm_num) 4 rfl (fun _ _ => 1) insParams insNone insVals insVals_ok

/-- Three rows of two features. -/
def insFeatures : Fin 3 → Fin 2 → ℤ := ![![3, 7], ![0, 8], ![3, 9]]

def ins_column := C89_embed_column (sh := insShapes) (train := true) (θ := insParams) (n := 3) (m := 2) (by norm_num) insFeatures
  (column := 0) (c := 0) ⟨by simp, .inl (by simp)⟩ (V := 4) (O := 2) 4 rfl none (fun _ _ => 1) true insIds
  (by intro i; fin_cases i <;> rfl) insNone
example := C89_column (sh := insShapes) (train := true) (θ := insParams) (n := 3) (m := 2) (by norm_num) insFeatures (column := -1) (c := 1)
  ⟨by simp, .inr (by simp)⟩ insNone
example := C89_add (Ls := [_, _]) (by simp) (.cons ins_column (.cons ins_column .nil))

/-- The features as an array. -/
def insMat : Mat ℤ := ⟨3, 2, fun k => [3, 7, 0, 8, 3, 9].getD k 0⟩

/-- The row of a feature. -/
def insRow : ℤ → Fin 4 := fun k => if k = 3 then 3 else 0

def ins_embed_column {A : Mat ℤ} (hA : 0 < A.rows) (hc : 0 < A.cols) (h : ∀ i < A.rows, A.at i 0 = 3 ∨ A.at i 0 = 0) :=
  C58_embed_column_partial (sh := insShapes) (θ := insParams) (V := 4) (O := 2) (c := 0) 4 rfl none (fun _ _ => 1) true true hA hc insRow
    (by intro i hi; rcases h i hi with e | e <;> rw [e] <;> rfl) insNone
theorem insMat_column : ∀ i < insMat.rows, insMat.at i 0 = 3 ∨ insMat.at i 0 = 0 := by decide
example := ins_embed_column (A := insMat) (by decide) (by decide) insMat_column
example := C60_uniqued (A := insMat) (by decide) (c := 0) (by decide) (sh := insShapes) (θ := insParams) (x := insNone) (w := 2)
  (φ := fun p k j => Params.get p 4 (n := 4) (m := 2) rfl (insRow k) j * embedFactor true none (fun _ _ => 1) j) true
  (fun B h1 h2 h3 => ins_embed_column h1 (by rw [h2]; decide) (fun i hi => by
    obtain ⟨i', hi', e⟩ := h3 i hi
    rw [e 0 (by decide)]
    exact insMat_column i' hi'))
example := C60_small (linear 0 1) 0 true true insVals ⟨1, 1, fun _ => 5⟩ (by decide)

/-! ### Padded batches -/

/-- The conversions between lists, Ragged and Padded, and `with_padded` and `with_ragged`, for the two sequences. -/
example : ∃ ix place, IsOrder [1, 2] ix ∧ IsBatchPlace [1, 2] ix place ∧
    Exact (withRaggedL (withArray2dL (linear 0 1) 0)) true (Kind.batch [1, 2] ix 2) (Kind.batch [1, 2] ix 2)
      (fun p => spread place (affine (collect place p.2) (Params.get p.1 0 (n := 2) (m := 2) rfl) (Params.vec p.1 1 (m := 2) rfl)))
      insParams (spread place insSeqs) ∧
    Exact (residual (withArray2dL (linear 0 1) 0)) true (Kind.batch [1, 2] ix 2) (Kind.batch [1, 2] ix 2)
      (fun p => p.2 + affine p.2 (Params.get p.1 0 (n := 2) (m := 2) rfl) (Params.vec p.1 1 (m := 2) rfl)) insParams (spread place insSeqs) ∧
    Exact (withPaddedL (withArray2dL (linear 0 1) 0)) true (Kind.ragged [1, 2] 2) (Kind.ragged [1, 2] 2)
      (fun p => collect place (affine (spread place p.2) (Params.get p.1 0 (n := 2) (m := 2) rfl) (Params.vec p.1 1 (m := 2) rfl)))
      insParams insSeqs ∧
    Exact list2paddedL true (Kind.seqs [1, 2] 2) (Kind.batch [1, 2] ix 2) (fun p => spread place p.2) insParams insSeqs ∧
    Exact padded2listL true (Kind.batch [1, 2] ix 2) (Kind.seqs [1, 2] 2) (fun p => collect place p.2) insParams (spread place insSeqs) := by
  obtain ⟨ix, ho, _, place, hp, _⟩ := C80_places [1, 2]
  have h := fun y => C80_with_array2d_padded (sh := insShapes) (train := true) (θ := insParams) 0 (n := maxLength [1, 2] * [1, 2].length) (steps := maxLength [1, 2]) (indices := ix) (lengths := ix.map fun i => [1, 2].getD i 0)
    (sizeAtT := (List.range (maxLength [1, 2])).map fun t => [1, 2].countP (t < ·))
    (C56_linear (sh := insShapes) (nO := 2) (nI := 2) 0 1 rfl rfl true insParams y)
  exact ⟨ix, place, ho, hp,
    C80_with_ragged_padded (by simp) (by simp) (by simp) ho place hp
      (C80_with_array_ragged (ls := [1, 2]) (m := 2) (k := 2) (by simp) (by simp) (by simp) 0
        (C56_linear (sh := insShapes) (nO := 2) (nI := 2) 0 1 rfl rfl true insParams _)),
    C54_residual_padded (h _), C80_with_padded_ragged (by simp) (by simp) (by simp) ho place hp (h _),
    C80_list2padded (by simp) ho place hp insSeqs, C80_padded2list (by simp) ho place hp _⟩
example := C80_no_rows_lose_width (train := true) insVals (Mat.zeros 0 5) rfl

/-! ### Softmax and Maxout -/

/-- The rows as an array. -/
def insX : Mat ℝ := ⟨3, 2, fun k => ((k / 2 : ℕ) : ℝ) - 3 * ((k % 2 : ℕ) : ℝ)⟩
theorem insX_is : IsMat insX insRows := ⟨rfl, rfl, by intro i j; fin_cases i <;> fin_cases j <;> simp [Mat.at, insX, insRows]⟩
example := C73_forward (sh := insShapes) (n := 3) (nO := 2) (nI := 2) 0 1 rfl rfl (by norm_num) (normalize := true) (train := false) (T := 1)
  (by norm_num) rfl insVals_ok insX_is
example := C73_unnormalized (sh := insShapes) (n := 3) (nO := 2) (nI := 2) 0 1 rfl rfl (T := 1) (by norm_num) insVals_ok insX_is
example := C73_temperature 0 1 true true (T := -1) (by norm_num) insVals insX
example := C73_shape_checked 0 1 1 insVals insX insX (Mat.zeros 3 5) (fun _ => none) (.inr (by simp [Mat.zeros, insX]))
example := C74_forward (sh := insShapes) (n := 3) (nO := 2) (nP := 2) (nI := 2) (fun _ => 7) (fun _ => 7) 4 0 rfl rfl (by norm_num) (by norm_num)
  true insParams insRows insVals insVals_ok insX insX_is
example := C74_no_rows (sh := insShapes) (nO := 2) (nP := 2) (nI := 2) (fun _ => 7) (fun _ => 7) 4 0 rfl rfl (by norm_num) (by norm_num)
  true insParams insVals insVals_ok (Mat.zeros 0 2) rfl rfl

end Thinc
