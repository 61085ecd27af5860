import Verif.Spec.TextShapes
import Verif.Props.SeqLayersPadded
import Verif.Props.TextLayers
import Verif.Lemmas.NetWidth
/-! # Shapes of batches of sequences: conversions -/
namespace Thinc
open Spec

/-! ### Lengths -/

theorem Spec.Nonvoid.sum_pos {ls : List ℕ} (h : Nonvoid ls) : 0 < ls.sum := by
  obtain ⟨h1, h2⟩ := h
  cases ls with
  | nil => exact absurd rfl h1
  | cons l ls =>
    have := h2 l (by simp)
    rw [List.sum_cons]
    omega

theorem Spec.Nonvoid.length_pos {ls : List ℕ} (h : Nonvoid ls) : 0 < ls.length := List.length_pos_of_ne_nil h.1

theorem Spec.Nonvoid.length_le {ls : List ℕ} (h : ∀ l ∈ ls, 0 < l) : ls.length ≤ ls.sum := by
  induction ls with
  | nil => simp
  | cons l ls ih =>
    have := ih fun k hk => h k (by simp [hk])
    have := h l (by simp)
    simp only [List.length_cons, List.sum_cons]
    omega

theorem Spec.Varied.batch {ls : List ℕ} (h : Varied ls) : Nonvoid ls := h.1

theorem length_lt_sum {ls : List ℕ} (h : ∀ l ∈ ls, 0 < l) {b : ℕ} (hb : b ∈ ls) (h1 : 1 < b) : ls.length < ls.sum := by
  induction ls with
  | nil => simp at hb
  | cons l ls ih =>
    have k : ls.length ≤ ls.sum := Nonvoid.length_le fun k hk => h k (by simp [hk])
    have hl := h l (by simp)
    simp only [List.length_cons, List.sum_cons]
    rcases List.mem_cons.1 hb with rfl | hb
    · omega
    · have := ih (fun k hk => h k (by simp [hk])) hb
      omega

theorem Spec.Varied.length {ls : List ℕ} (h : Varied ls) : 2 ≤ ls.length := by
  obtain ⟨hb, a, ha, b, hb', hab⟩ := h
  match ls, ha, hb' with
  | [l], ha, hb' =>
    simp only [List.mem_singleton] at ha hb'
    omega
  | _ :: _ :: _, _, _ => simp

theorem Spec.Varied.lt {ls : List ℕ} (h : Varied ls) : ls.length < ls.sum := by
  obtain ⟨hb, a, ha, b, hb', hab⟩ := h
  have := hb.2 a ha
  exact length_lt_sum hb.2 hb' (by omega)

theorem sum_le_mul {ls : List ℕ} {M : ℕ} (h : ∀ l ∈ ls, l ≤ M) : ls.sum ≤ M * ls.length := by
  induction ls with
  | nil => simp
  | cons l ls ih =>
    have := ih fun k hk => h k (by simp [hk])
    have := h l (by simp)
    simp only [List.length_cons, List.sum_cons, Nat.mul_succ]
    omega

theorem sum_lt_mul {ls : List ℕ} {M : ℕ} (h : ∀ l ∈ ls, l ≤ M) {a : ℕ} (ha : a ∈ ls) (h1 : a < M) : ls.sum < M * ls.length := by
  induction ls with
  | nil => simp at ha
  | cons l ls ih =>
    have k : ls.sum ≤ M * ls.length := sum_le_mul fun k hk => h k (by simp [hk])
    have hl := h l (by simp)
    simp only [List.length_cons, List.sum_cons, Nat.mul_succ]
    rcases List.mem_cons.1 ha with rfl | ha
    · omega
    · have := ih (fun k hk => h k (by simp [hk])) ha
      omega

theorem Spec.Varied.cells {ls : List ℕ} (h : Varied ls) : ls.sum < maxLength ls * ls.length := by
  obtain ⟨hb, a, ha, b, hb', hab⟩ := h
  exact sum_lt_mul (fun l hl => le_maxLength hl) ha (lt_of_lt_of_le hab (le_maxLength hb'))

theorem Spec.Nonvoid.cells {ls : List ℕ} (h : Nonvoid ls) : 0 < maxLength ls * ls.length :=
  lt_of_lt_of_le h.sum_pos (sum_le_mul fun _ hl => le_maxLength hl)

theorem batch_one {n : ℕ} (h : 0 < n) : Nonvoid [n] := ⟨by simp, by simpa using h⟩

theorem varied_two {n : ℕ} (h : 3 ≤ n) : Varied [1, n - 1] :=
  ⟨⟨by simp, by simp; omega⟩, 1, by simp, n - 1, by simp, by omega⟩

theorem sum_two {n : ℕ} (h : 3 ≤ n) : [1, n - 1].sum = n := by simp; omega

theorem Spec.Nonvoid.blanked {ls : List ℕ} (h : Nonvoid ls) (pad : ℕ) : ls.sum ≤ blankedRows pad ls := by
  unfold blankedRows
  rw [if_neg (by have := h.sum_pos; omega)]
  omega

/-! ### Lists -/

theorem exists_rows {α : Type} {m n : ℕ} (rows : List (List α)) (hn : rows.length = n) (h : ∀ r ∈ rows, r.length = m) :
    ∃ x : Fin n → Fin m → α, rows = rowsOf x := by
  subst hn
  have hi : ∀ i : Fin rows.length, (rows[(i : ℕ)]).length = m := fun i => h _ (List.getElem_mem i.2)
  refine ⟨fun i j => (rows[(i : ℕ)])[(j : ℕ)]'(by rw [hi]; exact j.2), rowsOf_eq rfl fun i => ?_⟩
  rw [List.getElem?_eq_getElem i.2]
  congr 1
  refine List.ext_getElem (by rw [List.length_ofFn]; exact hi i) fun j h1 h2 => ?_
  rw [List.getElem_ofFn]

theorem exists_seqs {α : Type} [Zero α] {As : List (Mat α)} {ls : List ℕ} {w : ℕ} (h1 : As.map Mat.rows = ls)
    (h2 : ∀ A ∈ As, A.cols = w) :
    ∃ (seqs : List (List (List α))) (x : Fin ls.sum → Fin w → α), As.map Mat.toArr = asList w seqs ∧ SeqRows seqs ls x := by
  have hl : lens (As.map fun A => A.toArr.rows) = ls := by
    rw [← h1]
    simp [lens, Mat.toArr, Function.comp_def]
  have hr : ∀ r ∈ (As.map fun A => A.toArr.rows).flatten, r.length = w := by
    intro r hr
    obtain ⟨s, hs, hr⟩ := List.mem_flatten.1 hr
    obtain ⟨A, hA, rfl⟩ := List.mem_map.1 hs
    obtain ⟨i, -, rfl⟩ := List.mem_map.1 hr
    simp [h2 A hA]
  have hs : (As.map fun A => A.toArr.rows).flatten.length = ls.sum := by
    rw [List.length_flatten, ← hl]; rfl
  obtain ⟨x, hx⟩ := exists_rows _ hs hr
  refine ⟨As.map fun A => A.toArr.rows, x, ?_, hl, hx⟩
  simp only [asList, List.map_map]
  refine List.map_congr_left fun A hA => ?_
  simp [Mat.toArr, h2 A hA]

theorem seqs_arrays {ls : List ℕ} {w : ℕ} {v : Val} (h : (Shape.seqs w).Holds ls v) :
    ∃ (seqs : List (List (List ℝ))) (x : Fin ls.sum → Fin w → ℝ), v.arrays = .ok (asList w seqs) ∧ SeqRows seqs ls x := by
  obtain ⟨-, As, rfl, h1, h2⟩ := h
  obtain ⟨seqs, x, e, hs⟩ := exists_seqs h1 h2
  exact ⟨seqs, x, by simp only [Val.arrays, Val.items, bind, Except.bind, mapM_asArr, pure, Except.pure, e], hs⟩

theorem idSeqs_arrays {ls : List ℕ} {w : ℕ} {v : Val} (h : (Shape.idSeqs w).Holds ls v) :
    ∃ (seqs : List (List (List ℤ))) (x : Fin ls.sum → Fin w → ℤ), v.intArrays = .ok (asList w seqs) ∧ SeqRows seqs ls x := by
  obtain ⟨-, As, rfl, h1, h2⟩ := h
  obtain ⟨seqs, x, e, hs⟩ := exists_seqs h1 h2
  exact ⟨seqs, x, by simp only [Val.intArrays, Val.items, bind, Except.bind, mapM_asIntMat, pure, Except.pure, e], hs⟩

theorem seqs_of {ls : List ℕ} {m : ℕ} (hm : 0 < m) {seqs : List (List (List ℝ))} {x : Fin ls.sum → Fin m → ℝ} (h : SeqRows seqs ls x) :
    (Shape.seqs m).Holds ls (Val.ofArrays (asList m seqs)) := by
  obtain ⟨As, e, h1, h2, -⟩ := ofArrays_of h
  exact ⟨hm, As, e, h1, h2⟩

/-! ### Ragged -/

theorem ragged_as {ls : List ℕ} {w : ℕ} {v : Val} (h : (Shape.ragged w).Holds ls v) :
    ∃ x : Fin ls.sum → Fin w → ℝ, v.asRagged = .ok ⟨⟨[w], rowsOf x⟩, ls, [w]⟩ := by
  obtain ⟨-, A, rfl, h1, rfl⟩ := h
  exact ⟨_, asRagged_of ⟨A, rfl, h1, rfl, fun i j => rfl⟩⟩

theorem ragged_of {ls : List ℕ} (hl : Nonvoid ls) {m : ℕ} (hm : 0 < m) (x : Fin ls.sum → Fin m → ℝ) :
    (Shape.ragged m).Holds ls (Val.ofRagged (Ragged.make ⟨[m], rowsOf x⟩ ls)) := by
  obtain ⟨A, e, h1, h2, -⟩ := ofRagged_of hm hl.sum_pos x
  exact ⟨hm, A, e, h1, h2⟩

theorem arr_of {n m : ℕ} (x : Fin n → Fin m → ℝ) : (Arr.toMat ⟨[m], rowsOf x⟩ : Mat ℝ).rows = n ∧ (Arr.toMat ⟨[m], rowsOf x⟩ : Mat ℝ).cols = m :=
  ⟨(toMat_of x).1, (toMat_of x).2.1⟩

/-- The rows of an array. -/
theorem toArr_rows (A : Mat ℝ) {n m : ℕ} (h1 : A.rows = n) (h2 : A.cols = m) :
    ∃ x : Fin n → Fin m → ℝ, A.toArr = ⟨[m], rowsOf x⟩ := by
  subst h1 h2
  exact ⟨_, toArr_of (isMat_self A)⟩

/-! ### Padded -/

theorem padded_as {ls : List ℕ} {w : ℕ} {v : Val} (h : (Shape.padded w).Holds ls v) :
    ∃ (p : Padded ℝ) (seqs : List (List (List ℝ))) (x : Fin ls.sum → Fin w → ℝ), v.asPadded = .ok p ∧ unpadList p = .ok (asList w seqs) ∧
      SeqRows seqs ls x := by
  obtain ⟨-, A, ix, ho, rfl, h1, rfl⟩ := h
  obtain ⟨place, hp⟩ := place_exists ho
  obtain ⟨p, seqs, e1, e2, hs⟩ := unpad_of (m := A.cols) ho hp (y := fun i j => A.at i j) ⟨A, rfl, h1, rfl, fun i j => rfl⟩
  exact ⟨p, seqs, _, e1, e2, hs⟩

theorem padded_of {ls : List ℕ} (hl : Nonvoid ls) {m : ℕ} (hm : 0 < m) {seqs : List (List (List ℝ))} {x : Fin ls.sum → Fin m → ℝ}
    (h : SeqRows seqs ls x) : ∃ p, list2padded (asList m seqs) = .ok p ∧ (Shape.padded m).Holds ls (Val.ofPadded p) := by
  have ho := isOrder_sort ls
  obtain ⟨place, hp⟩ := place_exists ho
  obtain ⟨p, e, A, eA, h1, h2, -⟩ := pad_of ho hp hl.1 h
  exact ⟨p, e, hm, A, _, ho, eA, h1, h2⟩

/-! ### What a value is -/

theorem asArr_shape {τ : Shape} {ls : List ℕ} {v : Val} {A : Mat ℝ} (h : τ.Holds ls v) (e : v.asArr = .ok A) :
    ∃ per w, τ = .arr per w ∧ 0 < w ∧ v = .arr A ∧ A.rows = per.count ls ∧ A.cols = w := by
  cases τ with
  | arr per w => obtain ⟨h0, B, rfl, h1, h2⟩ := h; cases e; exact ⟨per, w, rfl, h0, rfl, h1, h2⟩
  | ids per w => obtain ⟨-, B, rfl, -⟩ := h; cases e
  | ints per => obtain ⟨B, rfl, -⟩ := h; cases e
  | ragged w => obtain ⟨-, B, rfl, -⟩ := h; cases e
  | seqs w => obtain ⟨-, B, rfl, -⟩ := h; cases e
  | idSeqs w => obtain ⟨-, B, rfl, -⟩ := h; cases e
  | padded w => obtain ⟨-, B, ix, -, rfl, -⟩ := h; cases e

theorem ids_not_arrays {As : List (Mat ℤ)} (h : As ≠ []) : ∃ e, (Val.list (As.map .intMat)).arrays = .error e := by
  cases As with
  | nil => exact absurd rfl h
  | cons A As => exact ⟨.attributeError, rfl⟩

theorem arrays_shape {τ : Shape} {ls : List ℕ} {v : Val} {As : List (Arr ℝ)} (hl : ls ≠ []) (h : τ.Holds ls v) (e : v.arrays = .ok As) :
    ∃ w, τ = .seqs w := by
  cases τ with
  | arr per w => obtain ⟨-, B, rfl, -⟩ := h; cases e
  | ids per w => obtain ⟨-, B, rfl, -⟩ := h; cases e
  | ints per => obtain ⟨B, rfl, -⟩ := h; cases e
  | ragged w => obtain ⟨-, B, rfl, -⟩ := h; cases e
  | seqs w => exact ⟨w, rfl⟩
  | idSeqs w =>
    obtain ⟨-, B, rfl, h1, -⟩ := h
    obtain ⟨e', he⟩ := ids_not_arrays (As := B) (by rintro rfl; exact hl h1.symm)
    rw [he] at e
    cases e
  | padded w => obtain ⟨-, B, ix, -, rfl, -⟩ := h; cases e

theorem asRagged_shape {τ : Shape} {ls : List ℕ} {v : Val} {r : Ragged ℝ} (h : τ.Holds ls v) (e : v.asRagged = .ok r) :
    ∃ w, τ = .ragged w := by
  cases τ with
  | arr per w => obtain ⟨-, B, rfl, -⟩ := h; cases e
  | ids per w => obtain ⟨-, B, rfl, -⟩ := h; cases e
  | ints per => obtain ⟨B, rfl, -⟩ := h; cases e
  | ragged w => exact ⟨w, rfl⟩
  | seqs w => obtain ⟨-, B, rfl, -⟩ := h; cases e
  | idSeqs w => obtain ⟨-, B, rfl, -⟩ := h; cases e
  | padded w => obtain ⟨-, B, ix, -, rfl, -⟩ := h; cases e

theorem asPadded_shape {τ : Shape} {ls : List ℕ} {v : Val} {p : Padded ℝ} (h : τ.Holds ls v) (e : v.asPadded = .ok p) :
    ∃ w, τ = .padded w := by
  cases τ with
  | arr per w => obtain ⟨-, B, rfl, -⟩ := h; cases e
  | ids per w => obtain ⟨-, B, rfl, -⟩ := h; cases e
  | ints per => obtain ⟨B, rfl, -⟩ := h; cases e
  | ragged w => obtain ⟨-, B, rfl, -⟩ := h; cases e
  | seqs w => obtain ⟨-, B, rfl, -⟩ := h; cases e
  | idSeqs w => obtain ⟨-, B, rfl, -⟩ := h; cases e
  | padded w => exact ⟨w, rfl⟩

/-! ### Layers that accept a shape -/

/-- The layer maps values of shape `σ` to values of shape `τ`. -/
def LFits (L : Layer) (P : ParamVals) (σ τ : Shape) : Prop :=
  ∀ ls, Nonvoid ls → ∀ X, σ.Holds ls X → ∃ Y cb, L false P X = .ok (Y, cb) ∧ τ.Holds ls Y

theorem rows_of_fits {L : Layer} {P : ParamVals} {w v : ℕ} {per : Per} (hw : 0 < w) (h : LFits L P (.arr .row w) (.arr per v)) :
    per = .row := by
  cases per with
  | row => rfl
  | seq =>
    have hX : ∀ ls : List ℕ, ls.sum = 2 → (Shape.arr .row w).Holds ls (.arr (Mat.ofFn 2 w fun _ _ => 0)) := fun ls h =>
      ⟨hw, _, rfl, h.symm, rfl⟩
    obtain ⟨Y, cb, e1, -, A, rfl, h1, -⟩ := h [1, 1] ⟨by simp, by simp⟩ _ (hX [1, 1] rfl)
    obtain ⟨Y, cb', e2, -, B, rfl, h2, -⟩ := h [2] ⟨by simp, by simp⟩ _ (hX [2] rfl)
    rw [e1] at e2
    cases e2
    simp only [Per.count, List.length_cons, List.length_nil] at h1 h2
    omega

theorem rows_of_fits_ids {L : Layer} {P : ParamVals} {w v : ℕ} {per : Per} (hw : 0 < w) (h : LFits L P (.ids .row w) (.arr per v)) :
    per = .row := by
  cases per with
  | row => rfl
  | seq =>
    have hX : ∀ ls : List ℕ, ls.sum = 2 → (Shape.ids .row w).Holds ls (.intMat (Mat.ofFn 2 w fun _ _ => 0)) := fun ls h =>
      ⟨hw, _, rfl, h.symm, rfl⟩
    obtain ⟨Y, cb, e1, -, A, rfl, h1, -⟩ := h [1, 1] ⟨by simp, by simp⟩ _ (hX [1, 1] rfl)
    obtain ⟨Y, cb', e2, -, B, rfl, h2, -⟩ := h [2] ⟨by simp, by simp⟩ _ (hX [2] rfl)
    rw [e1] at e2
    cases e2
    simp only [Per.count, List.length_cons, List.length_nil] at h1 h2
    omega

/-- Any number of rows. -/
theorem fits_rows {L : Layer} {P : ParamVals} {w v : ℕ} (h : LFits L P (.arr .row w) (.arr .row v)) {A : Mat ℝ} (hr : 0 < A.rows)
    (hw : 0 < w) (hc : A.cols = w) :
    0 < v ∧ ∃ Y cb, L false P (.arr A) = .ok (.arr Y, cb) ∧ Y.rows = A.rows ∧ Y.cols = v := by
  obtain ⟨Y, cb, e, hv, B, rfl, h1, h2⟩ := h [A.rows] (batch_one hr) (.arr A) ⟨hw, A, rfl, by simp [Per.count], hc⟩
  exact ⟨hv, B, cb, e, by simpa [Per.count] using h1, h2⟩

theorem fits_rows_ids {L : Layer} {P : ParamVals} {w v : ℕ} (h : LFits L P (.ids .row w) (.arr .row v)) {A : Mat ℤ} (hr : 0 < A.rows)
    (hw : 0 < w) (hc : A.cols = w) :
    0 < v ∧ ∃ Y cb, L false P (.intMat A) = .ok (.arr Y, cb) ∧ Y.rows = A.rows ∧ Y.cols = v := by
  obtain ⟨Y, cb, e, hv, B, rfl, h1, h2⟩ := h [A.rows] (batch_one hr) (.intMat A) ⟨hw, A, rfl, by simp [Per.count], hc⟩
  exact ⟨hv, B, cb, e, by simpa [Per.count] using h1, h2⟩

end Thinc
