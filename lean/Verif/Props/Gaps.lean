import Verif.Model.Layer
import Verif.Model.Ragged
import Verif.Lemmas.Softmax
import Verif.Lemmas.Layer
/-!
# Cases that the theorems on residual connections (C54), concatenation (C53) and packing (C31) leave out
-/
namespace Thinc

/-- C54: a residual connection around a layer that turns a `Ragged` into a `Padded` of as many entries: the result is a `Ragged` with the
lengths of the input and the sums of the entries. -/
theorem C54_residual_mixed {L : Layer} {train : Bool} {P : ParamVals} {A B : Mat ℝ} {l s ls i : List ℕ} {n : ℕ} {cb : Callback}
    (h : L train P (.ragged A l) = .ok (.padded B n s ls i, cb)) (hr : B.rows = A.rows) (hc : B.cols = A.cols) :
    ∃ C cb', residual L train P (.ragged A l) = .ok (.ragged C l, cb') ∧ C.rows = A.rows ∧ C.cols = A.cols ∧
      ∀ r < A.rows, ∀ c < A.cols, C.at r c = A.at r c + B.at r c := by
  have hb (k : ℕ) : broadcastDim k k = .ok k := by simp [broadcastDim]
  obtain ⟨cb', e⟩ : ∃ cb', residual L train P (.ragged A l) = .ok (.ragged (Mat.ofFn A.rows A.cols fun i j =>
      A.at (if A.rows = 1 then 0 else i) (if A.cols = 1 then 0 else j) +
        B.at (if A.rows = 1 then 0 else i) (if A.cols = 1 then 0 else j)) l, cb') := by
    simp only [residual, h, addData, npBinary, hr, hc, hb, bind, Except.bind, pure, Except.pure]
    exact ⟨_, rfl⟩
  refine ⟨_, cb', e, rfl, rfl, fun r hr c hc => ?_⟩
  rw [ofFn_at _ _ _ _ _ hc]
  have e1 : (if A.rows = 1 then 0 else r) = r := by split <;> omega
  have e2 : (if A.cols = 1 then 0 else c) = c := by split <;> omega
  rw [e1, e2]

/-- C53: of the documents that are handed to concatenated layers only the numbers of rows matter for the way their outputs are split: ids in
two columns (or one) are like arrays of as many rows. -/
theorem C53_ids_like_arrays {Ms : List (Mat ℤ)} {As : List (Mat ℝ)} (h : Ms.map Mat.rows = As.map Mat.rows) (Ys : List Val)
    (callbacks : List Callback) : concatLists (.list (Ms.map .intMat)) Ys callbacks = concatLists (.list (As.map .arr)) Ys callbacks := by
  have h1 : (Ms.map Val.intMat).mapM Val.len = .ok (Ms.map Mat.rows) := by
    clear h
    induction Ms with
    | nil => rfl
    | cons M Ms ih => simp only [List.map_cons, List.mapM_cons, ih, Val.len, bind, Except.bind, pure, Except.pure]
  have h2 : (As.map Val.arr).mapM Val.len = .ok (As.map Mat.rows) := by
    clear h
    induction As with
    | nil => rfl
    | cons M Ms ih => simp only [List.map_cons, List.mapM_cons, ih, Val.len, bind, Except.bind, pure, Except.pure]
  have h3 : (Val.list (Ms.map .intMat)).items = .ok (Ms.map .intMat) := rfl
  have h4 : (Val.list (As.map .arr)).items = .ok (As.map .arr) := rfl
  simp only [concatLists, h1, h2, h3, h4, h, bind, Except.bind]

/-- C53: without documents there is nothing to concatenate, and ValueError is raised. -/
theorem C53_no_documents (X : Val) (hX : X.items = .ok []) (Ys : List Val) (callbacks : List Callback) :
    concatLists X (.list [] :: Ys) callbacks = .error .valueError := by
  have h : (Val.list []).stacked = .error .valueError := rfl
  simp only [concatLists, hX, List.mapM_nil, List.mapM_cons, h, bind, Except.bind, pure, Except.pure]

/-- C31: a `Padded` that says there are more sequences than it has rows is not refused if it has one row: the row is repeated. -/
theorem C31_one_row_repeated {α : Type} [Zero α] (tail : List ℕ) (r : List α) (k : ℕ) (hk : 0 < k) (lengths indices : List ℕ)
    (hl : lengths.sum = k) :
    paddedToPacked ⟨⟨1, 1, tail, [[r]]⟩, [k], lengths, indices⟩ = .ok (Ragged.make ⟨tail, List.replicate k r⟩ [k]) := by
  have hs : [k].sum = k := by simp
  have ha : assignRows (Arr.zeros k tail : Arr α).rows 0 k ([r].take k) = .ok (List.replicate k r) := by
    have hz : (Arr.zeros k tail : Arr α).rows.length = k := by simp [Arr.zeros]
    have ht : [r].take k = [r] := List.take_of_length_le hk
    unfold assignRows
    rw [ht, hz]
    by_cases h1 : k = 1
    · subst h1
      simp [List.drop_eq_nil_of_le (le_of_eq hz)]
    · have : ¬ ([r].length = min (0 + k) k - 0) := by simp; omega
      rw [if_neg this]
      simp [List.drop_eq_nil_of_le (le_of_eq hz)]
  simp only [paddedToPacked, hl, hs, ne_eq, not_true_eq_false, if_false, List.length_singleton, List.range_one, forM', packStep,
    List.getElem?_cons_zero, ha]

example (P : ParamVals) (A B : Mat ℝ) (hr : B.rows = A.rows) (hc : B.cols = A.cols) :
    ∃ C cb', residual (fun _ _ _ => .ok (.padded B 1 [1] [1] [0], fun d G => .ok (d, G))) true P (.ragged A [1]) =
      .ok (.ragged C [1], cb') ∧ C.rows = A.rows ∧ C.cols = A.cols ∧ ∀ r < A.rows, ∀ c < A.cols, C.at r c = A.at r c + B.at r c :=
  C54_residual_mixed rfl hr hc
example : paddedToPacked (⟨⟨1, 1, [2], [[[7, 8]]]⟩, [3], [3], [0]⟩ : Padded ℕ) = .ok (Ragged.make ⟨[2], [[7, 8], [7, 8], [7, 8]]⟩ [3]) :=
  C31_one_row_repeated [2] [7, 8] 3 (by decide) [3] [0] rfl

end Thinc
