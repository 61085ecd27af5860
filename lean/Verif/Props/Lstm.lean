import Verif.Lemmas.LstmLayer
/-!
# C82: the LSTM computes the textbook recurrence on every sequence
-/
namespace Thinc
open Spec

/-- **C82**: `NumpyOps.lstm_forward_training` on a packed batch.  For any depth, one or two directions, any parameters and initial
states, and any batch with at least one row in which the numbers of active sequences do not grow: no access is out of bounds, and the
row of sequence `b` at time `t` is what the textbook network computes at position `t` of sequence `b` alone. -/
theorem C82_lstm_forward (params cInit hInit : ℕ → ℝ) (size depth dirs nO nI : ℕ) (X : Mat ℝ) (sizes : List ℕ) (hI : 0 < nI) (hO : 0 < nO)
    (hd : 0 < dirs) (hX : X.cols = nI) (hpos : 0 < X.rows) (hsorted : sizes.Pairwise (· ≥ ·)) (hsum : sizes.sum = X.rows)
    (hsize : cellStart nI nO dirs depth 0 ≤ size) :
    ∃ Y state, lstmForward params cInit hInit size depth dirs nO X sizes = .ok (Y, state) ∧ Y.rows = X.rows ∧
      Y.cols = layerWidth nI nO dirs depth ∧
      ∀ b t, t < packedLength sizes b → ∀ k < layerWidth nI nO dirs depth, Y.at (packedRow sizes t b) k =
        (lstmStack (stackWeights params nI nO dirs) (initStates hInit cInit dirs nO) nI nO dirs (packedSeq sizes X.at b) depth).getD t 0 k := by
  obtain ⟨H, all, e, hr, ⟨hc, h⟩, _⟩ := lstmForward_ok params cInit hInit size depth dirs nO nI X sizes hI hO hd hX hpos hsorted hsum hsize
  refine ⟨H, all, e, hr, hc, fun b t ht k hk => ?_⟩
  have hl := (h b).1
  rw [(h b).2 t (by rw [hl]; exact ht) k hk, List.getD_eq_getElem?_getD, List.getElem?_eq_getElem (by simp only at hl; rw [hl]; exact ht)]
  rfl

/-- The outputs of the textbook network for a sequence are as many as the sequence has rows. -/
theorem C82_output_lengths (params hInit cInit : ℕ → ℝ) (nI nO dirs depth : ℕ) (xs : List (List ℝ)) :
    (lstmSeq params hInit cInit nI nO dirs depth xs).length = xs.length ∧
      ∀ y ∈ lstmSeq params hInit cInit nI nO dirs depth xs, y.length = dirs * nO := by
  refine ⟨by simp [lstmSeq, lstmStack_length], fun y hy => ?_⟩
  obtain ⟨f, _, rfl⟩ := List.mem_map.1 hy
  simp

/-- **C82**: initialization makes exactly as many parameters as the forward pass reads, and the assertion on their number holds. -/
theorem C82_parameter_count (nI nH dirs depth : ℕ) (hdep : 0 < depth) :
    lstmInitSize nI nH dirs depth = cellStart nI nH dirs depth 0 ∧ lstmExpectedSize nI nH dirs depth = cellStart nI nH dirs depth 0 := by
  obtain ⟨k, rfl⟩ : ∃ k, depth = k + 1 := ⟨depth - 1, by omega⟩
  constructor
  · unfold lstmInitSize
    induction k with
    | zero =>
      simp only [zero_add, List.range_one, List.map_cons, List.map_nil, List.sum_cons, List.sum_nil, if_true, cellStart]
      unfold lstmDirSize cellSize
      ring
    | succ k ih =>
      rw [List.range_succ, List.map_append, List.sum_append, ih (by omega)]
      simp only [List.map_cons, List.map_nil, List.sum_cons, List.sum_nil, cellStart, Nat.succ_ne_zero, if_false, Nat.add_one_ne_zero]
      unfold lstmDirSize cellSize
      ring
  · unfold lstmExpectedSize
    induction k with
    | zero =>
      simp only [cellStart, Nat.add_sub_cancel, zero_mul, zero_add]
      unfold cellSize
      ring
    | succ k ih =>
      have := ih (by omega)
      simp only [Nat.add_sub_cancel] at this ⊢
      have e2 : cellStart nI nH dirs (k + 1) dirs = cellStart nI nH dirs (k + 1) 0 + dirs * cellSize (dirs * nH) nH := by
        simp only [cellStart]
        ring
      rw [cellStart, e2, ← this]
      unfold cellSize
      ring

example : lstmInitSize 3 2 2 2 = 240 := by decide

/-- Two layers, two directions, two sequences of lengths 2 and 1. -/
example : ∃ Y state, lstmForward (fun j => j) (fun _ => 0) (fun _ => 0) 208 2 2 2 ⟨3, 1, fun k => k⟩ [2, 1] = .ok (Y, state) ∧
    Y.rows = 3 ∧ Y.cols = 4 := by
  obtain ⟨Y, state, e, hr, hc, _⟩ := C82_lstm_forward (fun j => j) (fun _ => 0) (fun _ => 0) 208 2 2 2 1 ⟨3, 1, fun k => k⟩ [2, 1]
    (by decide) (by decide) (by decide) rfl (by decide) (by decide) (by decide) (by decide)
  exact ⟨Y, state, e, hr, hc⟩

/-- **C82**: the layer on a padded batch.  When the batch holds the sequences `seqs`, the output holds, in the same layout, the
outputs of the textbook network for each sequence on its own: the other sequences of the batch, their lengths and the padding have no
influence.  The weights are those of the parameter "LSTM", times the dropout mask when training.  The first half of the parameter
"HC0", which the layer calls H0, is the initial *cell* state, and the second half, C0, the initial *hidden* state. -/
theorem C82_lstm_layer (m : LstmParams) (train : Bool) (drop : ℝ) (flips : ℕ → ℕ → ℝ) (nI : ℕ) (hI : 0 < nI) (hO : 0 < m.nO) (hd : 0 < m.dirs)
    (hdep : 0 < m.depth) (hsize : cellStart nI m.nO m.dirs m.depth 0 ≤ m.LSTM.size) (P : Padded ℝ) (seqs : List (List (List ℝ)))
    (hP : HoldsPadded nI P seqs) (hne : seqs.flatten ≠ []) :
    ∃ P' state, lstmPadded m train drop flips P = .ok (P', state) ∧ SameLayout P' P ∧
      HoldsPadded (m.dirs * m.nO) P' (seqs.map (lstmSeq (m.weights train drop flips).val (fun j => m.HC0 (m.depth * m.dirs * m.nO + j)) m.HC0 nI m.nO m.dirs m.depth)) :=
  lstmPadded_ok m train drop flips nI hI hO hd hdep hsize P seqs hP hne

/-- **C82**: the same for lists of sequences, converted by `list2padded` and `padded2list` as `with_padded` does. -/
theorem C82_lstm_lists (m : LstmParams) (train : Bool) (drop : ℝ) (flips : ℕ → ℕ → ℝ) (nI : ℕ) (hI : 0 < nI) (hO : 0 < m.nO) (hd : 0 < m.dirs)
    (hdep : 0 < m.depth) (hsize : cellStart nI m.nO m.dirs m.depth 0 ≤ m.LSTM.size) (seqs : List (List (List ℝ)))
    (hne : seqs.flatten ≠ []) :
    ∃ P P' state, list2padded (asList nI seqs) = .ok P ∧ lstmPadded m train drop flips P = .ok (P', state) ∧
      unpadList P' = .ok (asList (m.dirs * m.nO)
        (seqs.map (lstmSeq (m.weights train drop flips).val (fun j => m.HC0 (m.depth * m.dirs * m.nO + j)) m.HC0 nI m.nO m.dirs m.depth))) := by
  obtain ⟨P, e, hP⟩ := pad_holds nI seqs (rows_ne hne)
  obtain ⟨P', state, e', _, hP'⟩ := C82_lstm_layer m train drop flips nI hI hO hd hdep hsize P seqs hP hne
  exact ⟨P, P', state, e, e', unpad_holds hP'⟩

/-- **C82**: batching does not matter: a sequence gets the same output in every batch it occurs in. -/
theorem C82_batch_independent (m : LstmParams) (nI : ℕ) (hI : 0 < nI) (hO : 0 < m.nO) (hd : 0 < m.dirs)
    (hdep : 0 < m.depth) (hsize : cellStart nI m.nO m.dirs m.depth 0 ≤ m.LSTM.size) (seqs seqs' : List (List (List ℝ)))
    (hne : seqs.flatten ≠ []) (hne' : seqs'.flatten ≠ []) (drop drop' : ℝ) (flips flips' : ℕ → ℕ → ℝ) (i j : ℕ) (h : seqs[i]? = seqs'[j]?) :
    ∃ P Q st R S st' ys ys', list2padded (asList nI seqs) = .ok P ∧ lstmPadded m false drop flips P = .ok (Q, st) ∧
      unpadList Q = .ok ys ∧ list2padded (asList nI seqs') = .ok R ∧ lstmPadded m false drop' flips' R = .ok (S, st') ∧
      unpadList S = .ok ys' ∧ ys[i]? = ys'[j]? := by
  obtain ⟨P, Q, st, h1, h2, h3⟩ := C82_lstm_lists m false drop flips nI hI hO hd hdep hsize seqs hne
  obtain ⟨R, S, st', h4, h5, h6⟩ := C82_lstm_lists m false drop' flips' nI hI hO hd hdep hsize seqs' hne'
  refine ⟨P, Q, st, R, S, st', _, _, h1, h2, h3, h4, h5, h6, ?_⟩
  simp only [asList, List.getElem?_map, h]
  rfl

/-- The weights in use are the parameters themselves outside training and when the dropout rate is not positive. -/
theorem C82_weights (m : LstmParams) (train : Bool) (drop : ℝ) (flips : ℕ → ℕ → ℝ) (h : train = false ∨ drop ≤ 0) :
    m.weights train drop flips = ⟨m.LSTM.size, m.LSTM.val⟩ := by
  unfold LstmParams.weights
  rcases h with rfl | h
  · rfl
  · cases train
    · rfl
    · simp only [if_true, getDropoutMask, if_pos h]
      congr 1
      funext j
      exact mul_one _

/-- A bidirectional layer with an input of width 1 and two sequences, the first one shorter. -/
example : ∃ P P' state, list2padded (asList 1 [[[1]], [[2], [3]]]) = .ok P ∧
    lstmPadded ⟨1, 2, 1, ⟨32, fun _ => 1⟩, fun _ => 0⟩ true (1 / 2) (fun _ _ => 0) P = .ok (P', state) := by
  obtain ⟨P, P', st, h1, h2, _⟩ := C82_lstm_lists ⟨1, 2, 1, ⟨32, fun _ => 1⟩, fun _ => 0⟩ true (1 / 2) (fun _ _ => 0) 1 (by decide)
    (show 0 < 1 by decide) (show 0 < 2 by decide) (show 0 < 1 by decide) (show cellStart 1 1 2 1 0 ≤ 32 by decide) [[[1]], [[2], [3]]] (by decide)
  exact ⟨P, P', st, h1, h2⟩

end Thinc
