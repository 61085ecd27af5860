import Verif.Lemmas.LstmBase
import Verif.Lemmas.LstmBaseBack
import Verif.Props.LstmBack
import Verif.Props.Lstm
/-!
# C84: the LSTM of the base class of the backends

The full property: every backend gives every sequence of a batch the output of the textbook recurrence, and its gradients.  The
functions that the backends other than `NumpyOps` inherit do not: `Yt2` and `Ct2` start with one row, so only the first sequence of the
batch is read, and the gradients of the gates are never stored, so that all gradients are zero.
-/
namespace Thinc
open Spec

/-- The specification with the logistic function is that of C82. -/
theorem C84_same_network (w : ℕ → ℕ → CellWeights) (s : ℕ → ℕ → (ℕ → ℝ) × (ℕ → ℝ)) (nI nO dirs depth : ℕ) (xs : List (ℕ → ℝ)) :
    lstmStackWith logit w s nI nO dirs xs depth = lstmStack w s nI nO dirs xs depth ∧
      ∀ x, -20 ≤ x → x ≤ 20 → clippedLogit x = logit x := by
  refine ⟨?_, fun x h1 h2 => ?_⟩
  · induction depth with
    | zero => rfl
    | succ i ih =>
      rw [lstmStackWith, lstmStack, ih]
      rfl
  · unfold clippedLogit
    rw [max_eq_left h1, min_eq_left h2]

section
variable (params c h : ℕ → ℝ) (size depth dirs nO nI : ℕ) (X : Mat ℝ) (sizes : List ℕ) (hI : 0 < nI) (hO : 0 < nO) (hd : 0 < dirs)
  (hdep : 0 < depth) (hX : X.cols = nI) (hpos : 0 < X.rows) (hsizes : ∀ n ∈ sizes, 0 < n) (hsum : sizes.sum = X.rows)
  (hsize : cellStart nI nO dirs depth 0 ≤ size)
include hI hO hd hdep hX hpos hsizes hsum hsize

/-- **C84** (what holds): the forward pass of the base class succeeds on every packed batch, and the rows of the *first* sequence are the
outputs of the textbook network for that sequence, with the argument of the logistic function clipped to [-20, 20].  Missing: the same
for the other sequences, which is false (`C84_other_sequences_zero`), and the unclipped function. -/
theorem C84_first_sequence_partial : ∃ Y state, baseForward params c h size depth dirs nO X sizes = .ok (Y, state) ∧ Y.rows = X.rows ∧
    Y.cols = dirs * nO ∧ ∀ t < packedLength sizes 0, ∀ k < dirs * nO, Y.at (packedRow sizes t 0) k =
      (lstmStackWith clippedLogit (stackWeights params nI nO dirs) (initStates h c dirs nO) nI nO dirs (packedSeq sizes X.at 0) depth).getD t 0 k := by
  obtain ⟨Y, all, e, hr, _, hf, _⟩ := baseForward_ok params c h size depth dirs nO nI X sizes hI hO hd hdep hX hpos hsizes hsum hsize
  refine ⟨Y, all, e, hr, hf.1, fun t ht k hk => hf.2.2 t ?_ k hk⟩
  rwa [packedLength_zero sizes hsizes] at ht

/-- **C84** (violation): for all parameters, initial states, inputs, depths and directions, the output of every sequence but the first is
zero at every position. -/
theorem C84_other_sequences_zero : ∃ Y state, baseForward params c h size depth dirs nO X sizes = .ok (Y, state) ∧
    ∀ t b, 0 < b → b < sizes.getD t 0 → ∀ k < dirs * nO, Y.at (packedRow sizes t b) k = 0 := by
  obtain ⟨Y, all, e, _, hz, _⟩ := baseForward_ok params c h size depth dirs nO nI X sizes hI hO hd hdep hX hpos hsizes hsum hsize
  exact ⟨Y, all, e, hz⟩

/-- **C84** (violation): after any forward pass and for every gradient of the output, the gradients of the input and of all parameters are
zero. -/
theorem C84_gradients_zero (Y : Mat ℝ) (state : List (List LstmTrace)) (hfwd : baseForward params c h size depth dirs nO X sizes = .ok (Y, state))
    (dY : Mat ℝ) (hr : dY.rows = X.rows) (hc : dY.cols = dirs * nO) :
    ∃ dX dParams, baseBackward ⟨size, params⟩ depth dirs nO dY sizes X state = .ok (dX, dParams) ∧ dX.rows = X.rows ∧ dX.cols = X.cols ∧
      (∀ r, ∀ k < X.cols, dX.at r k = 0) ∧ dParams = List.replicate (cellStart nI nO dirs depth 0) 0 := by
  obtain ⟨Y', all, e, _, _, _, hl, hT⟩ := baseForward_ok params c h size depth dirs nO nI X sizes hI hO hd hdep hX hpos hsizes hsum hsize
  rw [hfwd] at e
  obtain ⟨rfl, rfl⟩ := Prod.mk.inj (Except.ok.inj e)
  have hne : sizes ≠ [] := by rintro rfl; simp at hsum; omega
  obtain ⟨dX, dP, e2, hz, hl2, hz2⟩ := baseBackward_ok ⟨size, params⟩ depth dirs nO nI dY sizes X state hI hO hd hdep hX hpos hne hsize hl hT hr hc
  exact ⟨dX, dP, e2, hz.1, by rw [hz.2.1, hX], fun r k hk => hz.2.2 r k (by rw [← hX]; exact hk), List.eq_replicate_iff.2 ⟨hl2, hz2⟩⟩

end

/-- **C84** (violation, concrete): two sequences of length 1 with the input 0 in a network with one unit and all parameters 1.  `NumpyOps`
gives a positive output for the second sequence, the base class gives 0. -/
theorem C84_backends_disagree : ∃ Y Y' state state',
    lstmForward (fun _ => 1) (fun _ => 0) (fun _ => 0) 16 1 1 1 (Mat.zeros 2 1) [2] = .ok (Y, state) ∧
    baseForward (fun _ => 1) (fun _ => 0) (fun _ => 0) 16 1 1 1 (Mat.zeros 2 1) [2] = .ok (Y', state') ∧
    0 < Y.at 1 0 ∧ Y'.at 1 0 = 0 := by
  obtain ⟨Y, s, e, _, _, h⟩ := C82_lstm_forward (fun _ => 1) (fun _ => 0) (fun _ => 0) 16 1 1 1 1 (Mat.zeros 2 1) [2] (by decide) (by decide)
    (by decide) rfl (by decide) (by simp) rfl (by decide)
  obtain ⟨Y', s', e', h'⟩ := C84_other_sequences_zero (fun _ => 1) (fun _ => 0) (fun _ => 0) 16 1 1 1 1 (Mat.zeros 2 1) [2] (by decide) (by decide)
    (by decide) (by decide) rfl (by decide) (by simp) rfl (by decide)
  refine ⟨Y, Y', s, s', e, e', ?_, h' 0 1 (by decide) (by decide) 0 (by decide)⟩
  have := h 1 0 (by decide) 0 (by decide)
  rw [show packedRow [2] 0 1 = 1 from rfl] at this
  rw [this]
  have hseq : packedSeq [2] (Mat.zeros (α := ℝ) 2 1).at 1 = [(Mat.zeros (α := ℝ) 2 1).at 1] := rfl
  rw [hseq]
  simp only [lstmStack, lstmLayer, List.length_singleton, List.range_one, List.map_cons, List.map_nil, List.getD_cons_zero, lstmOutput, lstmRead]
  simp only [Nat.zero_div, ne_eq, not_true_eq_false, decide_false, Bool.false_eq_true, if_false, List.take_succ_cons, List.take_nil, List.foldl_cons,
    List.foldl_nil, lstmCell, initStates, mul_zero, zero_add]
  have hl : ∀ x, 0 < logit x := fun x => by unfold logit; positivity
  have ht : ∀ x : ℝ, 0 < x → 0 < Real.tanh x := fun x hx => by
    rw [Real.tanh_eq_sinh_div_cosh]
    exact div_pos (Real.sinh_pos_iff.2 hx) (Real.cosh_pos x)
  refine mul_pos (hl _) (ht _ (mul_pos (hl _) (ht _ ?_)))
  simp only [gate, stackWeights, cellWeights, layerWidth, Finset.sum_range_one, if_true, zeros_at]
  norm_num

/-- **C84** (violation, concrete): the network of `C83_wrong_gradient`.  The derivative of the first output by the input is 1/4, the gradient
returned is 0. -/
theorem C84_wrong_gradient : ∃ Y state dX dParams,
    baseForward oneWeight (fun _ => 0) (fun _ => 0) 40 1 1 2 (Mat.zeros 1 1) [1] = .ok (Y, state) ∧
    baseBackward ⟨40, oneWeight⟩ 1 1 2 (firstOut 1) [1] (Mat.zeros 1 1) state = .ok (dX, dParams) ∧
    HasDerivAt (fun u => seqLoss oneWeight (fun _ => 0) (fun _ => 0) 1 2 1 1 (fun t => (firstOut 1).at (packedRow [1] t 0))
      (setInput (packedSeq [1] (Mat.zeros 1 1).at 0) 0 0 u)) (1 / 4) 0 ∧ dX.at 0 0 = 0 := by
  obtain ⟨Y, s, e, _⟩ := C84_first_sequence_partial oneWeight (fun _ => 0) (fun _ => 0) 40 1 1 2 1 (Mat.zeros 1 1) [1] (by decide) (by decide)
    (by decide) (by decide) rfl (by decide) (by simp) rfl (by decide)
  obtain ⟨dX, dP, e2, _, _, hz, _⟩ := C84_gradients_zero oneWeight (fun _ => 0) (fun _ => 0) 40 1 1 2 1 (Mat.zeros 1 1) [1] (by decide) (by decide)
    (by decide) (by decide) rfl (by decide) (by simp) rfl (by decide) Y s e (firstOut 1) rfl rfl
  obtain ⟨_, _, _, _, _, _, hder, _⟩ := C83_wrong_gradient
  exact ⟨Y, s, dX, dP, e, e2, hder, hz 0 0 (by decide)⟩

/-- The hypotheses are met: two layers, two directions, two sequences of lengths 2 and 1. -/
example : ∃ Y state, baseForward (fun j => j) (fun _ => 0) (fun _ => 0) 208 2 2 2 ⟨3, 1, fun k => k⟩ [2, 1] = .ok (Y, state) ∧ Y.cols = 4 := by
  obtain ⟨Y, state, e, _, hc, _⟩ := C84_first_sequence_partial (fun j => j) (fun _ => 0) (fun _ => 0) 208 2 2 2 1 ⟨3, 1, fun k => k⟩ [2, 1]
    (by decide) (by decide) (by decide) (by decide) rfl (by decide) (by decide) (by decide) (by decide)
  exact ⟨Y, state, e, hc⟩

end Thinc
