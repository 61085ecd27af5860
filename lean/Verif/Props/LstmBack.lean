import Verif.Lemmas.LstmBackProps
/-!
# C83: the backward pass of the LSTM (NumpyOps)

The full property: after a forward pass the backward pass returns the gradients of the input and of the parameters.  The code does not:
its loop over pairs of time steps never reaches the gates of the step that was read first, the gradients of the weights start from the
weights instead of zeros, and with one unit they share memory with the weights.  What holds is proved in `C83_input_gradient_partial`.
-/
namespace Thinc
open Spec

section
variable (params c h : ℕ → ℝ) (size depth dirs nO nI : ℕ) (X : Mat ℝ) (sizes : List ℕ) (hI : 0 < nI) (hO : 0 < nO) (hd : 0 < dirs)
  (hX : X.cols = nI) (hpos : 0 < X.rows) (hsorted : sizes.Pairwise (· ≥ ·)) (hsum : sizes.sum = X.rows) (hdep : 0 < depth)
  (hsize : cellStart nI nO dirs depth 0 ≤ size) (Y : Mat ℝ) (state : List (List LstmTrace))
  (hfwd : lstmForward params c h size depth dirs nO X sizes = .ok (Y, state)) (dY : Mat ℝ) (hYr : dY.rows = X.rows) (hYc : dY.cols = dirs * nO)
include hI hO hd hX hpos hsorted hsum hdep hsize hfwd hYr hYc

theorem lstm_state : StackDone params h c nI nO dirs X sizes depth state := by
  obtain ⟨H, all, e, _, _, hs⟩ := lstmForward_ok params c h size depth dirs nO nI X sizes hI hO hd hX hpos hsorted hsum hsize
  rw [hfwd] at e
  obtain ⟨rfl, rfl⟩ := Prod.mk.inj (Except.ok.inj e)
  exact hs

theorem backward_layers : ∃ (Z D : ℕ → Mat ℝ) (G : ℕ → ℕ → GateWeights), lstmBackward ⟨size, params⟩ depth dirs nO dY sizes X state =
        .ok (D 0, ((List.range depth).map fun i => (List.range dirs).map (G i)).flatten.flatMap untranspose) ∧
      D depth = dY ∧ Z 0 = X ∧
      ∀ i < depth, (Z i).rows = X.rows ∧ (D i).rows = X.rows ∧ (D i).cols = layerWidth nI nO dirs i ∧ (D (i + 1)).cols = dirs * nO ∧
        ∃ Ts, BackRel params h c nI nO dirs sizes i (Z i) Ts (D (i + 1)) (D i) (G i) := by
  have hs := lstm_state params c h size depth dirs nO nI X sizes hI hO hd hX hpos hsorted hsum hdep hsize Y state hfwd dY hYr hYc
  obtain ⟨Z, D, G, e, h1, h2, h3⟩ := lstmBackward_ok params c h size depth dirs nO nI X sizes hI hO hd hX hpos hsorted hsum hdep hsize state hs dY hYr hYc
  have hl : state.length = depth := hs.1
  have hcols : ∀ i < depth, (D i).rows = X.rows ∧ (D i).cols = layerWidth nI nO dirs i := by
    intro i hi
    obtain ⟨hz, _, hB⟩ := h3 i (by omega)
    obtain ⟨_, _, _, hr, hc, _⟩ := hB
    exact ⟨hr.trans hz, hc⟩
  refine ⟨Z, D, G, e, h1, h2, fun i hi => ⟨(h3 i (by omega)).1, (hcols i hi).1, (hcols i hi).2, ?_, _, (h3 i (by omega)).2.2⟩⟩
  rcases Nat.lt_or_ge (i + 1) depth with hlt | hge
  · rw [(hcols (i + 1) hlt).2, layerWidth_succ]
  · have : i + 1 = depth := by omega
    rw [this, h1, hYc]

/-- **C83**: after any forward pass, and for any gradient of the output of the right shape, the backward pass succeeds without an access
out of bounds.  The gradient of the input has the shape of the input, and there are as many gradients of parameters as the network
has parameters. -/
theorem C83_backward_runs : ∃ dX dParams, lstmBackward ⟨size, params⟩ depth dirs nO dY sizes X state = .ok (dX, dParams) ∧
    dX.rows = X.rows ∧ dX.cols = X.cols ∧ dParams.length = cellStart nI nO dirs depth 0 := by
  obtain ⟨Z, D, G, e, h1, h2, h3⟩ := backward_layers params c h size depth dirs nO nI X sizes hI hO hd hX hpos hsorted hsum hdep hsize Y state hfwd dY hYr hYc
  obtain ⟨z, r, cc, _⟩ := h3 0 hdep
  refine ⟨_, _, e, r, by rw [cc, hX]; rfl, ?_⟩
  rw [List.length_flatMap]
  have hshape : ∀ i < depth, ∀ d < dirs, (untranspose (G i d)).length = cellSize (layerWidth nI nO dirs i) nO := by
    intro i hi d hd'
    obtain ⟨_, _, _, _, Ts, Y', W, dG, _, _, _, _, hL, _⟩ := h3 i hi
    exact untranspose_length _ _ _ (hL.shape d hd')
  have hdirs : ∀ i < depth, ((((List.range dirs).map (G i)).map fun w => (untranspose w).length)).sum = dirs * cellSize (layerWidth nI nO dirs i) nO := by
    intro i hi
    rw [List.map_map, List.map_congr_left (f := (fun w => (untranspose w).length) ∘ G i) (g := fun _ => cellSize (layerWidth nI nO dirs i) nO) (fun d hd' => hshape i hi d (List.mem_range.1 hd'))]
    simp
  have : ∀ n ≤ depth, ((((List.range n).map fun i => (List.range dirs).map (G i)).flatten.map fun w => (untranspose w).length)).sum = cellStart nI nO dirs n 0 := by
    intro n hn
    induction n with
    | zero => simp [cellStart]
    | succ n ih =>
      rw [List.range_succ, List.map_append, List.flatten_append, List.map_append, List.sum_append, ih (by omega)]
      simp only [List.map_cons, List.map_nil, List.flatten_cons, List.flatten_nil, List.append_nil]
      rw [hdirs n (by omega), cellStart_next]
      have : ∀ d, cellStart nI nO dirs n d = cellStart nI nO dirs n 0 + d * cellSize (layerWidth nI nO dirs n) nO := by
        intro d
        induction d with
        | zero => simp
        | succ d ih => rw [cellStart_succ, ih]; ring
      rw [this dirs]
  exact this depth le_rfl

/-- **C83** (partial): with a single layer of at least two units, at every position that is not the first one read in some
direction, the gradient of the input is exact: it is the partial derivative of the outputs of the sequence weighted with the given
gradients.

Missing, because it is false for the code: the first position read (`C83_first_position_zero`), more than one layer (the error at the
first position goes on into the layers below), one unit, and the gradients of the parameters (`C83_gradient_of_nothing`). -/
theorem C83_input_gradient_partial (h1 : depth = 1) (h2 : 2 ≤ nO) (b t i : ℕ) (ht : t < packedLength sizes b) (hi : i < nI) (hfirst : 0 < t)
    (hlast : dirs = 1 ∨ t + 1 < packedLength sizes b) :
    ∃ dX dParams, lstmBackward ⟨size, params⟩ depth dirs nO dY sizes X state = .ok (dX, dParams) ∧
      HasDerivAt (fun u => seqLoss params h c nI nO dirs depth (fun t => dY.at (packedRow sizes t b)) (setInput (packedSeq sizes X.at b) t i u))
        (dX.at (packedRow sizes t b) i) (X.at (packedRow sizes t b) i) := by
  obtain ⟨Z, D, G, e, e1, e2, h3⟩ := backward_layers params c h size depth dirs nO nI X sizes hI hO hd hX hpos hsorted hsum hdep hsize Y state hfwd dY hYr hYc
  subst h1
  obtain ⟨z, r, cc, _, Ts, Y', W, dG, _, _, _, hW, hL, hG⟩ := h3 0 hdep
  refine ⟨_, _, e, ?_⟩
  rw [e1, e2] at hG
  rw [e2] at hL
  have hb := (packedLength_iff sizes hsorted t b).1 ht
  have hlen : (packedSeq sizes X.at b).length = packedLength sizes b := packedSeq_length _ _ _
  have hxt : (packedSeq sizes X.at b).getD t 0 = X.at (packedRow sizes t b) := by
    rw [List.getD_eq_getElem?_getD, List.getElem?_eq_getElem (by omega), packedSeq_getElem]
    rfl
  have hw0 : layerWidth nI nO dirs 0 = nI := rfl
  rw [hw0] at hL cc
  -- the value that is returned
  have hval : (D 0).at (packedRow sizes t b) i = ∑ d ∈ Finset.range dirs, ∑ o ∈ Finset.range nO, ∑ g ∈ Finset.range 4,
      layerGrad params h c nI nO dirs 0 X sizes dY d t b g o * (stackWeights params nI nO dirs 0 d).Wx g o i := by
    have := hL.input (packedRow sizes t b) (by rw [← hsum]; exact packedRow_lt sizes hb) i hi
    rw [show (D 0).at (packedRow sizes t b) i = (D 0).buf.val (packedRow sizes t b * nI + i) by unfold Mat.at; rw [cc]; rfl, this]
    refine Finset.sum_congr rfl fun d hd' => ?_
    have hd'' := Finset.mem_range.1 hd'
    rw [sum_four]
    refine Finset.sum_congr rfl fun o ho => Finset.sum_congr rfl fun g hg => ?_
    rw [if_neg (by omega), hG d hd'' t b hb o (Finset.mem_range.1 ho) g (Finset.mem_range.1 hg)]
    congr 1
    have hx := (hW d hd'').1.Wx g (Finset.mem_range.1 hg) o (Finset.mem_range.1 ho) i hi
    rw [← hx]
    unfold Mat.at
    rw [(hW d hd'').2.xc]
    rfl
  rw [hval]
  -- the derivative
  have hf : (fun u => seqLoss params h c nI nO dirs 1 (fun t => dY.at (packedRow sizes t b)) (setInput (packedSeq sizes X.at b) t i u)) = fun u =>
      ∑ d ∈ Finset.range dirs, readLoss (stackWeights params nI nO dirs 0 d) nI nO (initStates h c dirs nO 0 d)
        ((readSeq (d ≠ 0) (packedSeq sizes X.at b)).set (readPos (d ≠ 0) (packedLength sizes b) t)
          (Function.update ((readSeq (d ≠ 0) (packedSeq sizes X.at b)).getD (readPos (d ≠ 0) (packedLength sizes b) t) 0) i u))
        (lstmReadGrads (d ≠ 0) sizes nO (dirGrad X.rows dirs nO d dY).val b) := by
    funext u
    rw [seqLoss_one]
    refine Finset.sum_congr rfl fun d hd' => ?_
    unfold setInput
    rw [readSeq_set _ _ _ _ (by omega), List.length_set, hlen]
    have hge := readSeq_getD (d ≠ 0) (packedSeq sizes X.at b) t (by omega)
    rw [hlen] at hge
    rw [hge]
    unfold readLoss
    refine Finset.sum_congr rfl fun p _ => Finset.sum_congr rfl fun o ho => ?_
    congr 1
    unfold lstmReadGrads
    rw [dirGrad_val _ _ _ _ _ _ _ hYc (Finset.mem_range.1 ho)]
  rw [hf]
  refine HasDerivAt.fun_sum fun d hd' => ?_
  have hp0 : readPos (d ≠ 0) (packedLength sizes b) t ≠ 0 := by
    have := Finset.mem_range.1 hd'
    by_cases h0 : d = 0
    · simp only [readPos, h0, ne_eq, not_true_eq_false, decide_false, Bool.false_eq_true, if_false]
      omega
    · simp only [readPos, h0, ne_eq, not_false_eq_true, decide_true, if_true]
      rcases hlast with hl | hl <;> omega
  have hrd := readLoss_deriv (stackWeights params nI nO dirs 0 d) nI nO (initStates h c dirs nO 0 d) (readSeq (d ≠ 0) (packedSeq sizes X.at b))
    (lstmReadGrads (d ≠ 0) sizes nO (dirGrad X.rows dirs nO d dY).val b) (readPos (d ≠ 0) (packedLength sizes b) t)
    (by rw [readSeq_length, hlen]; exact readPos_lt ht) i hi
  have hge := readSeq_getD (d ≠ 0) (packedSeq sizes X.at b) t (by omega)
  rw [hlen] at hge
  have hpt : (readSeq (d ≠ 0) (packedSeq sizes X.at b)).getD (readPos (d ≠ 0) (packedLength sizes b) t) 0 i = X.at (packedRow sizes t b) i := by
    rw [hge, hxt]
  rw [hpt] at hrd
  refine hrd.congr_deriv ?_
  refine Finset.sum_congr rfl fun o _ => Finset.sum_congr rfl fun g _ => ?_
  congr 1
  unfold layerGrad gateGradAt
  rw [if_neg hp0]
  rfl

/-- **C83** (violation): with one direction, for any depth, width, parameters and any gradient of the output, the gradient returned for
the first position of every sequence is 0. -/
theorem C83_first_position_zero (h1 : dirs = 1) (b : ℕ) (hb : 0 < packedLength sizes b) (i : ℕ) (hi : i < nI) :
    ∃ dX dParams, lstmBackward ⟨size, params⟩ depth dirs nO dY sizes X state = .ok (dX, dParams) ∧ dX.at (packedRow sizes 0 b) i = 0 := by
  obtain ⟨Z, D, G, e, e1, e2, h3⟩ := backward_layers params c h size depth dirs nO nI X sizes hI hO hd hX hpos hsorted hsum hdep hsize Y state hfwd dY hYr hYc
  obtain ⟨z, r, cc, _, Ts, Y', W, dG, _, _, _, hW, hL, hG⟩ := h3 0 hdep
  refine ⟨_, _, e, ?_⟩
  have hb' := (packedLength_iff sizes hsorted 0 b).1 hb
  have hw0 : layerWidth nI nO dirs 0 = nI := rfl
  rw [hw0] at hL cc
  have := hL.input (packedRow sizes 0 b) (by rw [z, ← hsum]; exact packedRow_lt sizes hb') i hi
  rw [show (D 0).at (packedRow sizes 0 b) i = (D 0).buf.val (packedRow sizes 0 b * nI + i) by unfold Mat.at; rw [cc]; rfl, this]
  subst h1
  refine Finset.sum_eq_zero fun d hd' => Finset.sum_eq_zero fun m hm => ?_
  obtain rfl : d = 0 := by simpa using hd'
  have hm' := Finset.mem_range.1 hm
  have hg := hG 0 (by omega) 0 b hb' (m / 4) (by omega) (m % 4) (by omega)
  rw [show 4 * (m / 4) + m % 4 = m by omega] at hg
  rw [hg]
  unfold layerGrad gateGradAt
  rw [if_pos (by simp [readPos]), zero_mul]

/-- **C83** (violation): if every sequence has length 1, or if the gradient of the output is 0, then the gradient of the input is 0 and
the gradients returned for the parameters are the parameters themselves (with the two biases added up).  So sequences of length 1 teach
the network nothing, whatever their gradient is, and a gradient of 0 changes the parameters. -/
theorem C83_gradient_of_nothing (hz : sizes.length = 1 ∨ ∀ r < X.rows, ∀ k < dirs * nO, dY.at r k = 0) :
    ∃ dX, lstmBackward ⟨size, params⟩ depth dirs nO dY sizes X state = .ok (dX, mergedParams params nI nO dirs depth) ∧
      ∀ r < X.rows, ∀ k < nI, dX.at r k = 0 := by
  obtain ⟨Z, D, G, e, e1, e2, h3⟩ := backward_layers params c h size depth dirs nO nI X sizes hI hO hd hX hpos hsorted hsum hdep hsize Y state hfwd dY hYr hYc
  have hback : ∀ n, ∀ i < depth, depth = i + 1 + n →
      (∀ r < X.rows, ∀ k < layerWidth nI nO dirs i, (D i).at r k = 0) ∧
        ∀ d < dirs, untranspose (G i d) = mergedCell params (cellStart nI nO dirs i d) (layerWidth nI nO dirs i) nO := by
    intro n
    induction n with
    | zero =>
      intro i hi hn
      obtain ⟨z, _, _, c2, Ts, hB⟩ := h3 i hi
      rw [← z]
      refine BackRel.zero hsorted (by rw [z, hsum]) c2 ?_ hB
      rw [show i + 1 = depth by omega, e1, z]
      exact hz
    | succ n ih =>
      intro i hi hn
      obtain ⟨z, _, _, c2, Ts, hB⟩ := h3 i hi
      have := (ih (i + 1) (by omega) (by omega)).1
      rw [layerWidth_succ] at this
      rw [← z]
      refine BackRel.zero hsorted (by rw [z, hsum]) c2 (Or.inr ?_) hB
      rw [z]
      exact this
  refine ⟨D 0, ?_, (hback (depth - 1) 0 hdep (by omega)).1⟩
  rw [e]
  congr 2
  unfold mergedParams
  rw [List.flatten_eq_flatMap, List.flatMap_map, List.flatMap_assoc]
  refine List.flatMap_congr fun i hi => ?_
  rw [List.mem_range] at hi
  simp only [id, List.flatMap_map]
  refine List.flatMap_congr fun d hd' => ?_
  exact (hback (depth - 1 - i) i hi (by omega)).2 d (List.mem_range.1 hd')

end

/-! ### A network with two units in which one weight is 1 -/

/-- All parameters are 0, except the weight from the input to the candidate of unit 0. -/
def oneWeight (j : ℕ) : ℝ := if j = 6 then 1 else 0

/-- The gradient of the first output of the first row. -/
def firstOut (n : ℕ) : Mat ℝ := ⟨n, 2, fun j => if j = 0 then 1 else 0⟩

theorem oneWeight_loss (u : ℝ) : seqLoss oneWeight (fun _ => 0) (fun _ => 0) 1 2 1 1 (fun t => (firstOut 1).at (packedRow [1] t 0))
    (setInput (packedSeq [1] (Mat.zeros 1 1).at 0) 0 0 u) = 1 / 2 * Real.tanh (1 / 2 * Real.tanh u) := by
  have hl : packedLength [1] 0 = 1 := rfl
  have hs : setInput (packedSeq [1] (Mat.zeros (α := ℝ) 1 1).at 0) 0 0 u = [Function.update ((Mat.zeros (α := ℝ) 1 1).at 0) 0 u] := by
    unfold setInput packedSeq
    rw [hl]
    rfl
  rw [hs]
  have h0 : logit 0 = 1 / 2 := by unfold logit; norm_num
  have hW0 : ∀ g o k, (stackWeights oneWeight 1 2 1 0 0).Wx g o k = if (g * 2 + o) * 1 + k = 6 then 1 else 0 := by
    intro g o k
    simp [stackWeights, cellWeights, cellStart, oneWeight, layerWidth]
  have hbx : ∀ g o, (stackWeights oneWeight 1 2 1 0 0).bx g o = 0 := by
    intro g o
    simp only [stackWeights, cellWeights, cellStart, oneWeight, layerWidth]
    rw [if_neg]
    simp only [if_true]
    omega
  have hbh : ∀ g o, (stackWeights oneWeight 1 2 1 0 0).bh g o = 0 := by
    intro g o
    simp only [stackWeights, cellWeights, cellStart, oneWeight, layerWidth]
    rw [if_neg]
    simp only [if_true]
    omega
  rw [seqLoss_one]
  have hgate : ∀ g < 4, gate (stackWeights oneWeight 1 2 1 0 0) 1 2 (fun _ => 0) (Function.update ((Mat.zeros (α := ℝ) 1 1).at 0) 0 u) g 0 = if g = 3 then u else 0 := by
    intro g hg
    unfold gate
    rw [hbx, hbh]
    simp only [Finset.sum_range_one, hW0, mul_zero, Finset.sum_const_zero, add_zero, Function.update_self, mul_one]
    by_cases h3 : g = 3
    · subst h3; simp
    · rw [if_neg (by omega), if_neg h3, zero_mul]
  simp only [Finset.sum_range_one, readLoss, readSeq, readPos, ne_eq, not_true_eq_false, decide_false, Bool.false_eq_true, if_false, List.length_singleton,
    Finset.sum_range_succ, Finset.sum_range_zero, zero_add, List.take_succ_cons, List.take_nil, lstmRead, List.foldl_cons, List.foldl_nil, lstmCell,
    initStates, hgate 0 (by omega), hgate 1 (by omega), hgate 2 (by omega), hgate 3 (by omega), h0, if_true, mul_zero]
  have d0 : (firstOut 1).at (packedRow [1] 0 0) (0 * 2 + 0) = 1 := by simp [firstOut, Mat.at, packedRow]
  have d1 : (firstOut 1).at (packedRow [1] 0 0) (0 * 2 + 1) = 0 := by simp [firstOut, Mat.at, packedRow]
  have d0' : (firstOut 1).at (packedRow [1] 0 0) 0 = 1 := d0
  have d1' : (firstOut 1).at (packedRow [1] 0 0) 1 = 0 := d1
  simp [d0', d1', h0]

/-- **C83** (violation, concrete): one sequence of length 1 in a network with one input and two units.  The derivative of the first output
is 1/4, but the gradient returned for the input is 0, and the one returned for the only weight that is not 0 is that weight. -/
theorem C83_wrong_gradient : ∃ Y state dX dParams,
    lstmForward oneWeight (fun _ => 0) (fun _ => 0) 40 1 1 2 (Mat.zeros 1 1) [1] = .ok (Y, state) ∧
    lstmBackward ⟨40, oneWeight⟩ 1 1 2 (firstOut 1) [1] (Mat.zeros 1 1) state = .ok (dX, dParams) ∧
    HasDerivAt (fun u => seqLoss oneWeight (fun _ => 0) (fun _ => 0) 1 2 1 1 (fun t => (firstOut 1).at (packedRow [1] t 0))
      (setInput (packedSeq [1] (Mat.zeros 1 1).at 0) 0 0 u)) (1 / 4) 0 ∧
    dX.at 0 0 = 0 ∧ dParams.getD 6 0 = 1 := by
  obtain ⟨H, all, e, _⟩ := lstmForward_ok oneWeight (fun _ => 0) (fun _ => 0) 40 1 1 2 1 (Mat.zeros 1 1) [1] (by decide) (by decide) (by decide) rfl
    (by decide) (by simp) rfl (by decide)
  obtain ⟨dX, e2, hz⟩ := C83_gradient_of_nothing oneWeight (fun _ => 0) (fun _ => 0) 40 1 1 2 1 (Mat.zeros 1 1) [1] (by decide) (by decide) (by decide) rfl
    (by decide) (by simp) rfl (by decide) (by decide) H all e (firstOut 1) rfl rfl (Or.inl rfl)
  refine ⟨H, all, dX, _, e, e2, ?_, hz 0 (by decide) 0 (by decide), ?_⟩
  · simp only [oneWeight_loss]
    have h1 := (hasDerivAt_tanh' 0).const_mul (1 / 2 : ℝ)
    have h2 := ((hasDerivAt_tanh' (1 / 2 * Real.tanh 0)).comp 0 h1).const_mul (1 / 2 : ℝ)
    refine h2.congr_deriv ?_
    simp
    norm_num
  · simp [mergedParams, mergedCell, oneWeight, cellStart, layerWidth, List.range_succ]

/-- The hypotheses of `C83_input_gradient_partial` are met: one sequence of length 3 in the same network, with one or two directions. -/
example (dirs : ℕ) (hd : dirs = 1 ∨ dirs = 2) : ∃ Y state,
    lstmForward oneWeight (fun _ => 0) (fun _ => 0) 80 1 dirs 2 (Mat.ofFn 3 1 fun n _ => n) [1, 1, 1] = .ok (Y, state) ∧
    ∃ dX dParams, lstmBackward ⟨80, oneWeight⟩ 1 dirs 2 ⟨3, dirs * 2, fun _ => 1⟩ [1, 1, 1] (Mat.ofFn 3 1 fun n _ => n) state = .ok (dX, dParams) ∧
      HasDerivAt (fun u => seqLoss oneWeight (fun _ => 0) (fun _ => 0) 1 2 dirs 1 (fun _ _ => 1)
        (setInput (packedSeq [1, 1, 1] (Mat.ofFn 3 1 fun n _ => (n : ℝ)).at 0) 1 0 u)) (dX.at 1 0) 1 := by
  have hs : cellStart 1 2 dirs 1 0 ≤ 80 := by rcases hd with rfl | rfl <;> decide
  have hd0 : 0 < dirs := by omega
  obtain ⟨H, all, e, _⟩ := lstmForward_ok oneWeight (fun _ => 0) (fun _ => 0) 80 1 dirs 2 1 (Mat.ofFn 3 1 fun n _ => n) [1, 1, 1] (by decide) (by decide)
    hd0 rfl (by decide : (0 : ℕ) < 3) (by simp) rfl hs
  obtain ⟨dX, dP, e2, hder⟩ := C83_input_gradient_partial oneWeight (fun _ => 0) (fun _ => 0) 80 1 dirs 2 1 (Mat.ofFn 3 1 fun n _ => n) [1, 1, 1]
    (by decide) (by decide) hd0 rfl (by decide : (0 : ℕ) < 3) (by simp) rfl (by decide) hs H all e ⟨3, dirs * 2, fun _ => 1⟩ rfl rfl rfl (by decide) 0 1 0
    (by decide) (by decide) (by decide) (Or.inr (by decide))
  refine ⟨H, all, e, dX, dP, e2, ?_⟩
  have hx : (Mat.ofFn 3 1 fun n _ => (n : ℝ)).at (packedRow [1, 1, 1] 1 0) 0 = 1 := by simp [Mat.ofFn, Mat.at, packedRow]
  rw [hx] at hder
  exact hder

end Thinc
