import Verif.Model.LstmLayer
/-!
# The backward pass of the LSTM with NumpyOps

Source: thinc/backends/numpy_ops.pyx:767-967, 1037-1075, thinc/backends/ops.py:1639-1648.

When `nO` is 1 the transposed weights are views of `params` (a transpose that only moves a dimension of size 1 is still contiguous, so
neither `reshape` nor `ascontiguousarray` copies): the arrays of gradients then are the same memory as the weights.  See
`lstmBackDirection`.
-/
namespace Thinc

/-! ### One pair of time steps -/

/-- thinc/backends/numpy_ops.pyx:962-963 `dsigmoid` -/
def dsigmoidY (y : ℝ) : ℝ := y * (1 - y)

/-- thinc/backends/numpy_ops.pyx:966-967 `dtanh` -/
def dtanhY (y : ℝ) : ℝ := 1 - y ^ 2

/-- The derivative that reaches the new cell state: `dct3` after thinc/backends/numpy_ops.pyx:1065. -/
noncomputable def cellGrad (dy dct3 ct3 ho : ℝ) : ℝ := dct3 + dy * ho * dtanhY (Real.tanh ct3)

/-- thinc/backends/numpy_ops.pyx:1049-1075, the body of the loop of `cpu_lstm_gates_bwd`; `p3` and `p2` are the offsets of the rows of
the two time steps in `dY`, `dC` and `C`, and four times that in `dG` and `G`.  The state is `dC` and `dG`. -/
noncomputable def gatesBwdUnit (p3 p2 : Int) (dY C G : Buf ℝ) (s : Buf ℝ × Buf ℝ) (i : Nat) : Except PyErr (Buf ℝ × Buf ℝ) := do
  let ct2 ← C.read (p2 + i)
  let ct3 ← C.read (p3 + i)
  let dct3 ← s.1.read (p3 + i)
  let dyt3 ← dY.read (p3 + i)
  let hf ← G.read (4 * p3 + 4 * i + 0)
  let hi ← G.read (4 * p3 + 4 * i + 1)
  let ho ← G.read (4 * p3 + 4 * i + 2)
  let hc ← G.read (4 * p3 + 4 * i + 3)
  let dho := dyt3 * Real.tanh ct3
  let d := cellGrad dyt3 dct3 ct3 ho
  let dC ← s.1.write (p2 + i) (d * hf)
  let dG ← s.2.write (4 * p3 + 4 * i + 0) (d * ct2 * dsigmoidY hf)
  let dG ← dG.write (4 * p3 + 4 * i + 1) (d * hc * dsigmoidY hi)
  let dG ← dG.write (4 * p3 + 4 * i + 2) (dho * dsigmoidY ho)
  let dG ← dG.write (4 * p3 + 4 * i + 3) (d * hi * dtanhY hc)
  return (dC, dG)

/-- `sgemm(cblas)(False, False, M, N, K, one, A, K, B, N, one, C, N)` with pointers `a` into A and `c` into C: adds `A B` to C. -/
noncomputable def sgemmNN (M N K : Nat) (A : Buf ℝ) (a : Int) (B : Buf ℝ) (C : Buf ℝ) (c : Int) : Except PyErr (Buf ℝ) :=
  if M = 0 ∨ N = 0 then .ok C
  else if 0 ≤ a ∧ a + M * K ≤ A.size ∧ K * N ≤ B.size ∧ 0 ≤ c ∧ c + M * N ≤ C.size then
    .ok ⟨C.size, fun j => if c.toNat ≤ j ∧ j < c.toNat + M * N then
      C.val j + ∑ k ∈ Finset.range K, A.val (a.toNat + (j - c.toNat) / N * K + k) * B.val (k * N + (j - c.toNat) % N)
      else C.val j⟩
  else .error .outOfBounds

/-- `sgemm(cblas)(True, False, M, N, K, one, A, M, B, N, one, C, N)`: adds `Aᵀ B` to C. -/
noncomputable def sgemmTN (M N K : Nat) (A B C : Buf ℝ) : Except PyErr (Buf ℝ) :=
  if M = 0 ∨ N = 0 then .ok C
  else if K * M ≤ A.size ∧ K * N ≤ B.size ∧ M * N ≤ C.size then
    .ok ⟨C.size, fun j => if j < M * N then C.val j + ∑ k ∈ Finset.range K, A.val (k * M + j / N) * B.val (k * N + j % N) else C.val j⟩
  else .error .outOfBounds

/-- The variables of the loop in `_lstm_backward_training`. -/
structure BackState where
  dY : Buf ℝ
  dC : Buf ℝ
  dG : Buf ℝ
  seq3 : Nat
  size3 : Nat

/-- thinc/backends/numpy_ops.pyx:898-924, the body of the loop over the pairs of time steps. -/
noncomputable def lstmBackStep (nO : Nat) (C G Wh : Buf ℝ) (s : BackState) (e : Nat × Nat) : Except PyErr BackState := do
  let batch := min e.2 s.size3
  let (dC, dG) ← forN (batch * nO) (s.dC, s.dG) (gatesBwdUnit (s.seq3 * nO : Nat) (e.1 * nO : Nat) s.dY C G)
  let dY ← sgemmNN batch nO (nO * 4) dG (s.seq3 * (nO * 4) : Nat) Wh s.dY (e.1 * nO : Nat)
  return ⟨dY, dC, dG, e.1, e.2⟩

/-! ### One direction of one layer -/

/-- thinc/backends/numpy_ops.pyx:812-816: the start and the number of rows of every time step. -/
def lstmIndices (start : Nat) : List Nat → List (Nat × Nat)
  | [] => []
  | n :: sizes => (start, n) :: lstmIndices (start + n) sizes

/-- thinc/backends/numpy_ops.pyx:890-896: the first pair and the others, in the order of the loop. -/
def lstmBackOrder (rev : Bool) (sizes : List Nat) : List (Nat × Nat) :=
  if rev then lstmIndices 0 sizes else (lstmIndices 0 sizes).reverse

/-- thinc/backends/numpy_ops.pyx:947-949: `d_bias[j] += dG[i*nO*4+j]` for all rows. -/
noncomputable def addRowSums (N w : Nat) (dG : Buf ℝ) (bias : Mat ℝ) : Mat ℝ :=
  ⟨bias.rows, bias.cols, fun j => if j < w then bias.val j + ∑ n ∈ Finset.range N, dG.val (n * w + j) else bias.val j⟩

/-- thinc/backends/numpy_ops.pyx:890-924, the loop of `_lstm_backward_training`: the gradient of the gates. -/
noncomputable def lstmBackLoop (rev : Bool) (N nO : Nat) (dY : Buf ℝ) (T : LstmTrace) (Wh : Buf ℝ) (sizes : List Nat) : Except PyErr BackState := do
  let first ← (lstmBackOrder rev sizes).head?.elim (.error .indexError) .ok
  forM' (lstmBackOrder rev sizes).tail ⟨dY, ⟨N * nO, fun _ => 0⟩, ⟨N * (nO * 4), fun _ => 0⟩, first.1, first.2⟩ (lstmBackStep nO T.C T.G Wh)

/-- thinc/backends/numpy_ops.pyx:869-959 `_lstm_backward_training`.  The results are the new `dX` and the new gradients; `dC` and `dG`
are filled with zeros before (833-834).  When `nO` is 1, `dWx` is the same memory as `Wx`, so the last product reads the weights after
the update of 928-934. -/
noncomputable def lstmBackDirection (rev : Bool) (N nO nI : Nat) (dX : Buf ℝ) (dY : Buf ℝ) (T : LstmTrace) (X : Mat ℝ) (w grad : GateWeights)
    (sizes : List Nat) : Except PyErr (Buf ℝ × GateWeights) := do
  let s ← lstmBackLoop rev N nO dY T w.Wh.buf sizes
  let dWx ← sgemmTN (nO * 4) nI N s.dG X.buf grad.Wx.buf
  let dWh ← sgemmTN (nO * 4) nO N s.dG T.Y grad.Wh.buf
  let bias := addRowSums N (nO * 4) s.dG grad.bias
  let dX ← sgemmNN N nI (nO * 4) s.dG 0 (if nO = 1 then dWx else w.Wx.buf) dX 0
  return (dX, ⟨dWx.toMat grad.Wx.rows grad.Wx.cols, dWh.toMat grad.Wh.rows grad.Wh.cols, bias⟩)

/-! ### All layers -/

/-- thinc/backends/numpy_ops.pyx:798-801, the body of the loop over the directions; the state is `params_i` and the weights so far. -/
noncomputable def collectDir (params : Buf ℝ) (nO nInputs : Nat) (s : Nat × List GateWeights) (_d : Nat) : Except PyErr (Nat × List GateWeights) := do
  let (w, paramsI) ← splitWeights params nO nInputs s.1
  let w ← transposeWeights w
  return (paramsI, s.2 ++ [w])

/-- thinc/backends/numpy_ops.pyx:795-801, the body of the loop over the layers. -/
noncomputable def collectLayer (params : Buf ℝ) (nO nI dirs : Nat) (s : Nat × List (List GateWeights)) (i : Nat) :
    Except PyErr (Nat × List (List GateWeights)) := do
  let (paramsI, ws) ← forM' (List.range dirs) (s.1, []) (collectDir params nO (if i = 0 then nI else nO * dirs))
  return (paramsI, s.2 ++ [ws])

/-- thinc/backends/numpy_ops.pyx:793-801: the weights of all cells.  The gradients (802-810) are made in the same way, also from
`params`. -/
noncomputable def collectWeights (params : Buf ℝ) (depth dirs nO nI : Nat) : Except PyErr (List (List GateWeights)) := do
  let s ← forM' (List.range depth) (0, []) (collectLayer params nO nI dirs)
  return s.2

/-- thinc/backends/numpy_ops.pyx:823, 826-827, 832: `dY[d]` after `dY.reshape((N, dirs, nO)).transpose((1, 0, 2))`. -/
def dirGrad (N dirs nO d : Nat) (dY : Mat ℝ) : Buf ℝ := ⟨N * nO, fun j => dY.val ((j / nO * dirs + d) * nO + j % nO)⟩

/-- thinc/backends/numpy_ops.pyx:828-859, the body of the loop over the directions of one layer.  The state is `dX` and the
gradients so far. -/
noncomputable def lstmBackDir (N dirs nO : Nat) (dY : Mat ℝ) (Ts : List LstmTrace) (X : Mat ℝ) (ws : List GateWeights) (sizes : List Nat)
    (s : Buf ℝ × List GateWeights) (d : Nat) : Except PyErr (Buf ℝ × List GateWeights) := do
  let w ← (ws[d]?).elim (.error .indexError) .ok
  let T ← (Ts[d]?).elim (.error .indexError) .ok
  let (dX, g) ← lstmBackDirection (d ≠ 0) N nO X.cols s.1 (dirGrad N dirs nO d dY) T X w w sizes
  return (dX, s.2 ++ [g])

/-- `dY.reshape((N, dirs, nO))` needs the right number of elements. -/
def checkReshape (dY : Mat ℝ) (n : Nat) : Except PyErr Unit := if dY.rows * dY.cols = n then .ok () else .error .valueError

/-- thinc/backends/numpy_ops.pyx:822-860, the body of the loop over the layers, from the last one to the first.  The state is the
gradient `dY` and the gradients of the weights of the later layers. -/
noncomputable def lstmBackLayer (N dirs nO : Nat) (all : List (List LstmTrace)) (Xs : List (Mat ℝ)) (weights : List (List GateWeights))
    (sizes : List Nat) (s : Mat ℝ × List (List GateWeights)) (i : Nat) : Except PyErr (Mat ℝ × List (List GateWeights)) := do
  let _ ← checkReshape s.1 (N * dirs * nO)
  let X ← (Xs[i]?).elim (.error .indexError) .ok
  let Ts ← (all[i]?).elim (.error .indexError) .ok
  let ws ← (weights[i]?).elim (.error .indexError) .ok
  let (dX, gs) ← forM' (List.range dirs) (⟨N * X.cols, fun _ => 0⟩, []) (lstmBackDir N dirs nO s.1 Ts X ws sizes)
  return (dX.toMat N X.cols, gs :: s.2)

/-- The rows `W.reshape((-1, 4, n)).transpose((1, 0, 2)).reshape((-1, n))`, raveled. -/
def unGate (W : Mat ℝ) : List ℝ := (List.range (W.rows * W.cols)).map fun j => W.at ((j / W.cols % (W.rows / 4)) * 4 + j / W.cols / (W.rows / 4)) (j % W.cols)

/-- `bias.reshape((-1, 4)).transpose((1, 0)).reshape((-1,))` -/
def unGateBias (b : Mat ℝ) : List ℝ := (List.range b.cols).map fun j => b.at 0 ((j % (b.cols / 4)) * 4 + j / (b.cols / 4))

/-- thinc/backends/ops.py:1639-1648 `_untranspose_unsplit_weights` -/
def untranspose (w : GateWeights) : List ℝ := unGate w.Wx ++ unGateBias w.bias ++ unGate w.Wh ++ List.replicate w.bias.cols 0

/-- thinc/backends/numpy_ops.pyx:767-866 `backprop_lstm`: the gradient of the input and that of the parameters. -/
noncomputable def lstmBackward (params : Buf ℝ) (depth dirs nO : Nat) (dY : Mat ℝ) (sizes : List Nat) (X : Mat ℝ) (all : List (List LstmTrace)) :
    Except PyErr (Mat ℝ × List ℝ) := do
  let weights ← collectWeights params depth dirs nO X.cols
  let Hs ← (all.take (depth - 1)).mapM (sideBySide X.rows nO)
  let s ← forM' (List.range depth).reverse (dY, []) (lstmBackLayer X.rows dirs nO all (X :: Hs) weights sizes)
  return (s.1, s.2.flatten.flatMap untranspose)

end Thinc
