import Verif.Model.LstmBack
/-!
# The LSTM of the base class of the backends

Source: thinc/backends/ops.py:1432-1602, 1651-1692.  `Ops.lstm_forward_training`, `lstm_forward_inference` and `backprop_lstm`
(ops.py:858-885) call these functions; `NumpyOps` overrides them, the other backends inherit them.

Two-dimensional arrays are matrices.  The number of rows of the input is the sum of the counts of active sequences; when there are
fewer rows the model gives a `ValueError`, while numpy would take shorter slices.
-/
namespace Thinc

/-- thinc/backends/ops.py:1679-1684 `sigmoid` -/
noncomputable def baseSigmoid (x : ℝ) : ℝ := 1 / (1 + Real.exp (-(min (max x (-20)) 20)))

/-- `A[start : start + n] = f` -/
def Mat.setRows (A : Mat ℝ) (start n : Nat) (f : Nat → Nat → ℝ) : Mat ℝ :=
  Mat.ofFn A.rows A.cols fun i j => if start ≤ i ∧ i < start + n then f (i - start) j else A.at i j

/-- The variables of the loop over time: `G[i, d]`, `Y[i, d]`, `C[i, d]`, `Yt2` and `Ct2`. -/
structure BaseState where
  G : Mat ℝ
  Y : Mat ℝ
  C : Mat ℝ
  Yt2 : Mat ℝ
  Ct2 : Mat ℝ

/-- thinc/backends/ops.py:1472: `Gt3 += xp.dot(Yt2, Wh.T)` -/
noncomputable def baseGate (nO : Nat) (Wh : Mat ℝ) (s : BaseState) (start u j : Nat) : ℝ :=
  s.G.at (start + u) j + ∑ k ∈ Finset.range nO, s.Yt2.at u k * Wh.at j k

/-- thinc/backends/ops.py:1473-1479: `Ct3` -/
noncomputable def baseCell (nO : Nat) (Wh : Mat ℝ) (s : BaseState) (start u o : Nat) : ℝ :=
  baseSigmoid (baseGate nO Wh s start u (4 * o + 0)) * s.Ct2.at u o +
    baseSigmoid (baseGate nO Wh s start u (4 * o + 1)) * Real.tanh (baseGate nO Wh s start u (4 * o + 3))

/-- thinc/backends/ops.py:1480-1495: the row of `Y` -/
noncomputable def baseHidden (nO : Nat) (Wh : Mat ℝ) (s : BaseState) (start u o : Nat) : ℝ :=
  Real.tanh (baseCell nO Wh s start u o) * baseSigmoid (baseGate nO Wh s start u (4 * o + 2))

/-- thinc/backends/ops.py:1464-1500, the body of the loop over time.  `r` is the number of rows of `Yt2` after `Yt2[: end - start]`,
which is also that of all the others. -/
noncomputable def baseStep (nO : Nat) (Wh : Mat ℝ) (s : BaseState) (e : Nat × Nat) : Except PyErr BaseState :=
  let r := min s.Yt2.rows e.2
  if s.G.rows < e.1 + r then .error .valueError
  else
    .ok ⟨s.G.setRows e.1 r fun u j => if j % 4 = 3 then Real.tanh (baseGate nO Wh s e.1 u j) else baseSigmoid (baseGate nO Wh s e.1 u j),
      s.Y.setRows e.1 r (baseHidden nO Wh s e.1), s.C.setRows e.1 r (baseCell nO Wh s e.1),
      Mat.ofFn r nO (baseHidden nO Wh s e.1), Mat.ofFn r nO (baseCell nO Wh s e.1)⟩

/-- thinc/backends/ops.py:1456-1500, one direction.  `hInit` and `cInit` are the rows `h_init[i, d]` and `c_init[i, d]`: `Yt2` and
`Ct2` have one row. -/
noncomputable def baseDirection (rev : Bool) (nO : Nat) (X : Mat ℝ) (w : GateWeights) (hInit cInit : Nat → ℝ) (lengths : List Nat) :
    Except PyErr LstmTrace := do
  let G := Mat.ofFn X.rows (nO * 4) fun n j => 0 + ∑ k ∈ Finset.range X.cols, X.at n k * w.Wx.at j k + w.bias.at 0 j
  let s ← forM' (if rev then (lstmIndices 0 lengths).reverse else lstmIndices 0 lengths)
    ⟨G, Mat.zeros X.rows nO, Mat.zeros X.rows nO, ⟨1, nO, hInit⟩, ⟨1, nO, cInit⟩⟩ (baseStep nO w.Wh)
  return ⟨s.Y.buf, s.G.buf, s.C.buf⟩

/-- thinc/backends/ops.py:1455-1500, the body of the loop over the directions. -/
noncomputable def baseDir (params : Buf ℝ) (hInit cInit : Nat → ℝ) (dirs nO : Nat) (X : Mat ℝ) (lengths : List Nat) (i : Nat)
    (s : Nat × List LstmTrace) (d : Nat) : Except PyErr (Nat × List LstmTrace) := do
  let (w, paramsI) ← splitWeights params nO X.cols s.1
  let w ← transposeWeights w
  let T ← baseDirection (d ≠ 0) nO X w (fun o => hInit ((i * dirs + d) * nO + o)) (fun o => cInit ((i * dirs + d) * nO + o)) lengths
  return (paramsI, s.2 ++ [T])

/-- thinc/backends/ops.py:1453-1504, the body of the loop over the layers. -/
noncomputable def baseLayerStep (params : Buf ℝ) (hInit cInit : Nat → ℝ) (dirs nO : Nat) (lengths : List Nat)
    (s : Mat ℝ × Nat × List (List LstmTrace)) (i : Nat) : Except PyErr (Mat ℝ × Nat × List (List LstmTrace)) := do
  let (paramsI, Ts) ← forM' (List.range dirs) (s.2.1, []) (baseDir params hInit cInit dirs nO s.1 lengths i)
  let H ← sideBySide s.1.rows nO Ts
  return (H, paramsI, s.2.2 ++ [Ts])

/-- `lengths[0]` -/
def firstLength (lengths : List Nat) : Except PyErr Nat := lengths.head?.elim (.error .indexError) .ok

/-- thinc/backends/ops.py:1432-1505 `lstm_forward_training`; `depth` is not 0. -/
noncomputable def baseForward (params cInit hInit : Nat → ℝ) (size depth dirs nO : Nat) (X : Mat ℝ) (lengths : List Nat) :
    Except PyErr (Mat ℝ × List (List LstmTrace)) := do
  let _ ← firstLength lengths
  let s ← forM' (List.range depth) (X, 0, []) (baseLayerStep ⟨size, params⟩ hInit cInit dirs nO lengths)
  return (s.1, s.2.2)

/-! ### Backward -/

/-- The variables of the loop over time: `dY3d[d]`, `dC`, `start_t3` and `end_t3 - start_t3`. -/
structure BaseBack where
  dY : Mat ℝ
  dC : Mat ℝ
  seq3 : Nat
  size3 : Nat

/-- thinc/backends/ops.py:1663-1667: `dCt3` after the update; the gates are split into four blocks. -/
noncomputable def baseCellGrad (nO : Nat) (T : LstmTrace) (s : BaseBack) (r o : Nat) : ℝ :=
  cellGrad (s.dY.at (s.seq3 + r) o) (s.dC.at (s.seq3 + r) o) (T.C.val ((s.seq3 + r) * nO + o)) (T.G.val ((s.seq3 + r) * (nO * 4) + (2 * nO + o)))

/-- thinc/backends/ops.py:1668-1678: `dAt3`; `start` is `start_t2`. -/
noncomputable def baseGateGrad (nO : Nat) (T : LstmTrace) (s : BaseBack) (start r j : Nat) : ℝ :=
  let o := j % nO
  let g := fun q => T.G.val ((s.seq3 + r) * (nO * 4) + (q * nO + o))
  if j / nO = 0 then baseCellGrad nO T s r o * T.C.val ((start + r) * nO + o) * dsigmoidY (g 0)
  else if j / nO = 1 then baseCellGrad nO T s r o * g 3 * dsigmoidY (g 1)
  else if j / nO = 2 then s.dY.at (s.seq3 + r) o * Real.tanh (T.C.val ((s.seq3 + r) * nO + o)) * dsigmoidY (g 2)
  else baseCellGrad nO T s r o * g 1 * dtanhY (g 3)

/-- thinc/backends/ops.py:1571-1586, the body of the loop over the pairs of time steps.  The gradients of the gates `dGt3` reach the
hidden states of the other time step, and are not stored. -/
noncomputable def baseBackStep (nO : Nat) (T : LstmTrace) (Wh : Mat ℝ) (s : BaseBack) (e : Nat × Nat) : BaseBack :=
  let size := min e.2 s.size3
  let dY := s.dY.setRows e.1 size fun r o => s.dY.at (e.1 + r) o + ∑ j ∈ Finset.range (nO * 4), baseGateGrad nO T s e.1 r j * Wh.at j o
  let dC := (s.dC.setRows s.seq3 size (baseCellGrad nO T s)).setRows e.1 size fun r o =>
    baseCellGrad nO T s r o * T.G.val ((s.seq3 + r) * (nO * 4) + o)
  ⟨dY, dC, e.1, e.2⟩

/-- thinc/backends/ops.py:1560-1594, the body of the loop over the directions: `w` are the weights, `grad` the gradients (zeros at the
start), `dG` the array made in 1525. -/
noncomputable def baseBackDirection (rev : Bool) (N nO : Nat) (dG dX dYd dC : Mat ℝ) (T : LstmTrace) (X : Mat ℝ) (w grad : GateWeights)
    (sizes : List Nat) : Except PyErr (Mat ℝ × Mat ℝ × GateWeights) := do
  let first ← (lstmBackOrder rev sizes).head?.elim (.error .indexError) .ok
  let s := (lstmBackOrder rev sizes).tail.foldl (baseBackStep nO T w.Wh) ⟨dYd, dC, first.1, first.2⟩
  let dWx := Mat.ofFn grad.Wx.rows grad.Wx.cols fun m k => grad.Wx.at m k + ∑ n ∈ Finset.range N, dG.at n m * X.at n k
  let dWh := Mat.ofFn grad.Wh.rows grad.Wh.cols fun m k => grad.Wh.at m k + ∑ n ∈ Finset.range N, dG.at n m * T.Y.val (n * nO + k)
  let bias := Mat.ofFn 1 grad.bias.cols fun _ m => grad.bias.at 0 m + ∑ n ∈ Finset.range N, dG.at n m
  let dX := Mat.ofFn dX.rows dX.cols fun n k => dX.at n k + ∑ m ∈ Finset.range (nO * 4), dG.at n m * w.Wx.at m k
  return (dX, s.dC, ⟨dWx, dWh, bias⟩)

/-- One direction of one layer: the state is `dX`, `dC` and the gradients of the directions so far. -/
noncomputable def baseBackDir (N dirs nO : Nat) (dG dY : Mat ℝ) (Ts : List LstmTrace) (X : Mat ℝ) (ws grads : List GateWeights) (sizes : List Nat)
    (s : Mat ℝ × Mat ℝ × List GateWeights) (d : Nat) : Except PyErr (Mat ℝ × Mat ℝ × List GateWeights) := do
  let w ← (ws[d]?).elim (.error .indexError) .ok
  let g ← (grads[d]?).elim (.error .indexError) .ok
  let T ← (Ts[d]?).elim (.error .indexError) .ok
  let (dX, dC, g) ← baseBackDirection (d ≠ 0) N nO dG s.1 ((dirGrad N dirs nO d dY).toMat N nO) s.2.1 T X w g sizes
  return (dX, dC, s.2.2 ++ [g])

/-- thinc/backends/ops.py:1552-1595, the body of the loop over the layers, from the last one to the first.  `dC` is not reset. -/
noncomputable def baseBackLayer (N dirs nO : Nat) (dG : Mat ℝ) (all : List (List LstmTrace)) (Xs : List (Mat ℝ))
    (weights grads : List (List GateWeights)) (sizes : List Nat) (s : Mat ℝ × Mat ℝ × List (List GateWeights)) (i : Nat) :
    Except PyErr (Mat ℝ × Mat ℝ × List (List GateWeights)) := do
  let _ ← checkReshape s.1 (N * dirs * nO)
  let X ← (Xs[i]?).elim (.error .indexError) .ok
  let Ts ← (all[i]?).elim (.error .indexError) .ok
  let ws ← (weights[i]?).elim (.error .indexError) .ok
  let gs ← (grads[i]?).elim (.error .indexError) .ok
  let (dX, dC, gs) ← forM' (List.range dirs) (Mat.zeros N X.cols, s.2.1, []) (baseBackDir N dirs nO dG s.1 Ts X ws gs sizes)
  return (dX, dC, gs :: s.2.2)

/-- thinc/backends/ops.py:1508-1602 `backprop_lstm`.  Here the gradients are made from `d_params`, zeros. -/
noncomputable def baseBackward (params : Buf ℝ) (depth dirs nO : Nat) (dY : Mat ℝ) (sizes : List Nat) (X : Mat ℝ) (all : List (List LstmTrace)) :
    Except PyErr (Mat ℝ × List ℝ) := do
  let _ ← firstLength sizes
  let weights ← collectWeights params depth dirs nO X.cols
  let grads ← collectWeights ⟨params.size, fun _ => 0⟩ depth dirs nO X.cols
  let Hs ← (all.take (depth - 1)).mapM (sideBySide X.rows nO)
  let s ← forM' (List.range depth).reverse (dY, Mat.zeros X.rows nO, [])
    (baseBackLayer X.rows dirs nO (Mat.zeros X.rows (nO * 4)) all (X :: Hs) weights grads sizes)
  return (s.1, s.2.2.flatten.flatMap untranspose)

end Thinc
