import Verif.Model.CMem
import Verif.Model.Layer
/-!
# LSTM

Sources: thinc/backends/numpy_ops.pyx:636-765 (`NumpyOps`), thinc/backends/ops.py:1432-1648 (the helpers for the weights, and the
version that every other backend inherits).

The counts of active sequences (`lengths`, a packed batch has all rows of the first time step, then all of the second, ...) are
natural numbers.  `sgemm` is the matrix product on flat buffers; reading or writing outside a buffer is the outcome
`outOfBounds`.
-/
namespace Thinc

/-! ### Weights -/

/-- `a[start : start + rows * cols].reshape((rows, cols))` of a one-dimensional array -/
def Buf.slice2 (a : Buf ℝ) (start rows cols : Nat) : Except PyErr (Mat ℝ) :=
  if min (start + rows * cols) a.size - min start a.size = rows * cols then .ok ⟨rows, cols, fun k => a.val (start + k)⟩
  else .error .valueError

/-- The four parts of the parameters of one direction of one layer; the biases are matrices with one row. -/
structure SplitWeights where
  Wx : Mat ℝ
  bx : Mat ℝ
  Wh : Mat ℝ
  bh : Mat ℝ

/-- thinc/backends/ops.py:1605-1618 `_split_weights`; the second result is the new `params_i`. -/
def splitWeights (params : Buf ℝ) (nO nI paramsI : Nat) : Except PyErr (SplitWeights × Nat) := do
  let Wx ← params.slice2 paramsI (4 * nO) nI
  let paramsI := paramsI + 4 * nO * nI
  let bx ← params.slice2 paramsI 1 (4 * nO)
  let paramsI := paramsI + 4 * nO
  let Wh ← params.slice2 paramsI (4 * nO) nO
  let paramsI := paramsI + 4 * nO * nO
  let bh ← params.slice2 paramsI 1 (4 * nO)
  let paramsI := paramsI + 4 * nO
  return (⟨Wx, bx, Wh, bh⟩, paramsI)

/-- `W.reshape((4, -1, W.shape[-1])).transpose((1, 0, 2)).reshape((-1, W.shape[-1]))`; numpy cannot find the `-1` when there are
no columns. -/
def gatesLast (W : Mat ℝ) : Except PyErr (Mat ℝ) :=
  if W.cols = 0 then .error .valueError
  else .ok (Mat.ofFn W.rows W.cols fun k j => W.at ((k % 4) * (W.rows / 4) + k / 4) j)

/-- `b.reshape((4, -1)).transpose((1, 0)).reshape((-1,))` -/
def biasGatesLast (b : Mat ℝ) : Mat ℝ := Mat.ofFn 1 b.cols fun _ k => b.at 0 ((k % 4) * (b.cols / 4) + k / 4)

/-- Transposed weights: thinc/backends/ops.py:1621-1636 `_transpose_weights`. -/
structure GateWeights where
  Wx : Mat ℝ
  Wh : Mat ℝ
  bias : Mat ℝ

/-- thinc/backends/ops.py:1621-1636 `_transpose_weights` -/
noncomputable def transposeWeights (w : SplitWeights) : Except PyErr GateWeights := do
  let Wx ← gatesLast w.Wx
  let bx := biasGatesLast w.bx
  let Wh ← gatesLast w.Wh
  let bh := biasGatesLast w.bh
  let bias ← npBinary (· + ·) bx bh
  return ⟨Wx, Wh, bias⟩

/-! ### One time step -/

/-- `sgemm(cblas)(False, True, M, N, K, one, A, K, B, K, one, C, N)` with pointers `a` into A and `c` into C: adds `A Bᵀ` to C. -/
noncomputable def sgemmNT (M N K : Nat) (A : Buf ℝ) (a : Int) (B : Buf ℝ) (C : Buf ℝ) (c : Int) : Except PyErr (Buf ℝ) :=
  if M = 0 ∨ N = 0 then .ok C
  else if 0 ≤ a ∧ a + M * K ≤ A.size ∧ N * K ≤ B.size ∧ 0 ≤ c ∧ c + M * N ≤ C.size then
    .ok ⟨C.size, fun j => if c.toNat ≤ j ∧ j < c.toNat + M * N then
      C.val j + ∑ k ∈ Finset.range K, A.val (a.toNat + (j - c.toNat) / N * K + k) * B.val ((j - c.toNat) % N * K + k)
      else C.val j⟩
  else .error .outOfBounds

/-- `p[i] = f(p[i])` -/
def Buf.modify (b : Buf ℝ) (i : Int) (f : ℝ → ℝ) : Except PyErr (Buf ℝ) := do
  let x ← b.read i
  b.write i (f x)

/-- `Gt3_ += bias` (thinc/backends/numpy_ops.pyx:749) for the `batch` rows of width `w` from the pointer `g` on. -/
noncomputable def addBiasRows (G : Buf ℝ) (g : Int) (batch w : Nat) (bias : Mat ℝ) : Except PyErr (Buf ℝ) :=
  forN (batch * w) G fun G u => G.modify (g + u) (· + bias.at 0 (u % w))

/-- `1.0 / (1 + expf(-x))`: the three loops of thinc/backends/numpy_ops.pyx:994-1009 on one number. -/
noncomputable def cSigmoid (x : ℝ) : ℝ := 1 / (Real.exp (-x) + 1)

/-- The body of `cpu_lstm_activate_fwd` for the four gates of one unit. -/
noncomputable def activateUnit (g : Int) (gates : Buf ℝ) (u : Nat) : Except PyErr (Buf ℝ) := do
  let gates ← gates.modify (g + 4 * u + 0) cSigmoid
  let gates ← gates.modify (g + 4 * u + 1) cSigmoid
  let gates ← gates.modify (g + 4 * u + 2) cSigmoid
  gates.modify (g + 4 * u + 3) Real.tanh

/-- thinc/backends/numpy_ops.pyx:970-1013 `cpu_lstm_activate_fwd` at the pointer `g`: the four loops over each row are one loop over
all units here. -/
noncomputable def lstmActivate (gates : Buf ℝ) (g : Int) (B N : Nat) : Except PyErr (Buf ℝ) := forN (B * N) gates (activateUnit g)

/-- The body of the loop of `cpu_lstm_gates_fwd`; `h` is the offset of the pointers `hiddens` and `cells`. -/
noncomputable def gatesFwdUnit (h : Int) (gates : Buf ℝ) (g : Int) (prev : Buf ℝ) (s : Buf ℝ × Buf ℝ) (u : Nat) :
    Except PyErr (Buf ℝ × Buf ℝ) := do
  let hf ← gates.read (g + 4 * u + 0)
  let hi ← gates.read (g + 4 * u + 1)
  let ho ← gates.read (g + 4 * u + 2)
  let hc ← gates.read (g + 4 * u + 3)
  let ct2 ← prev.read u
  let ct3 := hf * ct2 + hi * hc
  let hiddens ← s.1.write (h + u) (Real.tanh ct3 * ho)
  let cells ← s.2.write (h + u) ct3
  return (hiddens, cells)

/-- thinc/backends/numpy_ops.pyx:1016-1034 `cpu_lstm_gates_fwd` -/
noncomputable def lstmGatesFwd (hiddens cells : Buf ℝ) (h : Int) (gates : Buf ℝ) (g : Int) (prev : Buf ℝ) (B N : Nat) :
    Except PyErr (Buf ℝ × Buf ℝ) :=
  forN (B * N) (hiddens, cells) (gatesFwdUnit h gates g prev)

/-- The variables of the loop over time in `_lstm_forward_training`. -/
structure LstmState where
  G : Buf ℝ
  Y : Buf ℝ
  C : Buf ℝ
  Yt2 : Buf ℝ
  Ct2 : Buf ℝ
  seq : Int

/-- thinc/backends/numpy_ops.pyx:725-764, the body of the loop over time in `_lstm_forward_training`; `rev` is `d != 0`. -/
noncomputable def lstmStep (rev : Bool) (nO : Nat) (Wh : Buf ℝ) (bias : Mat ℝ) (s : LstmState) (batch : Nat) :
    Except PyErr LstmState := do
  let seq := if rev then s.seq - batch else s.seq
  let G ← sgemmNT batch (nO * 4) nO s.Yt2 0 Wh s.G (seq * (nO * 4 : Nat))
  let G ← addBiasRows G (seq * (nO * 4 : Nat)) batch (nO * 4) bias
  let G ← lstmActivate G (seq * (nO * 4 : Nat)) batch nO
  let (Y, C) ← lstmGatesFwd s.Y s.C (seq * nO) G (seq * (nO * 4 : Nat)) s.Ct2 batch nO
  let Yt2 ← memcpy s.Yt2 0 Y (seq * nO) (batch * nO)
  let Ct2 ← memcpy s.Ct2 0 C (seq * nO) (batch * nO)
  return ⟨G, Y, C, Yt2, Ct2, if rev then seq else seq + batch⟩

/-! ### One direction of one layer -/

/-- What the forward pass keeps of one direction: the arrays `Y[i, d]`, `G[i, d]` and `C[i, d]`. -/
structure LstmTrace where
  Y : Buf ℝ
  G : Buf ℝ
  C : Buf ℝ

/-- thinc/backends/numpy_ops.pyx:698-764 `_lstm_forward_training`.  `hInit` and `cInit` are the rows `h_init[i, d]` and
`c_init[i, d]`, written into every row of `Yt2` and `Ct2` before (670-671), which have `lengths[0]` rows (647, 652-653). -/
noncomputable def lstmDirection (rev : Bool) (nO : Nat) (X : Mat ℝ) (w : GateWeights) (hInit cInit : Nat → ℝ) (lengths : List Nat) :
    Except PyErr LstmTrace := do
  let batch ← lengths.head?.elim (.error .indexError) .ok
  let Yt2 : Buf ℝ := ⟨batch * nO, fun j => hInit (j % nO)⟩
  let Ct2 : Buf ℝ := ⟨batch * nO, fun j => cInit (j % nO)⟩
  let G ← sgemmNT X.rows (nO * 4) X.cols X.buf 0 w.Wx.buf ⟨X.rows * (nO * 4), fun _ => 0⟩ 0
  let s ← forM' (if rev then lengths.reverse else lengths)
    ⟨G, ⟨X.rows * nO, fun _ => 0⟩, ⟨X.rows * nO, fun _ => 0⟩, Yt2, Ct2, if rev then X.rows else 0⟩
    (lstmStep rev nO w.Wh.buf w.bias)
  return ⟨s.Y, s.G, s.C⟩

/-! ### All layers -/

/-- thinc/backends/numpy_ops.pyx:667-690, the body of the loop over the directions.  The initial values have the shape (depth, dirs,
nO).  The state is `params_i` and the arrays of the directions done. -/
noncomputable def lstmDir (params : Buf ℝ) (hInit cInit : Nat → ℝ) (dirs nO : Nat) (X : Mat ℝ) (lengths : List Nat) (i : Nat)
    (s : Nat × List LstmTrace) (d : Nat) : Except PyErr (Nat × List LstmTrace) := do
  let (w, paramsI) ← splitWeights params nO X.cols s.1
  let w ← transposeWeights w
  let T ← lstmDirection (d ≠ 0) nO X w (fun o => hInit ((i * dirs + d) * nO + o)) (fun o => cInit ((i * dirs + d) * nO + o)) lengths
  return (paramsI, s.2 ++ [T])

/-- `Y[i].transpose((1, 0, 2)).reshape((N, -1))`: the outputs of the directions side by side; numpy cannot find the `-1` when there
are no rows. -/
noncomputable def sideBySide (N nO : Nat) (Ts : List LstmTrace) : Except PyErr (Mat ℝ) :=
  if N = 0 then .error .valueError
  else .ok (Mat.ofFn N (Ts.length * nO) fun n k => (Ts.map fun T => T.Y.val (n * nO + k % nO)).getD (k / nO) 0)

/-- thinc/backends/numpy_ops.pyx:665-694, the body of the loop over the layers.  The state is the input of the layer, `params_i` and
what is kept. -/
noncomputable def lstmLayerStep (params : Buf ℝ) (hInit cInit : Nat → ℝ) (dirs nO : Nat) (lengths : List Nat)
    (s : Mat ℝ × Nat × List (List LstmTrace)) (i : Nat) : Except PyErr (Mat ℝ × Nat × List (List LstmTrace)) := do
  let (paramsI, Ts) ← forM' (List.range dirs) (s.2.1, []) (lstmDir params hInit cInit dirs nO s.1 lengths i)
  let H ← sideBySide s.1.rows nO Ts
  return (H, paramsI, s.2.2 ++ [Ts])

/-- thinc/backends/numpy_ops.pyx:636-695 `lstm_forward_training`.  `depth`, `dirs` and `nO` are the shape of `c_init`; `depth` is not
0 (the layer rejects it). -/
noncomputable def lstmForward (params cInit hInit : Nat → ℝ) (size depth dirs nO : Nat) (X : Mat ℝ) (lengths : List Nat) :
    Except PyErr (Mat ℝ × List (List LstmTrace)) := do
  let s ← forM' (List.range depth) (X, 0, []) (lstmLayerStep ⟨size, params⟩ hInit cInit dirs nO lengths)
  return (s.1, s.2.2)

end Thinc
