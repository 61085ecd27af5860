import Verif.Model.Lstm
import Verif.Model.Ragged
import Verif.Model.Dropout
/-!
# The LSTM layer

Source: thinc/layers/lstm.py:14-156.
-/
namespace Thinc

/-- A matrix from the rows of a ragged array of width `w`. -/
def rowsMat (w : Nat) (rows : List (List ℝ)) : Mat ℝ := ⟨rows.length, w, fun k => (rows.getD (k / w) []).getD (k % w) 0⟩

/-- The rows of a matrix. -/
def matRows (A : Mat ℝ) : List (List ℝ) := (List.range A.rows).map fun i => (List.range A.cols).map (A.at i)

/-- The parameters of the layer: "LSTM" of shape (size,) and "HC0" of shape (2, depth, dirs, nO). -/
structure LstmParams where
  depth : Nat
  dirs : Nat
  nO : Nat
  LSTM : Buf ℝ
  HC0 : Nat → ℝ

/-- thinc/layers/lstm.py:90-107: the number of values appended to `params` for one direction. -/
def lstmDirSize (nH layerNI : Nat) : Nat :=
  nH * layerNI + nH * layerNI + nH * layerNI + nH * layerNI + (nH + nH + nH + nH) +
    (nH * nH + nH * nH + nH * nH + nH * nH) + (nH + nH + nH + nH)

/-- thinc/layers/lstm.py:87-109: the size of the parameter "LSTM" (`layer_nI` is `nI` in the first layer and `nH * dirs` after it). -/
def lstmInitSize (nI nH dirs depth : Nat) : Nat :=
  ((List.range depth).map fun i => dirs * lstmDirSize nH (if i = 0 then nI else nH * dirs)).sum

/-- thinc/layers/lstm.py:112-115: the size asserted. -/
def lstmExpectedSize (nI nH dirs depth : Nat) : Nat :=
  4 * dirs * nH * (nH + nI) + dirs * (8 * nH) + (depth - 1) * (4 * dirs * (nH + nH * dirs) * nH + dirs * (8 * nH))

/-- thinc/layers/lstm.py:125: `H0 = HC0[0]` -/
def LstmParams.H0 (m : LstmParams) : Nat → ℝ := m.HC0

/-- thinc/layers/lstm.py:126: `C0 = HC0[1]` -/
def LstmParams.C0 (m : LstmParams) : Nat → ℝ := fun j => m.HC0 (m.depth * m.dirs * m.nO + j)

/-- thinc/layers/lstm.py:127-134: the weights in use, with the dropout mask when training. -/
noncomputable def LstmParams.weights (m : LstmParams) (train : Bool) (drop : ℝ) (coinflips : Nat → Nat → ℝ) : Buf ℝ :=
  if train then ⟨m.LSTM.size, fun j => m.LSTM.val j * (getDropoutMask 1 m.LSTM.size (some drop) coinflips).at 0 j⟩ else m.LSTM

/-- thinc/layers/lstm.py:143 `assert Y.shape == (Xr.data.shape[0], Y.shape[1])` -/
def assertRows (Y : Mat ℝ) (n : Nat) : Except PyErr Unit := if Y.rows = n then .ok () else .error .assertionError

/-- thinc/layers/lstm.py:118-144, the forward half of `forward`, with NumpyOps: `lstm_forward_training` (thinc/backends/
numpy_ops.pyx:159-170) and `lstm_forward_inference` (172-181) compute the same.  `H0` goes into the parameter `c_init` and `C0`
into the parameter `h_init`.  The second result is `fwd_state` of the training version. -/
noncomputable def lstmPadded (m : LstmParams) (train : Bool) (drop : ℝ) (coinflips : Nat → Nat → ℝ) (Xp : Padded ℝ) :
    Except PyErr (Padded ℝ × List (List LstmTrace)) := do
  let Xr ← paddedToPacked Xp
  let (Y, state) ← lstmForward (m.weights train drop coinflips).val m.H0 m.C0 m.LSTM.size m.depth m.dirs m.nO
    (rowsMat Xr.data.tail.prod Xr.data.rows) Xr.lengths
  let _ ← assertRows Y Xr.data.len
  let Yp ← packedToPadded (Ragged.make ⟨[Y.cols], matRows Y⟩ Xr.lengths) Xp
  return (Yp, state)

end Thinc
