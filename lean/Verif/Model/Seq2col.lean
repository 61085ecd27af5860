import Verif.Model.Pooling
/-!
# Windows over sequences: `seq2col` and `backprop_seq2col`

The window size `nW` is a natural number (a negative one makes the allocation of the result raise
ValueError).  The checks that the array is two-dimensional, contiguous and of a float type are not
modelled.
-/
namespace Thinc
variable {K : Type}

/-- thinc/backends/numpy_ops.pyx:560-567 `check_seq2col_lengths`. -/
def checkSeq2colLengths (lengths : Option (List Int)) (B : Nat) : Except PyErr (List Int) :=
  match lengths with
  | none => .ok [(B : Int)]
  | some ls =>
    if ¬ ls.all (fun l => decide (0 ≤ l)) then .error .assertionError
    else if ls.sum ≠ B then .error .assertionError
    else .ok ls

/-- cpu_kernels.hh:400-416: the body for one row `j` of the sequence `seqStart .. seqEnd`. -/
def seq2colRow (X : Buf K) (nW I : Nat) (seqStart seqEnd : Int) (out : Buf K) (j : Int) :
    Except PyErr (Buf K) :=
  let nF : Int := nW * 2 + 1
  let windowStart : Int := j - nW
  let windowEnd : Int := j + nW + 1
  let xStart : Int := max seqStart windowStart
  let xEnd : Int := min seqEnd windowEnd
  let nElems : Int := xEnd - xStart
  let outOffset : Int := xStart - windowStart
  memcpy out (j * nF * I + outOffset * I) X (xStart * I) (nElems * I).toNat

/-- thinc/backends/cpu_kernels.hh:355-421 `seq2col`. -/
def cpuSeq2col (out X : Buf K) (lengths : List Int) (nW I : Nat) : Except PyErr (Buf K) := do
  let s ← forM' lengths (out, (0 : Int)) (fun s length => do
    let out ← forN length.toNat s.1 (fun out k => seq2colRow X nW I s.2 (s.2 + length) out (s.2 + k))
    return (out, s.2 + length))
  return s.1

/-- thinc/backends/numpy_ops.pyx:252-290 `NumpyOps.seq2col`. -/
def seq2col [Zero K] (seq : Mat K) (nW : Nat) (lengths : Option (List Int)) : Except PyErr (Mat K) := do
  let ls ← checkSeq2colLengths lengths seq.rows
  let cols := Mat.zeros seq.rows ((2 * nW + 1) * seq.cols)
  if seq.rows * seq.cols ≠ 0 ∧ ls.length ≠ 0 then
    let b ← cpuSeq2col cols.buf seq.buf ls nW seq.cols
    return b.toMat cols.rows cols.cols
  else return cols

/-- cpu_kernels.hh:444-461: the body for one row. -/
def backpropSeq2colRow [Add K] [Mul K] [One K] (dY : Buf K) (nW I : Nat) (seqStart seqEnd : Int)
    (dX : Buf K) (j : Int) : Except PyErr (Buf K) :=
  let nF : Int := nW * 2 + 1
  let windowBegin : Int := j - nW
  let windowEnd : Int := j + nW + 1
  let dBegin : Int := max seqStart windowBegin
  let dEnd : Int := min seqEnd windowEnd
  let nElems : Int := dEnd - dBegin
  let outOffset : Int := dBegin - windowBegin
  vecAdd dX (dBegin * I) dY (j * nF * I + outOffset * I) 1 (nElems * I).toNat

/-- thinc/backends/cpu_kernels.hh:424-466 `backprop_seq2col`. -/
def cpuBackpropSeq2col [Add K] [Mul K] [One K] (dX dY : Buf K) (lengths : List Int) (nW I : Nat) :
    Except PyErr (Buf K) := do
  let s ← forM' lengths (dX, (0 : Int)) (fun s length => do
    let dX ← forN length.toNat s.1 (fun dX k => backpropSeq2colRow dY nW I s.2 (s.2 + length) dX (s.2 + k))
    return (dX, s.2 + length))
  return s.1

/-- thinc/backends/numpy_ops.pyx:292-325 `NumpyOps.backprop_seq2col`. -/
def backpropSeq2col [Semiring K] (dY : Mat K) (nW : Nat) (lengths : Option (List Int)) :
    Except PyErr (Mat K) := do
  let I := dY.cols / (nW * 2 + 1)
  let ls ← checkSeq2colLengths lengths dY.rows
  let dX : Mat K := Mat.zeros dY.rows I
  if dY.rows * dY.cols ≠ 0 ∧ ls.length ≠ 0 then
    let b ← cpuBackpropSeq2col dX.buf dY.buf ls nW I
    return b.toMat dX.rows dX.cols
  else return dX

/-- thinc/backends/ops.py:194-214 `Ops.seq2col` (only `nW = 1` without lengths; rows of positive width), by entries:
`cols[1:, 0] = seq[:-1]`, `cols[:, 1] = seq`, `cols[:-1, 2] = seq[1:]`. -/
def opsSeq2col [Zero K] (seq : Mat K) (nW : Nat) (lengths : Option (List Int)) : Except PyErr (Mat K) :=
  if nW ≠ 1 then .error .assertionError
  else if lengths.isSome then .error .assertionError
  else .ok ⟨seq.rows, seq.cols * 3, fun c =>
    let row := c / (seq.cols * 3)
    let k := c % (seq.cols * 3) / seq.cols
    let i := c % (seq.cols * 3) % seq.cols
    if k = 0 then (if 1 ≤ row then seq.at (row - 1) i else 0)
    else if k = 1 then seq.at row i
    else (if row + 1 < seq.rows then seq.at (row + 1) i else 0)⟩

/-- thinc/backends/ops.py:216-233 `Ops.backprop_seq2col` (only `nW = 1` without lengths), written by
entries: `dX[:-1] += dY3d[1:, :1]`, `dX += dY3d[:, 1]`, `dX[1:] += dY3d[:-1, 2:]`.  The reshape of the
gradient raises ValueError unless its width is a multiple of 3 (or it is empty). -/
def opsBackpropSeq2col [Semiring K] (dY : Mat K) (nW : Nat) (lengths : Option (List Int)) :
    Except PyErr (Mat K) :=
  if nW ≠ 1 then .error .assertionError
  else if lengths.isSome then .error .assertionError
  else if dY.cols % 3 ≠ 0 ∧ dY.rows ≠ 0 then .error .valueError
  else
    let I := dY.cols / 3
    .ok ⟨dY.rows, I, fun c =>
      let row := c / I
      let i := c % I
      (0 + (if row + 1 < dY.rows then dY.at (row + 1) (0 * I + i) else 0)) + dY.at row (1 * I + i) +
        (if 1 ≤ row then dY.at (row - 1) (2 * I + i) else 0)⟩

end Thinc
