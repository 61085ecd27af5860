import Verif.Model.CMem
import Mathlib.Order.Defs.LinearOrder
/-!
# Pooling over sequences: sum, mean, max, first, last

Sources: thinc/backends/cpu_kernels.hh:147-338, thinc/backends/numpy_ops.pyx:338-482 (class
`NumpyOps`), thinc/backends/ops.py:1221-1349 (class `Ops`, used by the other backends; `NumpyOps`
inherits `reduce_first` and `reduce_last`).

C++ `std::invalid_argument` and `std::out_of_range` become ValueError and IndexError
(numpy_ops.pxd, `except +`).  `&X[0, 0]` on a memoryview without elements raises IndexError (Cython
checks bounds by default).
-/
namespace Thinc
variable {K : Type}

/-! ### Sum and mean -/

/-- The variables of the loop in `cpu_reduce_sum` / `cpu_reduce_mean`: the output buffer, the two
moving pointers, and the number of rows left. -/
structure ReduceState (K : Type) where
  out : Buf K
  outPtr : Int
  xPtr : Int
  T : Int

section
variable [Field K]

/-- cpu_kernels.hh:213-234 and 299-319: the body for one length.  The test `length == 0` compares
the pointer and is never true. -/
def reduceStep (scale : Int → K) (X : Buf K) (O : Nat) (s : ReduceState K) (length : Int) :
    Except PyErr (ReduceState K) :=
  if length < 0 then .error .valueError
  else if length > s.T then .error .indexError
  else do
    let (out, xPtr) ← forN length.toNat (s.out, s.xPtr) (fun p _ => do
      let out ← vecAdd p.1 s.outPtr X p.2 (scale length) O
      return (out, p.2 + O))
    return ⟨out, s.outPtr + O, xPtr, s.T - length⟩

/-- thinc/backends/cpu_kernels.hh:292-320 `cpu_reduce_sum`. -/
def cpuReduceSum (sums X : Buf K) (lengths : List Int) (T O : Nat) : Except PyErr (Buf K) := do
  let s ← forM' lengths ⟨sums, 0, 0, T⟩ (reduceStep (fun _ => 1) X O)
  return s.out

/-- thinc/backends/cpu_kernels.hh:206-235 `cpu_reduce_mean`; `scale = 1. / length`. -/
def cpuReduceMean (means X : Buf K) (lengths : List Int) (T O : Nat) : Except PyErr (Buf K) := do
  let s ← forM' lengths ⟨means, 0, 0, T⟩ (reduceStep (fun l => 1 / (l : K)) X O)
  return s.out

/-- cpu_kernels.hh:245-253 and 330-337: the body of the backprop loops for one length; the state is
the output buffer and the two pointers. -/
def backReduceStep (scale : Int → K) (d : Buf K) (O : Nat) (s : Buf K × Int × Int) (length : Int) :
    Except PyErr (Buf K × Int × Int) := do
  let (dX, xPtr) ← forN length.toNat (s.1, s.2.1) (fun p _ => do
    let dX ← vecAdd p.1 p.2 d s.2.2 (scale length) O
    return (dX, p.2 + O))
  return (dX, xPtr, s.2.2 + O)

/-- thinc/backends/cpu_kernels.hh:323-338 `cpu_backprop_reduce_sum`. -/
def cpuBackpropReduceSum (dX d : Buf K) (lengths : List Int) (O : Nat) : Except PyErr (Buf K) := do
  let s ← forM' lengths (dX, 0, 0) (backReduceStep (fun _ => 1) d O)
  return s.1

/-- thinc/backends/cpu_kernels.hh:238-254 `cpu_backprop_reduce_mean`. -/
def cpuBackpropReduceMean (dX d : Buf K) (lengths : List Int) (O : Nat) : Except PyErr (Buf K) := do
  let s ← forM' lengths (dX, 0, 0) (backReduceStep (fun l => 1 / (l : K)) d O)
  return s.1

omit [Field K] in
/-- `&X[0, 0]`, numpy_ops.pyx. -/
def Mat.pointer (X : Mat K) : Except PyErr (Buf K) :=
  if X.rows = 0 ∨ X.cols = 0 then .error .indexError else .ok X.buf

/-- thinc/backends/numpy_ops.pyx:385-404 `NumpyOps.reduce_sum`. -/
def reduceSum (X : Mat K) (lengths : List Int) : Except PyErr (Mat K) :=
  if lengths.length = 0 ∨ X.cols = 0 then .ok (Mat.zeros lengths.length X.cols)
  else do
    let x ← X.pointer
    let b ← cpuReduceSum (Mat.zeros lengths.length X.cols).buf x lengths X.rows X.cols
    return b.toMat lengths.length X.cols

/-- thinc/backends/numpy_ops.pyx:338-357 `NumpyOps.reduce_mean`. -/
def reduceMean (X : Mat K) (lengths : List Int) : Except PyErr (Mat K) :=
  if lengths.length = 0 ∨ X.cols = 0 then .ok (Mat.zeros lengths.length X.cols)
  else do
    let x ← X.pointer
    let b ← cpuReduceMean (Mat.zeros lengths.length X.cols).buf x lengths X.rows X.cols
    return b.toMat lengths.length X.cols

omit [Field K] in
/-- numpy_ops.pyx:364-367 (and 411-414): sum up the lengths, rejecting negative ones. -/
def sumLengths (lengths : List Int) : Except PyErr Int :=
  forM' lengths 0 (fun T length => if length < 0 then .error .valueError else .ok (T + length))

/-- thinc/backends/numpy_ops.pyx:406-430 `NumpyOps.backprop_reduce_sum`. -/
def backpropReduceSum (d : Mat K) (lengths : List Int) : Except PyErr (Mat K) := do
  let T ← sumLengths lengths
  if T = 0 ∨ d.cols = 0 then return Mat.zeros T.toNat d.cols
  let p ← d.pointer
  let b ← cpuBackpropReduceSum (Mat.zeros T.toNat d.cols).buf p lengths d.cols
  return b.toMat T.toNat d.cols

/-- thinc/backends/numpy_ops.pyx:359-383 `NumpyOps.backprop_reduce_mean`. -/
def backpropReduceMean (d : Mat K) (lengths : List Int) : Except PyErr (Mat K) := do
  let T ← sumLengths lengths
  if T = 0 ∨ d.cols = 0 then return Mat.zeros T.toNat d.cols
  let p ← d.pointer
  let b ← cpuBackpropReduceMean (Mat.zeros T.toNat d.cols).buf p lengths d.cols
  return b.toMat T.toNat d.cols

end

/-! ### Max -/

section
variable [LinearOrder K]

/-- cpu_kernels.hh:168-173: `if (X__to[j] > maxes__bo[j])`. -/
def maxStep (X : Buf K) (xPtr outPtr : Int) (i : Nat) (s : Buf K × Buf Int) (j : Nat) :
    Except PyErr (Buf K × Buf Int) := do
  let x ← X.read (xPtr + j)
  let m ← s.1.read (outPtr + j)
  if x > m then
    let maxes ← s.1.write (outPtr + j) x
    let which ← s.2.write (outPtr + j) (i : Int)
    return (maxes, which)
  else return s

/-- The variables of the loop in `cpu_reduce_max`. -/
structure MaxState (K : Type) where
  maxes : Buf K
  which : Buf Int
  outPtr : Int
  xPtr : Int
  T : Int

/-- cpu_kernels.hh:155-178: the body for one length. -/
def reduceMaxStep (X : Buf K) (O : Nat) (s : MaxState K) (length : Int) :
    Except PyErr (MaxState K) :=
  if length ≤ 0 then .error .valueError
  else if length > s.T then .error .indexError
  else do
    let maxes ← memcpy s.maxes s.outPtr X s.xPtr O
    let (maxes, which, xPtr) ← forN (length.toNat - 1) (maxes, s.which, s.xPtr + O) (fun p k => do
      let (maxes, which) ← forN O (p.1, p.2.1) (maxStep X p.2.2 s.outPtr (k + 1))
      return (maxes, which, p.2.2 + O))
    return ⟨maxes, which, s.outPtr + O, xPtr, s.T - length⟩

/-- thinc/backends/cpu_kernels.hh:148-179 `cpu_reduce_max`. -/
def cpuReduceMax (maxes : Buf K) (which : Buf Int) (X : Buf K) (lengths : List Int) (T O : Nat) :
    Except PyErr (Buf K × Buf Int) := do
  let s ← forM' lengths ⟨maxes, which, 0, 0, T⟩ (reduceMaxStep X O)
  return (s.maxes, s.which)

/-- thinc/backends/numpy_ops.pyx:432-454 `NumpyOps.reduce_max`.  `junk` is what the uninitialised
`maxes` happens to hold. -/
def reduceMax [Zero K] (junk : Nat → K) (X : Mat K) (lengths : List Int) :
    Except PyErr (Mat K × Mat Int) :=
  if lengths.length = 0 ∨ X.cols = 0 then
    .ok (Mat.zeros lengths.length X.cols, Mat.zeros lengths.length X.cols)
  else do
    let x ← X.pointer
    let (maxes, which) ← cpuReduceMax ⟨lengths.length * X.cols, junk⟩
      (Mat.zeros lengths.length X.cols).buf x lengths X.rows X.cols
    return (maxes.toMat lengths.length X.cols, which.toMat lengths.length X.cols)

end

/-- cpu_kernels.hh:189-202: the body of `cpu_backprop_reduce_max` for one length; the state is the
output buffer, its pointer and the (equal) pointers into the gradient and `which`. -/
def backMaxStep (d : Buf K) (which : Buf Int) (O : Nat) (s : Buf K × Int × Int) (length : Int) :
    Except PyErr (Buf K × Int × Int) := do
  let dX ← forN O s.1 (fun dX i => do
    let item ← which.read (s.2.2 + i)
    if item ≥ length then .error .indexError
    else
      let g ← d.read (s.2.2 + i)
      dX.write (s.2.1 + item * O + i) g)
  return (dX, s.2.1 + length * O, s.2.2 + O)

/-- thinc/backends/cpu_kernels.hh:182-203 `cpu_backprop_reduce_max`. -/
def cpuBackpropReduceMax (dX d : Buf K) (which : Buf Int) (lengths : List Int) (O : Nat) :
    Except PyErr (Buf K) := do
  let s ← forM' lengths (dX, 0, 0) (backMaxStep d which O)
  return s.1

/-- numpy_ops.pyx:461-464: sum up the lengths, rejecting those that are not positive. -/
def sumPosLengths (lengths : List Int) : Except PyErr Int :=
  forM' lengths 0 (fun T length => if length ≤ 0 then .error .valueError else .ok (T + length))

/-- thinc/backends/numpy_ops.pyx:456-482 `NumpyOps.backprop_reduce_max`. -/
def backpropReduceMax [Zero K] (d : Mat K) (which : Mat Int) (lengths : List Int) :
    Except PyErr (Mat K) := do
  let T ← sumPosLengths lengths
  if T = 0 ∨ d.cols = 0 then return Mat.zeros T.toNat d.cols
  let p ← d.pointer
  let w ← which.pointer
  let b ← cpuBackpropReduceMax (Mat.zeros T.toNat d.cols).buf p w lengths d.cols
  return b.toMat T.toNat d.cols

/-! ### First and last -/

/-- `lengths.cumsum()`, starting from `off`. -/
def cumsumInt (off : Int) : List Int → List Int
  | [] => []
  | l :: ls => (off + l) :: cumsumInt (off + l) ls

/-- `X[is]` for an index array: IndexError outside `-n .. n - 1`. -/
def Mat.takeRows (X : Mat K) (is : List Int) : Except PyErr (Mat K) :=
  if is.all (fun i => decide (-(X.rows : Int) ≤ i ∧ i < X.rows)) then
    .ok ⟨is.length, X.cols, fun k =>
      let i := is.getD (k / X.cols) 0
      X.at (if i < 0 then i + (X.rows : Int) else i).toNat (k % X.cols)⟩
  else .error .indexError

/-- `X[is] = d` for an index array and as many rows: the rows are written in order (the last one
wins).  NumPy would also repeat a single row; that is a ValueError here. -/
def Mat.putRows (X : Mat K) (is : List Int) (d : Mat K) : Except PyErr (Mat K) :=
  if is.length ≠ d.rows ∨ X.cols ≠ d.cols then .error .valueError
  else if is.all (fun i => decide (-(X.rows : Int) ≤ i ∧ i < X.rows)) then
    .ok (is.zipIdx.foldl (fun Y p =>
      let i : Nat := (if p.1 < 0 then p.1 + (X.rows : Int) else p.1).toNat
      ⟨Y.rows, Y.cols, fun k => if k / X.cols = i then d.at p.2 (k % X.cols) else Y.val k⟩) X)
  else .error .indexError

/-- thinc/backends/ops.py:1236-1248 `Ops.reduce_first`. -/
def reduceFirst [Zero K] (X : Mat K) (lengths : List Int) : Except PyErr (Mat K × List Int) :=
  if lengths.length = 0 then .ok (Mat.zeros 0 X.cols, lengths)
  else if ¬ lengths.all (fun l => decide (l > 0)) then .error .valueError
  else
    let startsEnds := 0 :: cumsumInt 0 lengths
    if startsEnds.getLastD 0 ≠ X.rows then .error .indexError
    else do
      let Y ← X.takeRows startsEnds.dropLast
      return (Y, startsEnds)

/-- thinc/backends/ops.py:1249-1257 `Ops.reduce_last`. -/
def reduceLast [Zero K] (X : Mat K) (lengths : List Int) : Except PyErr (Mat K × List Int) :=
  if lengths.length = 0 then .ok (Mat.zeros 0 X.cols, lengths)
  else if ¬ lengths.all (fun l => decide (l > 0)) then .error .valueError
  else
    let lasts : List Int := (cumsumInt 0 lengths).map (fun x => x - 1)
    if lasts.getLastD 0 + 1 ≠ X.rows then .error .indexError
    else do
      let Y ← X.takeRows lasts
      return (Y, lasts)

/-- thinc/backends/ops.py:1289-1300 `Ops.backprop_reduce_first`. -/
def backpropReduceFirst [Zero K] (d : Mat K) (startsEnds : List Int) : Except PyErr (Mat K) :=
  match startsEnds with
  | [] => .ok (Mat.zeros 0 d.cols)
  | [_] => .error .valueError
  | s :: e :: es =>
    (Mat.zeros ((s :: e :: es).getLastD 0).toNat d.cols).putRows (s :: e :: es).dropLast d

/-- thinc/backends/ops.py:1302-1309 `Ops.backprop_reduce_last`. -/
def backpropReduceLast [Zero K] (d : Mat K) (lasts : List Int) : Except PyErr (Mat K) :=
  match lasts with
  | [] => .ok (Mat.zeros 0 d.cols)
  | l :: ls => (Mat.zeros ((l :: ls).getLastD 0 + 1).toNat d.cols).putRows (l :: ls) d

/-! ### The generic backend

`start` is the running offset; rows of the uninitialised result hold `junk` until they are
written. -/

/-- `Y[i] = row`. -/
def Mat.setRow (Y : Mat K) (i : Nat) (row : Nat → K) : Mat K :=
  ⟨Y.rows, Y.cols, fun k => if k / Y.cols = i then row (k % Y.cols) else Y.val k⟩

/-- Column `o` of `X[start : start + length]`. -/
def Mat.colSlice (X : Mat K) (start length : Nat) (o : Nat) : List K :=
  (List.range length).map (fun t => X.at (start + t) o)

/-- The loop of `Ops.reduce_sum`, `Ops.reduce_mean` (ops.py:1224-1234, 1262-1272): `agg` is
`.sum(axis=0)` or `.mean(axis=0)` of a non-empty slice. -/
def opsReduceLoop [Zero K] (agg : List K → K) (X : Mat K) :
    List Int → Nat → Int → Mat K → Except PyErr (Mat K)
  | [], _, _, Y => .ok Y
  | length :: rest, i, start, Y =>
    if length < 0 then .error .valueError
    else if start + length > X.rows then .error .indexError
    else if length ≠ 0 then
      opsReduceLoop agg X rest (i + 1) (start + length)
        (Y.setRow i (fun o => agg (X.colSlice start.toNat length.toNat o)))
    else opsReduceLoop agg X rest (i + 1) (start + length) (Y.setRow i (fun _ => 0))

/-- thinc/backends/ops.py:1221-1234 `Ops.reduce_sum`. -/
def opsReduceSum [AddMonoid K] (junk : Nat → K) (X : Mat K) (lengths : List Int) : Except PyErr (Mat K) :=
  opsReduceLoop List.sum X lengths 0 0 ⟨lengths.length, X.cols, junk⟩

/-- thinc/backends/ops.py:1259-1272 `Ops.reduce_mean`. -/
def opsReduceMean [Field K] (junk : Nat → K) (X : Mat K) (lengths : List Int) : Except PyErr (Mat K) :=
  opsReduceLoop (fun c => c.sum / (c.length : K)) X lengths 0 0 ⟨lengths.length, X.cols, junk⟩

/-- `X[start : start + length].argmax(axis=0)` in one column: the first largest entry. -/
def listArgmax [LinearOrder K] : List K → Nat
  | [] => 0
  | x :: xs => (xs.zipIdx 1).foldl (fun (p : K × Nat) q => if q.1 > p.1 then q else p) (x, 0) |>.2

/-- thinc/backends/ops.py:1274-1288 `Ops.reduce_max`. -/
def opsReduceMaxLoop [LinearOrder K] (X : Mat K) :
    List Int → Nat → Int → Mat K → Mat Int → Except PyErr (Mat K × Mat Int)
  | [], _, _, Y, W => .ok (Y, W)
  | length :: rest, i, start, Y, W =>
    if length ≤ 0 then .error .valueError
    else if start + length > X.rows then .error .indexError
    else
      let w := fun o => listArgmax (X.colSlice start.toNat length.toNat o)
      opsReduceMaxLoop X rest (i + 1) (start + length)
        (Y.setRow i (fun o => X.at (start.toNat + w o) o)) (W.setRow i (fun o => (w o : Int)))

/-- thinc/backends/ops.py:1274-1288 `Ops.reduce_max`. -/
def opsReduceMax [LinearOrder K] (junk : Nat → K) (junkW : Nat → Int) (X : Mat K) (lengths : List Int) :
    Except PyErr (Mat K × Mat Int) :=
  opsReduceMaxLoop X lengths 0 0 ⟨lengths.length, X.cols, junk⟩ ⟨lengths.length, X.cols, junkW⟩

/-- ops.py:1339-1348: one `put_along_axis` per sequence, `IndexError` for an index outside the
sequence (negative ones count from its end) or past the last gradient row. -/
def opsBackpropMaxLoop (d : Mat K) (which : Mat Int) :
    List Int → Nat → Int → Mat K → Except PyErr (Mat K)
  | [], _, _, dX => .ok dX
  | length :: rest, i, start, dX =>
    if length ≤ 0 then .error .valueError
    else if ¬ (i < d.rows ∧ i < which.rows) then .error .indexError
    else if ¬ (List.range d.cols).all (fun o => decide (-length ≤ which.at i o ∧ which.at i o < length)) then
      .error .indexError
    else opsBackpropMaxLoop d which rest (i + 1) (start + length)
      ⟨dX.rows, dX.cols, fun k =>
        let w := which.at i (k % dX.cols)
        if (k / dX.cols : Nat) = start + (if w < 0 then w + length else w)
        then d.at i (k % dX.cols) else dX.val k⟩

/-- thinc/backends/ops.py:1335-1349 `Ops.backprop_reduce_max`. -/
def opsBackpropReduceMax [Zero K] (d : Mat K) (which : Mat Int) (lengths : List Int) :
    Except PyErr (Mat K) :=
  if lengths.sum < 0 then .error .valueError
  else opsBackpropMaxLoop d which lengths 0 0 (Mat.zeros lengths.sum.toNat d.cols)

/-- ops.py:1316-1321, 1328-1333: `dX[start : start + length] = f(d[i])`; `IndexError` past the last
gradient row. -/
def opsBackpropLoop (f : Int → K → K) (d : Mat K) :
    List Int → Nat → Int → Mat K → Except PyErr (Mat K)
  | [], _, _, dX => .ok dX
  | length :: rest, i, start, dX =>
    if length < 0 then .error .valueError
    else if ¬ i < d.rows then .error .indexError
    else opsBackpropLoop f d rest (i + 1) (start + length)
      ⟨dX.rows, dX.cols, fun k => if start.toNat ≤ k / dX.cols ∧ k / dX.cols < (start + length).toNat
        then f length (d.at i (k % dX.cols)) else dX.val k⟩

/-- thinc/backends/ops.py:1311-1321 `Ops.backprop_reduce_sum`.  A negative sum of lengths makes the
allocation raise ValueError. -/
def opsBackpropReduceSum (junk : Nat → K) (d : Mat K) (lengths : List Int) : Except PyErr (Mat K) :=
  if lengths.sum < 0 then .error .valueError
  else opsBackpropLoop (fun _ x => x) d lengths 0 0 ⟨lengths.sum.toNat, d.cols, junk⟩

/-- thinc/backends/ops.py:1323-1333 `Ops.backprop_reduce_mean`. -/
def opsBackpropReduceMean [Field K] (junk : Nat → K) (d : Mat K) (lengths : List Int) : Except PyErr (Mat K) :=
  if lengths.sum < 0 then .error .valueError
  else opsBackpropLoop (fun l x => x / (l : K)) d lengths 0 0 ⟨lengths.sum.toNat, d.cols, junk⟩

end Thinc
