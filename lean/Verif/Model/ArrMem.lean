import Verif.Model.SeqLayers
/-!
# Layers on arrays in memory

`Verif.Model.Layer` has immutable values.  Here an array is a reference to memory that others may refer to as well: an in-place operation
is seen by everyone who holds the array, slices of an array are views, and a callback reads what the arrays it has kept contain when it is
called.  (`Verif.Model.LayerHeap` is an earlier, simpler version for arrays of one shape, without parameters and exceptions.)

Python lists, tuples, `Ragged` and `Padded` objects are values whose arrays are references; integer arrays are values.  Parameter
gradients are values as well: `inc_grad` copies the array it is given, see `Verif.Model.GradBuf`.
-/
namespace Thinc.Shared

/-- The memory.  `params p` are the contents of the array of parameter `p`; the other arrays have addresses, of which those below `next`
are in use. -/
structure ArrMem where
  params : ParamVals
  cell : Nat → Mat ℝ
  next : Nat

/-- A new array. -/
def ArrMem.alloc (m : ArrMem) (A : Mat ℝ) : Nat × ArrMem :=
  (m.next, { m with cell := fun a => if a = m.next then A else m.cell a, next := m.next + 1 })

/-- A basic slice of a two-dimensional array, or another view of it. -/
inductive ArrSlice where
  /-- `A[start:stop]` -/
  | rows (start stop : Nat)
  /-- `A[:, start:stop]` -/
  | cols (start stop : Nat)
  /-- `A[start:stop][pad:]`, a part of thinc/backends/ops.py:364-379 `Ops.unflatten`. -/
  | part (start stop pad : Nat)
  /-- The whole array, `A.reshape((-1,) + shape)` for its own shape: thinc/types.py:1188-1194 `Ragged.dataXd`. -/
  | whole
  /-- The array as the data of a `Ragged`, `A.reshape((-1, A.shape[1]))`, or an empty array of shape (0, 0): thinc/types.py:1179-1187
  `Ragged.__init__`. -/
  | raggedData
  /-- `data.transpose((1, 0, 2))[i, :n]` for `data` of shape (`steps`, `batch`, width): a sequence of a `Padded`, thinc/backends/ops.py:480-482 -/
  | seqPart (steps batch i n : Nat)
  /-- `A.reshape((A.shape[0], 1, A.shape[1]))`: a sequence as the data of a `Padded`, thinc/backends/ops.py:438 -/
  | cells

/-- What the slice shows. -/
def ArrSlice.get : ArrSlice → Mat ℝ → Mat ℝ
  | .rows start stop, A => A.rowBlock start stop
  | .cols start stop, A => A.colBlock start stop
  | .part start stop pad, A => ((A.toArr.slice start stop).slice pad (A.toArr.slice start stop).len).toMat
  | .whole, A => A.toArr.toMat
  | .raggedData, A => (Ragged.make A.toArr []).data.toMat
  | .seqPart steps batch i n, A => ((A.toArr3 steps batch).transpose.rowTake i n).toMat
  | .cells, A => (⟨A.toArr.len, 1, [A.cols], A.toArr.rows.map fun r => [r]⟩ : Arr3 ℝ).toMat

/-- `A[start:stop] = B`, `A[:, start:stop] = B` and so on, with a `B` of the same shape -/
def ArrSlice.put : ArrSlice → Mat ℝ → Mat ℝ → Mat ℝ
  | .rows start stop, A, B => Mat.ofFn A.rows A.cols fun i j => if start ≤ i ∧ i < stop then B.at (i - start) j else A.at i j
  | .cols start stop, A, B => Mat.ofFn A.rows A.cols fun i j => if start ≤ j ∧ j < stop then B.at i (j - start) else A.at i j
  | .part start stop pad, A, B =>
    Mat.ofFn A.rows A.cols fun i j => if start + pad ≤ i ∧ i < stop then B.at (i - (start + pad)) j else A.at i j
  | .whole, _, B => B
  | .raggedData, A, B => if A.rows * A.cols = 0 then A else B
  | .seqPart _ batch i n, A, B => Mat.ofFn A.rows A.cols fun k j => if k % batch = i ∧ k / batch < n then B.at (k / batch) j else A.at k j
  | .cells, _, B => B

/-- A slice of a slice of ... `A`, overwritten. -/
def putPath : List ArrSlice → Mat ℝ → Mat ℝ → Mat ℝ
  | [], _, B => B
  | s :: path, A, B => s.put A (putPath path (s.get A) B)

/-- A Python array object: an array in memory, or a view of it (a slice of a slice of ...). -/
structure ArrRef where
  addr : Nat
  path : List ArrSlice := []

/-- The contents of an array. -/
def ArrRef.get (m : ArrMem) (r : ArrRef) : Mat ℝ := r.path.foldl (fun A s => s.get A) (m.cell r.addr)

/-- `A[...] = B` -/
def ArrRef.put (m : ArrMem) (r : ArrRef) (B : Mat ℝ) : ArrMem :=
  { m with cell := fun a => if a = r.addr then putPath r.path (m.cell a) B else m.cell a }

/-- A slice of an array is a view. -/
def ArrRef.slice (r : ArrRef) (s : ArrSlice) : ArrRef := ⟨r.addr, r.path ++ [s]⟩

/-- `A.flags["C_CONTIGUOUS"]` (NumPy, relaxed strides; arrays in memory are contiguous): rows follow each other in memory if there is at
most one, or nothing in them, or if they are whole rows. -/
def ArrRef.Contiguous (m : ArrMem) (r : ArrRef) : Prop :=
  (r.get m).rows ≤ 1 ∨ (r.get m).cols = 0 ∨ (r.get m).cols = (m.cell r.addr).cols

open Classical in
/-- thinc/backends/ops.py:763-773 `Ops.as_contig`, without `dtype`: a contiguous array is returned as it is. -/
noncomputable def asContig (r : ArrRef) (m : ArrMem) : ArrRef × ArrMem :=
  if r.Contiguous m then (r, m) else (⟨(m.alloc (r.get m)).1, []⟩, (m.alloc (r.get m)).2)

/-- What a layer takes and gives, see `Thinc.Val`. -/
inductive RVal where
  | arr (r : ArrRef)
  | ragged (r : ArrRef) (lengths : List Nat)
  | padded (r : ArrRef) (steps : Nat) (sizeAtT lengths indices : List Nat)
  | ints (ks : List Int)
  | intMat (A : Mat Int)
  | list (vs : List RVal)
  | tup (vs : List RVal)

mutual
/-- The contents of a value. -/
def RVal.read (m : ArrMem) : RVal → Val
  | .arr r => .arr (r.get m)
  | .ragged r lengths => .ragged (r.get m) lengths
  | .padded r steps sizeAtT lengths indices => .padded (r.get m) steps sizeAtT lengths indices
  | .ints ks => .ints ks
  | .intMat A => .intMat A
  | .list vs => .list (RVal.readAll m vs)
  | .tup vs => .tup (RVal.readAll m vs)
/-- The contents of some values. -/
def RVal.readAll (m : ArrMem) : List RVal → List Val
  | [] => []
  | v :: vs => RVal.read m v :: RVal.readAll m vs
end

mutual
/-- The arrays of a value. -/
def RVal.refs : RVal → List ArrRef
  | .arr r => [r]
  | .ragged r _ => [r]
  | .padded r _ _ _ _ => [r]
  | .ints _ => []
  | .intMat _ => []
  | .list vs => RVal.refsAll vs
  | .tup vs => RVal.refsAll vs
/-- The arrays of some values. -/
def RVal.refsAll : List RVal → List ArrRef
  | [] => []
  | v :: vs => RVal.refs v ++ RVal.refsAll vs
end

/-- The array that a value is or has as its `data`. -/
def RVal.top : RVal → List ArrRef
  | .arr r => [r]
  | .ragged r _ => [r]
  | .padded r _ _ _ _ => [r]
  | _ => []

mutual
/-- A value in new arrays. -/
def RVal.fresh (m : ArrMem) : Val → RVal × ArrMem
  | .arr A => (.arr ⟨(m.alloc A).1, []⟩, (m.alloc A).2)
  | .ragged A lengths => (.ragged ⟨(m.alloc A).1, []⟩ lengths, (m.alloc A).2)
  | .padded A steps sizeAtT lengths indices => (.padded ⟨(m.alloc A).1, []⟩ steps sizeAtT lengths indices, (m.alloc A).2)
  | .ints ks => (.ints ks, m)
  | .intMat A => (.intMat A, m)
  | .list vs => (.list (RVal.freshAll m vs).1, (RVal.freshAll m vs).2)
  | .tup vs => (.tup (RVal.freshAll m vs).1, (RVal.freshAll m vs).2)
/-- Some values in new arrays. -/
def RVal.freshAll (m : ArrMem) : List Val → List RVal × ArrMem
  | [] => ([], m)
  | v :: vs => ((RVal.fresh m v).1 :: (RVal.freshAll (RVal.fresh m v).2 vs).1, (RVal.freshAll (RVal.fresh m v).2 vs).2)
end

/-- A `backprop` callback. -/
abbrev MCallback := RVal → ArrMem → GradStore → Except PyErr (RVal × ArrMem × GradStore)

/-- thinc/model.py:307-310 `Model.__call__`: the forward function of a model. -/
abbrev MLayer := Bool → RVal → ArrMem → Except PyErr (RVal × MCallback × ArrMem)

/-! ### Layers that put their results into new arrays -/

/-- A forward and a backward pass without in-place operations on anything but new arrays.  `Saved` is what the callback keeps apart from
the parameters, the input and the output: arrays that no one else holds.  `bwd saved P X Y` is the callback if it is called when the
parameters, the input and the output of the layer contain `P`, `X` and `Y`. -/
structure Body (Saved : Type) where
  fwd : Bool → ParamVals → Val → Except PyErr (Val × Saved)
  bwd : Saved → ParamVals → Val → Val → Callback

/-- The layer: the callback reads the arrays when it is called. -/
noncomputable def Body.layer {Saved : Type} (b : Body Saved) : MLayer := fun train X m => do
  let (Y, saved) ← b.fwd train m.params (X.read m)
  let out := RVal.fresh m Y
  let backprop : MCallback := fun dY m G => do
    let (d, G) ← b.bwd saved m.params (X.read m) (out.1.read m) (dY.read m) G
    return ((RVal.fresh m d).1, (RVal.fresh m d).2, G)
  return (out.1, backprop, out.2)

/-- thinc/layers/linear.py:35-46 `forward`: the callback keeps `X` and `W`. -/
noncomputable def linearBody (W b : Nat) : Body Unit where
  fwd := fun _ P X => do
    let X ← X.asArr
    let Y ← gemm X (P W) false true
    return (.arr (← addBias Y (P b)), ())
  bwd := fun _ P X _ dY G => do
    let X ← X.asArr
    let dY ← dY.asArr
    let G ← incGrad G b dY.colSums
    let G ← incGrad G W (← gemm dY X true false)
    return (.arr (← gemm dY (P W) false false), G)

/-! ### noop and chain -/

/-- thinc/layers/noop.py:14-21 `forward`: the output is the input.  Also thinc/layers/dropout.py:19-23 `forward` of a `Dropout` layer that
is not active (`rate == 0`, `is_enabled` not set, or not in training). -/
def mNoop : MLayer := fun _ X m => .ok (X, fun dY m G => .ok (dY, m, G), m)

/-- The forward loop of `chain`. -/
def mChainLoop (train : Bool) : List MLayer → RVal → List MCallback → ArrMem → Except PyErr (RVal × List MCallback × ArrMem)
  | [], X, callbacks, m => .ok (X, callbacks, m)
  | layer :: layers, X, callbacks, m => do
    let (Y, incLayerGrad, m) ← layer train X m
    mChainLoop train layers Y (callbacks ++ [incLayerGrad]) m

/-- The backward loop of `chain`. -/
def mChainBack : List MCallback → MCallback
  | [], dY, m, G => .ok (dY, m, G)
  | callback :: callbacks, dY, m, G => do
    let (dX, m, G) ← callback dY m G
    mChainBack callbacks dX m G

/-- thinc/layers/chain.py:48-66 `forward` -/
def mChain (layers : List MLayer) : MLayer := fun train X m => do
  if layers.isEmpty then .error .unboundLocalError else
  let (Y, callbacks, m) ← mChainLoop train layers X [] m
  return (Y, mChainBack callbacks.reverse, m)

/-! ### add -/

/-- Python's `v += w`: arrays are changed in place.  (A list is extended in place by Python; here the extended list is a new one.) -/
noncomputable def RVal.iadd (v w : RVal) (m : ArrMem) : Except PyErr (RVal × ArrMem) :=
  match v, w with
  | .arr r, .arr q => do return (.arr r, r.put m (← npUpdate (· + ·) (r.get m) (q.get m)))
  | .ints a, .ints b => if a.length = b.length then .ok (.ints (List.zipWith (· + ·) a b), m) else .error .valueError
  | .intMat A, .intMat B =>
    if A.rows = B.rows ∧ A.cols = B.cols then .ok (.intMat (Mat.ofFn A.rows A.cols fun i j => A.at i j + B.at i j), m)
    else .error .valueError
  | .list vs, .list ws => .ok (.list (vs ++ ws), m)
  | .list vs, .tup ws => .ok (.list (vs ++ ws), m)
  | .tup vs, .tup ws => .ok (.tup (vs ++ ws), m)
  | _, _ => .error .typeError

/-- The forward loop of `add`, thinc/layers/add.py:37-40. -/
noncomputable def mAddForward (train : Bool) (X : RVal) : List MLayer → RVal → List MCallback → ArrMem →
    Except PyErr (RVal × List MCallback × ArrMem)
  | [], Y, callbacks, m => .ok (Y, callbacks, m)
  | layer :: layers, Y, callbacks, m => do
    let (layerY, layerCallback, m) ← layer train X m
    let (Y, m) ← Y.iadd layerY m
    mAddForward train X layers Y (callbacks ++ [layerCallback]) m

/-- The backward loop of `add`, thinc/layers/add.py:44-45. -/
noncomputable def mAddBackward (dY : RVal) : List MCallback → MCallback
  | [], dX, m, G => .ok (dX, m, G)
  | callback :: callbacks, dX, m, G => do
    let (d, m, G) ← callback dY m G
    let (dX, m) ← dX.iadd d m
    mAddBackward dY callbacks dX m G

/-- thinc/layers/add.py:32-49 `forward` -/
noncomputable def mAdd (layers : List MLayer) : MLayer := fun train X m =>
  match layers with
  | [] => .ok (X, fun dY m G => .ok (dY, m, G), m)
  | first :: rest => do
    let (Y, firstCallback, m) ← first train X m
    let (Y, callbacks, m) ← mAddForward train X rest Y [] m
    let backprop : MCallback := fun dY m G => do
      let (dX, m, G) ← firstCallback dY m G
      mAddBackward dY callbacks dX m G
    return (Y, backprop, m)

end Thinc.Shared
