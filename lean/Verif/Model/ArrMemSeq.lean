import Verif.Model.ArrMemLayers
/-!
# Sequence wrappers on arrays in memory

The wrappers convert the input, call the layer, and convert the output; the callback does the same with the gradients.  `flatten` gives a new
array, `unflatten` gives views.  `padded2list` gives views too, of the data or of a copy.  `list2padded` gives a new array, but for a single
sequence a view of it.
-/
namespace Thinc.Shared

/-- A conversion of a value, which also gives what the backward pass or the conversion back needs (`μ`: lengths and so on). -/
abbrev MConv (μ : Type) := RVal → ArrMem → Except PyErr ((RVal × μ) × ArrMem)

/-- A layer between conversions: `Y, get_dX = layer(pre(X))`, output `post(Y)`, callback `dY -> backPost(get_dX(backPre(dY)))`.  The code has
these lines once for each wrapper, see below.  `reshape` always gives a view here; NumPy copies an array that is not contiguous. -/
def mWrap {μ ν : Type} (pre : MConv μ) (post : μ → MConv Unit) (backPre : μ → MConv ν) (backPost : μ → ν → MConv Unit) (layer : MLayer) : MLayer :=
  fun train X m => do
  let ((X, k), m) ← pre X m
  let (Y, getDX, m) ← layer train X m
  let ((Y, _), m) ← post k Y m
  let backprop : MCallback := fun dY m G => do
    let ((dY, k'), m) ← backPre k dY m
    let (dX, m, G) ← getDX dY m G
    let ((dX, _), m) ← backPost k k' dX m
    return (dX, m, G)
  return (Y, backprop, m)

/-- The value as it is. -/
def mAsIs : MConv Unit := fun X m => .ok ((X, ()), m)

/-- The array that a value is. -/
def RVal.arrRef : RVal → Except PyErr ArrRef
  | .arr r => .ok r
  | _ => .error .attributeError

/-- thinc/backends/ops.py:319-344 `Ops.flatten` of a list, and the lengths: a new array. -/
def mFlatten (pad : Nat) : MConv (List Nat) := fun Xs m => do
  let Xs ← (Xs.read m).arrays
  let Xf ← opsFlatten Xs pad
  return ((.arr ⟨(m.alloc Xf.toMat).1, []⟩, Xs.map Arr.len), (m.alloc Xf.toMat).2)

/-- The views of thinc/backends/ops.py:364-379 `Ops.unflatten`; `xp.split` gives views.  A sequence that is not empty has `pad` rows before
it. -/
def mSplit (r : ArrRef) (pad : Nat) : List Nat → Nat → List RVal
  | [], _ => []
  | n :: ns, start => .arr (r.slice (.part start (start + if 0 < pad ∧ 0 < n then n + pad else n) pad)) ::
      mSplit r pad ns (start + if 0 < pad ∧ 0 < n then n + pad else n)

/-- thinc/backends/ops.py:364-379 `Ops.unflatten` -/
def mUnflattenOut (pad : Nat) (lengths : List Nat) : MConv Unit := fun Y m => do
  let r ← Y.arrRef
  return ((.list (mSplit r pad lengths 0), ()), m)

/-- `Xr.dataXd` and `Xr.lengths` -/
def mRaggedIn : MConv (List Nat)
  | .ragged r lengths, m => .ok ((.arr (r.slice .whole), lengths), m)
  | _, _ => .error .attributeError

/-- `Ragged(Y, lengths)` -/
def mRaggedOut (lengths : List Nat) : MConv Unit := fun Y m => do
  let r ← Y.arrRef
  return ((.ragged (r.slice .raggedData) lengths, ()), m)

/-- thinc/layers/with_array2d.py:106-108, 114-116: the data of a `Padded` as a two-dimensional array, its number of rows and the rest of the
`Padded`. -/
def mPaddedIn : MConv (Nat × Nat × List Nat × List Nat × List Nat)
  | .padded r steps sizeAtT lengths indices, m => .ok ((.arr r, (r.get m).rows, steps, sizeAtT, lengths, indices), m)
  | _, _ => .error .assertionError

/-- thinc/layers/with_array2d.py:109-111, 117-121: back to a `Padded`. -/
def mPaddedOut (k : Nat × Nat × List Nat × List Nat × List Nat) : MConv Unit := fun Y m => do
  let r ← Y.arrRef
  let _ ← reshapeCells (r.get m) k.1
  return ((.padded r k.2.1 k.2.2.1 k.2.2.2.1 k.2.2.2.2, ()), m)

/-- thinc/layers/with_array.py:70-84 and thinc/layers/with_array2d.py:72-86 `_list_forward` -/
def mWithArrayList (layer : MLayer) (pad : Nat) : MLayer :=
  mWrap (mFlatten pad) (mUnflattenOut pad) (fun _ => mFlatten pad) (fun lengths _ => mUnflattenOut pad lengths) layer

/-- thinc/layers/with_array.py:87-96 and thinc/layers/with_array2d.py:89-99 `_ragged_forward` -/
def mWithArrayRagged (layer : MLayer) : MLayer :=
  mWrap mRaggedIn mRaggedOut (fun _ => mRaggedIn) (fun _ dLengths => mRaggedOut dLengths) layer

/-- thinc/layers/with_array2d.py:102-125 `_padded_forward` -/
def mWithArray2dPadded (layer : MLayer) : MLayer :=
  mWrap mPaddedIn mPaddedOut (fun _ => mPaddedIn) (fun _ k => mPaddedOut k) layer

/-- thinc/layers/with_array2d.py:31-43 `forward`, and thinc/layers/with_array.py:32-42 `forward` for everything but a `Padded` -/
def mWithArray2d (layer : MLayer) (pad : Nat) : MLayer := fun train Xseq m =>
  match Xseq with
  | .ragged _ _ => mWithArrayRagged layer train Xseq m
  | .padded _ _ _ _ _ => mWithArray2dPadded layer train Xseq m
  | .list _ => mWithArrayList layer pad train Xseq m
  | .tup _ => mWithArrayList layer pad train Xseq m
  | .arr _ => layer train Xseq m
  | .ints _ => layer train Xseq m
  | .intMat _ => layer train Xseq m

/-- `Ops.unflatten` of the data of a `Ragged` by its own lengths. -/
def mRaggedToList : MConv (List Nat)
  | .ragged r lengths, m => .ok ((.list (mSplit r 0 lengths 0), lengths), m)
  | _, _ => .error .attributeError

/-- `Ops.unflatten` of the data of a `Ragged` by other lengths. -/
def mRaggedToListBy (lengths : List Nat) : MConv Unit
  | .ragged r _, m => .ok ((.list (mSplit r 0 lengths 0), ()), m)
  | _, _ => .error .attributeError

/-- `Ragged(ops.flatten(Xs), lengths)` with the lengths of the `Xs`. -/
def mListToRagged : MConv (List Nat) := fun Xs m => do
  let Xs ← (Xs.read m).arrays
  let Xf ← opsFlatten Xs 0
  let data := (Ragged.make Xf (Xs.map Arr.len)).data.toMat
  return ((.ragged ⟨(m.alloc data).1, []⟩ (Xs.map Arr.len), Xs.map Arr.len), (m.alloc data).2)

/-- `Ragged(ops.flatten(Xs), lengths)` with other lengths. -/
def mListToRaggedBy (lengths : List Nat) : MConv Unit := fun Xs m => do
  let Xf ← opsFlatten (← (Xs.read m).arrays) 0
  let data := (Ragged.make Xf lengths).data.toMat
  return ((.ragged ⟨(m.alloc data).1, []⟩ lengths, ()), (m.alloc data).2)

/-- thinc/layers/with_list.py:51-69 `_ragged_forward` -/
def mWithListRagged (layer : MLayer) : MLayer :=
  mWrap mRaggedToList mListToRaggedBy (fun _ => mRaggedToList) (fun _ dLengths => mListToRaggedBy dLengths) layer

/-- thinc/layers/list2ragged.py:20-25 `forward` -/
def mList2ragged : MLayer :=
  mWrap mListToRagged (fun _ => mAsIs) (fun _ => mRaggedToList) (fun _ _ => mAsIs) mNoop

/-- thinc/layers/ragged2list.py:17-25 `forward` -/
def mRagged2list : MLayer :=
  mWrap mRaggedToList (fun _ => mAsIs) (fun _ => mAsIs) (fun lengths _ => mListToRaggedBy lengths) mNoop

/-- thinc/layers/list2array.py:24-30 `forward` -/
def mList2array : MLayer :=
  mWrap (mFlatten 0) (fun _ => mAsIs) (fun _ => mAsIs) (fun lengths _ => mUnflattenOut 0 lengths) mNoop

/-- `Ops.unflatten` of the data of a `Ragged` by its own lengths, which are not needed any more. -/
def mRaggedToListOwn : MConv Unit := fun Y m => do
  let ((Ys, _), m) ← mRaggedToList Y m
  return ((Ys, ()), m)

/-- thinc/layers/with_ragged.py:114-128 `_list_forward` -/
def mWithRaggedList (layer : MLayer) : MLayer :=
  mWrap mListToRagged (fun _ => mRaggedToListOwn) mListToRaggedBy (fun lengths _ => mRaggedToListBy lengths) layer

/-! ### Padded -/

/-- The body of the loop in thinc/backends/ops.py:481-482: `unpadded[indices[i]] = data[i, :lengths[i]]`, as the pair `i`, `lengths[i]`. -/
def unpadPlanStep (indices lengths : List Nat) (out : List (Option (Nat × Nat))) (i : Nat) : Except PyErr (List (Option (Nat × Nat))) :=
  match indices[i]?, lengths[i]? with
  | some j, some n => if j < out.length then .ok (out.set j (some (i, n))) else .error .indexError
  | _, _ => .error .indexError

/-- thinc/backends/ops.py:478-483: which part of the data each sequence is. -/
def unpadPlan (batch : Nat) (indices lengths : List Nat) : Except PyErr (List (Nat × Nat)) := do
  let out ← forM' (List.range batch) (List.replicate lengths.length none) (unpadPlanStep indices lengths)
  allSome out

open Classical in
/-- thinc/backends/ops.py:480 `self.as_contig(data.transpose((1, 0, 2)))` for `data` of shape (`steps`, `batch`, width).  The transposed array is
contiguous if an axis is one long or it has no elements.  (A copy has its rows in the order of the original here.) -/
noncomputable def contigTranspose (r : ArrRef) (steps batch : Nat) (m : ArrMem) : ArrRef × ArrMem :=
  if r.Contiguous m ∧ (steps ≤ 1 ∨ batch ≤ 1 ∨ (r.get m).cols = 0) then (r, m) else (⟨(m.alloc (r.get m)).1, []⟩, (m.alloc (r.get m)).2)

/-- thinc/backends/ops.py:473-483 `Ops.padded2list` -/
noncomputable def mPaddedToList : MConv Unit
  | .padded r steps _ lengths indices, m => do
    let plan ← unpadPlan lengths.length indices lengths
    let (r, m) := contigTranspose r steps lengths.length m
    return ((.list (plan.map fun p => .arr (r.slice (.seqPart steps lengths.length p.1 p.2))), ()), m)
  | _, _ => .error .attributeError

/-- The only array in a list. -/
def RVal.single : RVal → Option ArrRef
  | .list [.arr r] => some r
  | .tup [.arr r] => some r
  | _ => none

/-- The data of thinc/backends/ops.py:431-471 `Ops.list2padded`: for one sequence, a view of it. -/
def mPaddedData (X : RVal) (p : Padded ℝ) (m : ArrMem) : ArrRef × ArrMem :=
  match X.single with
  | some r => (r.slice .cells, m)
  | none => (⟨(m.alloc p.data.toMat).1, []⟩, (m.alloc p.data.toMat).2)

/-- thinc/backends/ops.py:431-471 `Ops.list2padded` -/
def mListToPadded : MConv Unit := fun X m => do
  let p ← list2padded (← (X.read m).arrays)
  let (r, m) := mPaddedData X p m
  return ((.padded r p.data.d0 p.sizeAtT p.lengths p.indices, ()), m)

/-- One conversion after another. -/
def mThen {μ ν : Type} (f : MConv μ) (g : μ → MConv ν) : MConv (μ × ν) := fun X m => do
  let ((X, k), m) ← f X m
  let ((X, k'), m) ← g k X m
  return ((X, k, k'), m)

/-- A conversion of which only the value is needed. -/
def mForget {μ : Type} (f : MConv μ) : MConv Unit := fun X m => do
  let ((X, _), m) ← f X m
  return ((X, ()), m)

/-- thinc/layers/list2padded.py:17-23 `forward` -/
noncomputable def mList2padded : MLayer := mWrap mListToPadded (fun _ => mAsIs) (fun _ => mPaddedToList) (fun _ _ => mAsIs) mNoop

/-- thinc/layers/padded2list.py:17-27 `forward` -/
noncomputable def mPadded2list : MLayer := mWrap mPaddedToList (fun _ => mAsIs) (fun _ => mAsIs) (fun _ _ => mListToPadded) mNoop

/-- thinc/layers/with_list.py:72-87 `_padded_forward` -/
noncomputable def mWithListPadded (layer : MLayer) : MLayer :=
  mWrap mPaddedToList (fun _ => mListToPadded) (fun _ => mPaddedToList) (fun _ _ => mListToPadded) layer

/-- thinc/layers/with_list.py:21-30 `forward` -/
noncomputable def mWithList (layer : MLayer) : MLayer := fun train Xseq m =>
  match Xseq with
  | .padded _ _ _ _ _ => mWithListPadded layer train Xseq m
  | .ragged _ _ => mWithListRagged layer train Xseq m
  | .list _ => layer train Xseq m
  | .tup _ => layer train Xseq m
  | .arr _ => layer train Xseq m
  | .ints _ => layer train Xseq m
  | .intMat _ => layer train Xseq m

/-- thinc/layers/with_ragged.py:82-111 `_padded_forward` -/
noncomputable def mWithRaggedPadded (layer : MLayer) : MLayer :=
  mWrap (mThen mPaddedToList fun _ => mListToRagged) (fun _ => mForget (mThen mRaggedToListOwn fun _ => mListToPadded))
    (fun k => mThen mPaddedToList fun _ => mListToRaggedBy k.2) (fun k _ => mForget (mThen (mRaggedToListBy k.2) fun _ => mListToPadded)) layer

/-- thinc/layers/with_ragged.py:20-36 `forward`, with the simplification of `withRaggedL`. -/
noncomputable def mWithRagged (layer : MLayer) : MLayer := fun train Xseq m =>
  match Xseq with
  | .ragged _ _ => layer train Xseq m
  | .padded _ _ _ _ _ => mWithRaggedPadded layer train Xseq m
  | .tup [_, _] => .error .typeError
  | _ => mWithRaggedList layer train Xseq m

/-- thinc/layers/with_padded.py:107-128 `_ragged_forward` -/
noncomputable def mWithPaddedRagged (layer : MLayer) : MLayer :=
  mWrap (mThen mRaggedToList fun _ => mListToPadded) (fun k => mForget (mThen mPaddedToList fun _ => mListToRaggedBy k.1))
    (fun _ => mThen mRaggedToList fun _ => mListToPadded) (fun _ k => mForget (mThen mPaddedToList fun _ => mListToRaggedBy k.1)) layer

/-- thinc/layers/with_padded.py:131-143 `_list_forward` -/
noncomputable def mWithPaddedList (layer : MLayer) : MLayer :=
  mWrap mListToPadded (fun _ => mPaddedToList) (fun _ => mListToPadded) (fun _ _ => mPaddedToList) layer

/-- thinc/layers/with_padded.py:23-43 `forward`, without the variants for a tuple of four arrays and for a three-dimensional array. -/
noncomputable def mWithPadded (layer : MLayer) : MLayer := fun train Xseq m =>
  match Xseq with
  | .padded _ _ _ _ _ => layer train Xseq m
  | .ragged _ _ => mWithPaddedRagged layer train Xseq m
  | _ => mWithPaddedList layer train Xseq m

end Thinc.Shared
