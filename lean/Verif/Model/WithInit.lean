import Verif.Model.WithLayers
/-!
# Initialization of the sequence-container wrappers, and their other inputs

`init` of `with_list`, `with_ragged`, `with_padded` and `with_array` converts the sample it is given to the container of the
wrapped layer, in functions of its own.  Besides lists, Ragged and Padded, `with_ragged` and `with_padded` take tuples and arrays.
-/
namespace Thinc
variable {α : Type} [Zero α]

/-! ### What `init` passes to the layer -/

/-- thinc/layers/with_list.py:42-48 `_get_list`. -/
def getList : SeqBatch α → Except PyErr (List (Arr α))
  | .padded P => unpadList P
  | .ragged r => opsUnflatten r.data r.lengths 0
  | .list Xs => .ok Xs

/-- thinc/layers/with_array.py:59-67 `_get_array` (a plain array is returned unchanged). -/
def getArray : SeqBatch α → Except PyErr (ArrX α)
  | .ragged r => .ok (.a r.dataXd)
  | .padded P => .ok (.a3 P.data)
  | .list Xs => do return .a (← opsFlatten Xs 0)

/-! ### Tuples and arrays -/

/-- An array in a tuple. -/
inductive Item (α : Type) where
  | arr (x : Arr α)
  | arr3 (x : Arr3 α)
  | ints (l : List Nat)
  deriving DecidableEq

/-- What `with_ragged` and `with_padded` are called with. -/
inductive SeqIn (α : Type) where
  | batch (b : SeqBatch α)
  | tuple (items : List (Item α))
  | arr3 (x : Arr3 α)

/-- What the layer in `with_ragged` is called with: a Ragged, or an object of that class that has been made of two other arrays. -/
inductive RaggedArg (α : Type) where
  | ragged (r : Ragged α)
  | odd (data lengths : Item α)

/-- The same for `with_padded`. -/
inductive PaddedArg (α : Type) where
  | padded (P : Padded α)
  | odd (data sizeAtT lengths indices : Item α)

omit [Zero α] in
/-- `Ragged(*seq)` for two arrays, thinc/types.py:1179-1187.  (Nothing is checked.  Data with three dimensions would be reshaped; that is
left out here.) -/
def raggedOf : Item α → Item α → RaggedArg α
  | .arr data, .ints lengths => .ragged (Ragged.make data lengths)
  | data, lengths => .odd data lengths

omit [Zero α] in
/-- `Padded(*seq)` for four arrays, thinc/types.py:1107-1119 (a dataclass; nothing is checked). -/
def paddedOf : Item α → Item α → Item α → Item α → PaddedArg α
  | .arr3 data, .ints sizeAtT, .ints lengths, .ints indices => .padded ⟨data, sizeAtT, lengths, indices⟩
  | data, sizeAtT, lengths, indices => .odd data sizeAtT lengths indices

omit [Zero α] in
/-- The arrays of a tuple, as `flatten` and `list2padded` go through them.  (For other items these raise, in ways that are not modelled
in detail.) -/
def itemArrs : List (Item α) → Except PyErr (List (Arr α))
  | [] => .ok []
  | .arr x :: rest => match itemArrs rest with
    | .ok xs => .ok (x :: xs)
    | .error e => .error e
  | _ :: _ => .error .valueError

omit [Zero α] in
/-- The rows of a three-dimensional array, as a loop goes through them. -/
def Arr3.slices (x : Arr3 α) : List (Arr α) := x.data.map fun rows => ⟨x.tail, rows⟩

/-- A result in one of the containers is a result of the wrapper. -/
def SeqIn.lift : Except PyErr (SeqBatch α × (SeqBatch α → Except PyErr (SeqBatch α))) →
    Except PyErr (SeqIn α × (SeqIn α → Except PyErr (SeqIn α)))
  | .error e => .error e
  | .ok (Y, cb) => .ok (.batch Y, fun
    | .batch dY => (cb dY).map .batch
    | _ => .error .attributeError)

/-- thinc/layers/with_ragged.py:70-79 `_tuple_forward`. -/
def withRaggedTuple (L : RaggedArg α → Except PyErr (Ragged α × (Ragged α → Except PyErr (Ragged α)))) (data lengths : Item α) :
    Except PyErr (SeqIn α × (SeqIn α → Except PyErr (SeqIn α))) := do
  let (Yr, getdXr) ← L (raggedOf data lengths)
  return (.tuple [.arr Yr.data, .ints Yr.lengths], fun
    | .tuple [.arr dY, .ints lengths] => do
      let dXr ← getdXr (Ragged.make dY lengths)
      return .tuple [.arr dXr.data, .ints dXr.lengths]
    | _ => .error .attributeError)

/-- thinc/layers/with_ragged.py:20-36 `forward`, with 50-51 `_is_ragged_data`. -/
def withRaggedAny (L : RaggedArg α → Except PyErr (Ragged α × (Ragged α → Except PyErr (Ragged α)))) :
    SeqIn α → Except PyErr (SeqIn α × (SeqIn α → Except PyErr (SeqIn α)))
  | .batch b => SeqIn.lift (withRagged (fun r => L (.ragged r)) b)
  | .tuple [data, lengths] => withRaggedTuple L data lengths
  | .tuple items => do
    let Xs ← itemArrs items
    SeqIn.lift (withRaggedList (fun r => L (.ragged r)) Xs)
  | .arr3 x => SeqIn.lift (withRaggedList (fun r => L (.ragged r)) x.slices)

/-- thinc/layers/with_ragged.py:54-67 `_get_ragged`. -/
def getRagged : SeqIn α → Except PyErr (RaggedArg α)
  | .batch (.ragged r) => .ok (.ragged r)
  | .batch (.padded P) => do
    let lists ← unpadList P
    let lengths := lists.map Arr.len
    return .ragged (Ragged.make (← opsFlatten lists 0) lengths)
  | .tuple [data, lengths] => .ok (raggedOf data lengths)
  | .batch (.list Xs) => do
    let lengths := Xs.map Arr.len
    return .ragged (Ragged.make (← opsFlatten Xs 0) lengths)
  | .tuple items => do
    let Xs ← itemArrs items
    let lengths := Xs.map Arr.len
    return .ragged (Ragged.make (← opsFlatten Xs 0) lengths)
  | .arr3 x => do
    let lengths := x.slices.map Arr.len
    return .ragged (Ragged.make (← opsFlatten x.slices 0) lengths)

/-- thinc/layers/with_padded.py:95-104 `_tuple_forward`. -/
def withPaddedTuple (L : PaddedArg α → Except PyErr (Padded α × (Padded α → Except PyErr (Padded α))))
    (data sizeAtT lengths indices : Item α) : Except PyErr (SeqIn α × (SeqIn α → Except PyErr (SeqIn α))) := do
  let (Yp, getdXp) ← L (paddedOf data sizeAtT lengths indices)
  return (.tuple [.arr3 Yp.data, .ints Yp.sizeAtT, .ints Yp.lengths, .ints Yp.indices], fun
    | .tuple [.arr3 dY, .ints sizeAtT, .ints lengths, .ints indices] => do
      let dXp ← getdXp ⟨dY, sizeAtT, lengths, indices⟩
      return .tuple [.arr3 dXp.data, .ints dXp.sizeAtT, .ints dXp.lengths, .ints dXp.indices]
    | _ => .error .attributeError)

/-- thinc/layers/with_padded.py:23-43 `forward`, with 55-56 `_is_padded_data`. -/
def withPaddedAny (L : PaddedArg α → Except PyErr (Padded α × (Padded α → Except PyErr (Padded α)))) :
    SeqIn α → Except PyErr (SeqIn α × (SeqIn α → Except PyErr (SeqIn α)))
  | .batch b => SeqIn.lift (withPadded (fun P => L (.padded P)) b)
  | .tuple [data, sizeAtT, lengths, indices] => withPaddedTuple L data sizeAtT lengths indices
  | .arr3 x => match withPaddedArray (fun P => L (.padded P)) x with
    | .error e => .error e
    | .ok (Y, cb) => .ok (.arr3 Y, fun
      | .arr3 dY => (cb dY).map .arr3
      | _ => .error .attributeError)
  | .tuple items => do
    let Xs ← itemArrs items
    SeqIn.lift (withPaddedList (fun P => L (.padded P)) Xs)

/-- thinc/layers/with_padded.py:59-75 `_get_padded`.  `assert isinstance(seq, list)` comes last. -/
def getPadded : SeqIn α → Except PyErr (PaddedArg α)
  | .batch (.padded P) => .ok (.padded P)
  | .batch (.ragged r) => do
    let Xs ← opsUnflatten r.data r.lengths 0
    return .padded (← list2padded Xs)
  | .tuple [data, sizeAtT, lengths, indices] => .ok (paddedOf data sizeAtT lengths indices)
  | .arr3 x => .ok (.padded (paddedOfArray x))
  | .batch (.list Xs) => do return .padded (← list2padded Xs)
  | .tuple _ => .error .assertionError

end Thinc
