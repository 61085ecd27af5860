import Verif.Model.Ragged
/-!
# The sequence-container wrappers `with_array`, `with_list`, `with_ragged`, `with_padded`, `with_flatten`
and the conversion layers

A layer is the function its `forward` computes at the current parameters: from the input to the
output and the backprop callback, each of which may raise.  `is_train`, the side effects on
parameter gradients and GPU placement of the lengths are not modelled here.
A callback that is given another container type than the output raises; which exception class is
simplified to AttributeError.
-/
namespace Thinc
variable {α : Type} [Zero α]

/-- `forward` of a layer: `X -> (Y, backprop)` with `backprop : dY -> dX`. -/
abbrev Fwd (A B : Type) := A → Except PyErr (B × (B → Except PyErr A))

/-- A batch of sequences in one of the three containers. -/
inductive SeqBatch (α : Type) where
  | list (Xs : List (Arr α))
  | ragged (r : Ragged α)
  | padded (P : Padded α)

/-- An array as `with_array` passes it to the layer: two-dimensional (flattened sequences) or
three-dimensional (`Padded.data`). -/
inductive ArrX (α : Type) where
  | a (x : Arr α)
  | a3 (x : Arr3 α)

/-- A list in which `None` would be used as an array. -/
def allSome {β : Type} : List (Option β) → Except PyErr (List β)
  | [] => .ok []
  | none :: _ => .error .attributeError
  | some x :: xs => match allSome xs with
    | .ok ys => .ok (x :: ys)
    | .error e => .error e

omit [Zero α] in
/-- `ops.padded2list(p)` used as a list of arrays. -/
def unpadList (p : Padded α) : Except PyErr (List (Arr α)) :=
  match padded2list p with
  | .ok xs => allSome xs
  | .error e => .error e

/-! ### with_list -/

/-- thinc/layers/with_list.py:72-87 `_padded_forward`. -/
def withListPadded (L : Fwd (List (Arr α)) (List (Arr α))) (Xp : Padded α) :
    Except PyErr (SeqBatch α × (SeqBatch α → Except PyErr (SeqBatch α))) := do
  let Xs ← unpadList Xp
  let (Ys, getdXs) ← L Xs
  let Yp ← list2padded Ys
  return (.padded Yp, fun
    | .padded dYp => do
      let dYs ← unpadList dYp
      let dXs ← getdXs dYs
      return .padded (← list2padded dXs)
    | _ => .error .attributeError)

/-- thinc/layers/with_list.py:51-69 `_ragged_forward`. -/
def withListRagged (L : Fwd (List (Arr α)) (List (Arr α))) (Xr : Ragged α) :
    Except PyErr (SeqBatch α × (SeqBatch α → Except PyErr (SeqBatch α))) := do
  let Xs ← opsUnflatten Xr.data Xr.lengths 0
  let (Ys, getdXs) ← L Xs
  let Yf ← opsFlatten Ys 0
  return (.ragged (Ragged.make Yf Xr.lengths), fun
    | .ragged dYr => do
      let dYs ← opsUnflatten dYr.data dYr.lengths 0
      let dXs ← getdXs dYs
      return .ragged (Ragged.make (← opsFlatten dXs 0) dYr.lengths)
    | _ => .error .attributeError)

omit [Zero α] in
/-- A layer on lists used directly (`layer(Xseq, is_train)`). -/
def directList (L : Fwd (List (Arr α)) (List (Arr α))) (Xs : List (Arr α)) :
    Except PyErr (SeqBatch α × (SeqBatch α → Except PyErr (SeqBatch α))) := do
  let (Ys, getdXs) ← L Xs
  return (.list Ys, fun
    | .list dYs => do return .list (← getdXs dYs)
    | _ => .error .attributeError)

/-- thinc/layers/with_list.py:21-30 `forward`. -/
def withList (L : Fwd (List (Arr α)) (List (Arr α))) : Fwd (SeqBatch α) (SeqBatch α)
  | .padded Xp => withListPadded L Xp
  | .ragged Xr => withListRagged L Xr
  | .list Xs => directList L Xs

/-! ### with_ragged -/

/-- thinc/layers/with_ragged.py:82-111 `_padded_forward`. -/
def withRaggedPadded (L : Fwd (Ragged α) (Ragged α)) (Xp : Padded α) :
    Except PyErr (SeqBatch α × (SeqBatch α → Except PyErr (SeqBatch α))) := do
  let Xs ← unpadList Xp
  let lengths := Xs.map Arr.len
  let Xf ← opsFlatten Xs 0
  let (Yr, getdXr) ← L (Ragged.make Xf lengths)
  let Ys ← opsUnflatten Yr.data Yr.lengths 0
  let Yp ← list2padded Ys
  return (.padded Yp, fun
    | .padded dYp => do
      let dYs ← unpadList dYp
      let flattened ← opsFlatten dYs 0
      let dXr ← getdXr (Ragged.make flattened lengths)
      let dXs ← opsUnflatten dXr.data lengths 0
      return .padded (← list2padded dXs)
    | _ => .error .attributeError)

/-- thinc/layers/with_ragged.py:114-128 `_list_forward`. -/
def withRaggedList (L : Fwd (Ragged α) (Ragged α)) (Xs : List (Arr α)) :
    Except PyErr (SeqBatch α × (SeqBatch α → Except PyErr (SeqBatch α))) := do
  let lengths := Xs.map Arr.len
  let Xf ← opsFlatten Xs 0
  let (Yr, getdXr) ← L (Ragged.make Xf lengths)
  let Ys ← opsUnflatten Yr.data Yr.lengths 0
  return (.list Ys, fun
    | .list dYs => do
      let flattened ← opsFlatten dYs 0
      let dXr ← getdXr (Ragged.make flattened lengths)
      return .list (← opsUnflatten dXr.data lengths 0)
    | _ => .error .attributeError)

omit [Zero α] in
/-- A layer on ragged batches used directly. -/
def directRagged (L : Fwd (Ragged α) (Ragged α)) (Xr : Ragged α) :
    Except PyErr (SeqBatch α × (SeqBatch α → Except PyErr (SeqBatch α))) := do
  let (Yr, getdXr) ← L Xr
  return (.ragged Yr, fun
    | .ragged dYr => do return .ragged (← getdXr dYr)
    | _ => .error .attributeError)

/-- thinc/layers/with_ragged.py:20-36 `forward` (the variant for a tuple of data and lengths, 70-79,
which only packs and unpacks the Ragged, is left out). -/
def withRagged (L : Fwd (Ragged α) (Ragged α)) : Fwd (SeqBatch α) (SeqBatch α)
  | .ragged Xr => directRagged L Xr
  | .padded Xp => withRaggedPadded L Xp
  | .list Xs => withRaggedList L Xs

/-! ### with_padded -/

/-- thinc/layers/with_padded.py:107-128 `_ragged_forward`. -/
def withPaddedRagged (L : Fwd (Padded α) (Padded α)) (Xr : Ragged α) :
    Except PyErr (SeqBatch α × (SeqBatch α → Except PyErr (SeqBatch α))) := do
  let Xs ← opsUnflatten Xr.data Xr.lengths 0
  let Xp ← list2padded Xs
  let (Yp, getdXp) ← L Xp
  let Ys ← unpadList Yp
  let flattened ← opsFlatten Ys 0
  return (.ragged (Ragged.make flattened Xr.lengths), fun
    | .ragged dYr => do
      let dYs ← opsUnflatten dYr.data dYr.lengths 0
      let dYp ← list2padded dYs
      let dXp ← getdXp dYp
      let dXs ← unpadList dXp
      return .ragged (Ragged.make (← opsFlatten dXs 0) dYr.lengths)
    | _ => .error .attributeError)

/-- thinc/layers/with_padded.py:131-143 `_list_forward`. -/
def withPaddedList (L : Fwd (Padded α) (Padded α)) (Xs : List (Arr α)) :
    Except PyErr (SeqBatch α × (SeqBatch α → Except PyErr (SeqBatch α))) := do
  let Xp ← list2padded Xs
  let (Yp, getdXp) ← L Xp
  let Ys ← unpadList Yp
  return (.list Ys, fun
    | .list dYs => do
      let dYp ← list2padded dYs
      let dXp ← getdXp dYp
      return .list (← unpadList dXp)
    | _ => .error .attributeError)

omit [Zero α] in
/-- A layer on padded batches used directly. -/
def directPadded (L : Fwd (Padded α) (Padded α)) (Xp : Padded α) :
    Except PyErr (SeqBatch α × (SeqBatch α → Except PyErr (SeqBatch α))) := do
  let (Yp, getdXp) ← L Xp
  return (.padded Yp, fun
    | .padded dYp => do return .padded (← getdXp dYp)
    | _ => .error .attributeError)

/-- thinc/layers/with_padded.py:23-43 `forward` for the three containers (the variant for a tuple of
the four arrays, 95-104, is left out). -/
def withPadded (L : Fwd (Padded α) (Padded α)) : Fwd (SeqBatch α) (SeqBatch α)
  | .padded Xp => directPadded L Xp
  | .ragged Xr => withPaddedRagged L Xr
  | .list Xs => withPaddedList L Xs

omit [Zero α] in
/-- thinc/layers/with_padded.py:67-72: the metadata made up for a three-dimensional array. -/
def paddedOfArray (X : Arr3 α) : Padded α :=
  ⟨X, List.replicate X.d0 X.d1, List.replicate X.d1 X.d0, List.range X.d1⟩

omit [Zero α] in
/-- thinc/layers/with_padded.py:77-92 `_array_forward`. -/
def withPaddedArray (L : Fwd (Padded α) (Padded α)) : Fwd (Arr3 α) (Arr3 α) := fun X => do
  let Xp := paddedOfArray X
  let (Yp, getdXp) ← L Xp
  return (Yp.data, fun dY => do
    let dXp ← getdXp ⟨dY, Xp.sizeAtT, Xp.lengths, Xp.indices⟩
    return dXp.data)

/-! ### with_array -/

/-- thinc/layers/with_array.py:70-84 `_list_forward`. -/
def withArrayList (L : Fwd (ArrX α) (ArrX α)) (pad : Nat) (Xs : List (Arr α)) :
    Except PyErr (SeqBatch α × (SeqBatch α → Except PyErr (SeqBatch α))) := do
  let lengths := Xs.map Arr.len
  let Xf ← opsFlatten Xs pad
  let (Yf, getdXf) ← L (.a Xf)
  match Yf with
  | .a3 _ => .error .attributeError
  | .a Yf =>
    let Ys ← opsUnflatten Yf lengths pad
    return (.list Ys, fun
      | .list dYs => do
        let dYf ← opsFlatten dYs pad
        match ← getdXf (.a dYf) with
        | .a3 _ => .error .attributeError
        | .a dXf => return .list (← opsUnflatten dXf lengths pad)
      | _ => .error .attributeError)

omit [Zero α] in
/-- thinc/layers/with_array.py:87-96 `_ragged_forward`. -/
def withArrayRagged (L : Fwd (ArrX α) (ArrX α)) (Xr : Ragged α) :
    Except PyErr (SeqBatch α × (SeqBatch α → Except PyErr (SeqBatch α))) := do
  let (Y, getdX) ← L (.a Xr.dataXd)
  match Y with
  | .a3 _ => .error .attributeError
  | .a Y =>
    return (.ragged (Ragged.make Y Xr.lengths), fun
      | .ragged dYr => do
        match ← getdX (.a dYr.dataXd) with
        | .a3 _ => .error .attributeError
        | .a dX => return .ragged (Ragged.make dX dYr.lengths)
      | _ => .error .attributeError)

omit [Zero α] in
/-- thinc/layers/with_array.py:99-110 `_padded_forward`. -/
def withArrayPadded (L : Fwd (ArrX α) (ArrX α)) (Xp : Padded α) :
    Except PyErr (SeqBatch α × (SeqBatch α → Except PyErr (SeqBatch α))) := do
  let (Y, getdX) ← L (.a3 Xp.data)
  match Y with
  | .a _ => .error .attributeError
  | .a3 Y =>
    return (.padded ⟨Y, Xp.sizeAtT, Xp.lengths, Xp.indices⟩, fun
      | .padded dYp => do
        match ← getdX (.a3 dYp.data) with
        | .a _ => .error .attributeError
        | .a3 dX => return .padded ⟨dX, dYp.sizeAtT, dYp.lengths, dYp.indices⟩
      | _ => .error .assertionError)

/-- thinc/layers/with_array.py:32-42 `forward` (a plain array is passed to the layer unchanged). -/
def withArray (L : Fwd (ArrX α) (ArrX α)) (pad : Nat) : Fwd (SeqBatch α) (SeqBatch α)
  | .ragged Xr => withArrayRagged L Xr
  | .padded Xp => withArrayPadded L Xp
  | .list Xs => withArrayList L pad Xs

/-! ### Conversion layers -/

/-- thinc/layers/list2ragged.py:20-25 `forward`. -/
def list2raggedLayer : Fwd (List (Arr α)) (Ragged α) := fun Xs => do
  let lengths := Xs.map Arr.len
  let Xf ← opsFlatten Xs 0
  return (Ragged.make Xf lengths, fun dYr => opsUnflatten dYr.data dYr.lengths 0)

/-- thinc/layers/ragged2list.py:17-25 `forward`. -/
def ragged2listLayer : Fwd (Ragged α) (List (Arr α)) := fun Xr => do
  let Ys ← opsUnflatten Xr.dataXd Xr.lengths 0
  return (Ys, fun dXs => do return Ragged.make (← opsFlatten dXs 0) Xr.lengths)

/-- thinc/layers/list2padded.py:17-23 `forward`. -/
def list2paddedLayer : Fwd (List (Arr α)) (Padded α) := fun Xs => do
  let Yp ← list2padded Xs
  return (Yp, fun dYp => unpadList dYp)

/-- thinc/layers/padded2list.py:17-27 `forward`. -/
def padded2listLayer : Fwd (Padded α) (List (Arr α)) := fun Xp => do
  let Ys ← unpadList Xp
  return (Ys, fun dYs => list2padded dYs)

/-- thinc/layers/list2array.py:24-30 `forward`. -/
def list2arrayLayer : Fwd (List (Arr α)) (Arr α) := fun Xs => do
  let lengths := Xs.map Arr.len
  let Y ← opsFlatten Xs 0
  return (Y, fun dY => opsUnflatten dY lengths 0)

/-! ### with_flatten -/

/-- thinc/layers/with_flatten_v2.py:41-47 `_flatten`. -/
def flattenNested {β : Type} : List (List β) → List β × List Nat
  | [] => ([], [])
  | item :: rest => (item ++ (flattenNested rest).1, item.length :: (flattenNested rest).2)

/-- thinc/layers/with_flatten_v2.py:50-55 `_unflatten`. -/
def unflattenNested {β : Type} (flat : List β) : List Nat → List (List β)
  | [] => []
  | l :: ls => flat.take l :: unflattenNested (flat.drop l) ls

/-- thinc/layers/with_flatten_v2.py:21-38 `forward`. -/
def withFlattenV2 {β γ : Type} (L : Fwd (List β) (List γ)) : Fwd (List (List β)) (List (List γ)) :=
  fun Xnest => do
    let (Xflat, lens) := flattenNested Xnest
    let (Yflat, back) ← L Xflat
    return (unflattenNested Yflat lens, fun dYnest => do
      let (dYflat, _) := flattenNested dYnest
      let dXflat ← back dYflat
      return unflattenNested dXflat lens)

omit [Zero α] in
/-- `xp.split(X, points, axis=-1)` for a two-dimensional array: every row is cut. -/
def npSplitLast (x : Arr α) (points : List Nat) : List (Arr α) :=
  (List.zip (0 :: points) (points ++ [x.tail.prod])).map
    (fun p => ⟨[p.2 - p.1], x.rows.map (fun r => (r.take p.2).drop p.1)⟩)

/-- thinc/layers/with_flatten.py:19-37 `forward` (version 1), for a layer from lists of items to
two-dimensional arrays whose gradient is a two-dimensional array with one row per item. -/
def withFlattenV1 {β : Type} (L : List β → Except PyErr (Arr α × (Arr α → Except PyErr (Arr α))))
    (Xnest : List (List β)) : Except PyErr (List (Arr α) × (List (Arr α) → Except PyErr (List (Arr α)))) := do
  let Xflat := (flattenNested Xnest).1
  let (Yflat, back) ← L Xflat
  let splits := cumsumFrom 0 (Xnest.dropLast.map List.length)
  return (npSplit Yflat splits, fun dYnest => do
    let dYflat ← opsFlatten dYnest 0
    let dXflat ← back dYflat
    return npSplitLast dXflat splits)

end Thinc
