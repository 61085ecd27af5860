import Verif.Model.Arrays
/-!
# Ragged batches

Source: thinc/types.py:1163-1233.
-/
namespace Thinc
variable {α : Type}

/-- thinc/types.py:1163-1177 `Ragged`: two-dimensional data, the lengths, and the trailing shape of
the original array (`data_shape[1:]`; `data_shape[0]` is always -1).  The cache `starts_ends` is
not modelled: it is a function of `lengths`. -/
structure Ragged (α : Type) where
  data : Arr α
  lengths : List Nat
  dataTail : List Nat
  deriving DecidableEq, Repr

/-- thinc/types.py:1179-1187 `Ragged.__init__`: arrays without elements become shape (0, 0). -/
def Ragged.make (x : Arr α) (lengths : List Nat) : Ragged α :=
  ⟨if x.size ≠ 0 then ⟨[x.tail.prod], x.rows⟩ else ⟨[0], []⟩, lengths, x.tail⟩

/-- thinc/types.py:1188-1194 `Ragged.dataXd`.  The reshape of `n` rows of `prod(tail)` elements to
`(-1,) + tail` has the same rows; without elements the shape is `(0,) + tail`, also the same rows. -/
def Ragged.dataXd (r : Ragged α) : Arr α := ⟨r.dataTail, r.data.rows⟩

/-- thinc/types.py:1221-1227 `_get_starts_ends`: `[0] + cumsum(lengths)`. -/
def Ragged.startsEnds (r : Ragged α) : List Nat := 0 :: cumsumFrom 0 r.lengths

/-- thinc/types.py:1229-1230 `_get_starts`. -/
def Ragged.starts (r : Ragged α) : List Nat := r.startsEnds.dropLast

/-- thinc/types.py:1232-1233 `_get_ends`. -/
def Ragged.ends (r : Ragged α) : List Nat := r.startsEnds.tail

/-- `x.reshape((-1,) + tail)` on a two-dimensional array: with elements, the width must be the
product of the new trailing shape or divide the total size; without elements NumPy cannot infer the
`-1` when the trailing shape contains a zero.  Re-cutting rows of another width is modelled as
ValueError: it does not occur, because `data` has width `prod(data_shape[1:])`. -/
def reshapeTail (x : Arr α) (tail : List Nat) : Except PyErr (Arr α) :=
  if x.size = 0 then (if tail.prod = 0 then .error .valueError else .ok ⟨tail, []⟩)
  else if x.tail.prod = tail.prod then .ok ⟨tail, x.rows⟩
  else .error .valueError

/-- The argument of `Ragged.__getitem__`. -/
inductive RaggedIndex where
  | int (i : Int)
  | slice (s : PySlice)
  | list (is : List Int)
  | tuple

/-- thinc/types.py:1204-1207: the `int` branch of `Ragged.__getitem__`. -/
def Ragged.getInt (r : Ragged α) (i : Int) : Except PyErr (Ragged α) :=
  match pyIndex r.starts i, pyIndex r.ends i with
  | .ok s, .ok e => .ok (Ragged.make (r.data.slice s e) (pyRange r.lengths i (i + 1)))
  | .error e, _ => .error e
  | _, .error e => .error e

/-- thinc/types.py:1208-1214: the `slice` branch of `Ragged.__getitem__`; `index.start >= 1` raises
TypeError when the start is `None`. -/
def Ragged.getSlice (r : Ragged α) (s : PySlice) : Except PyErr (Ragged α) :=
  match pySlice r.lengths s with
  | .error e => .error e
  | .ok [] => match reshapeTail (r.data.slice 0 0) r.dataTail with
    | .ok d => .ok (Ragged.make d [])
    | .error e => .error e
  | .ok (l :: ls) =>
    match s.start with
    | none => .error .typeError
    | some a =>
      match pySlice r.starts s, pySlice r.ends s with
      | .ok (s0 :: _), .ok (e0 :: es) =>
        let start := if a ≥ 1 then s0 else 0
        let stop := (e0 :: es).getLast (by simp)
        (match reshapeTail (r.data.slice start stop) r.dataTail with
        | .ok d => .ok (Ragged.make d (l :: ls))
        | .error e => .error e)
      | _, _ => .error .indexError

/-- `[f(i) for i in is]` where `f` may raise. -/
def mapRaise {β γ ε : Type} (f : β → Except ε γ) : List β → Except ε (List γ)
  | [] => .ok []
  | x :: xs => match f x with
    | .error e => .error e
    | .ok y => match mapRaise f xs with
      | .ok ys => .ok (y :: ys)
      | .error e => .error e

/-- thinc/types.py:1215-1219: the index-array branch of `Ragged.__getitem__`; `xp.vstack` is
`concatenate` of two-dimensional arrays. -/
def Ragged.getList (r : Ragged α) (is : List Int) : Except PyErr (Ragged α) := do
  let parts ← mapRaise (fun i => r.getInt i) is
  let data ← npConcatenate (parts.map Ragged.data)
  let d ← reshapeTail data r.dataTail
  let ls ← mapRaise (fun i => pyIndex r.lengths i) is
  return Ragged.make d ls

/-- thinc/types.py:1199-1219 `Ragged.__getitem__`. -/
def Ragged.getItem (r : Ragged α) : RaggedIndex → Except PyErr (Ragged α)
  | .tuple => .error .indexError
  | .int i => r.getInt i
  | .slice s => r.getSlice s
  | .list is => r.getList is

/-! ### Packing for the LSTM (thinc/layers/lstm.py) -/

/-- thinc/layers/lstm.py:167-170: one step of the packing loop,
`Y[start : start + batch_size] = Xp.data[t, :batch_size]`. -/
def packStep (Xp : Padded α) (s : Nat × List (List α)) (t : Nat) :
    Except PyErr (Nat × List (List α)) :=
  match Xp.sizeAtT[t]?, Xp.data.data[t]? with
  | some bs, some row => match assignRows s.2 s.1 bs (row.take bs) with
    | .ok Y => .ok (s.1 + bs, Y)
    | .error e => .error e
  | _, _ => .error .indexError

/-- thinc/layers/lstm.py:159-171 `_padded_to_packed`. -/
def paddedToPacked [Zero α] (Xp : Padded α) : Except PyErr (Ragged α) :=
  if Xp.lengths.sum ≠ Xp.sizeAtT.sum then .error .assertionError
  else
    match forM' (List.range Xp.sizeAtT.length)
        (0, (Arr.zeros Xp.lengths.sum Xp.data.tail : Arr α).rows) (packStep Xp) with
    | .ok s => .ok (Ragged.make ⟨Xp.data.tail, s.2⟩ Xp.sizeAtT)
    | .error e => .error e

/-- thinc/layers/lstm.py:178-181: one step of the unpacking loop,
`Y[t, :batch_size] = X[start : start + batch_size]`. -/
def unpackStep (X : List (List α)) (sizeAtT : List Nat) (s : Nat × List (List (List α))) (t : Nat) :
    Except PyErr (Nat × List (List (List α))) :=
  match sizeAtT[t]?, s.2[t]? with
  | some bs, some row => match assignRows row 0 bs ((X.take (s.1 + bs)).drop s.1) with
    | .ok row' => .ok (s.1 + bs, s.2.set t row')
    | .error e => .error e
  | _, _ => .error .indexError

/-- thinc/layers/lstm.py:174-182 `_packed_to_padded`. -/
def packedToPadded [Zero α] (Xr : Ragged α) (Xp : Padded α) : Except PyErr (Padded α) :=
  let Y : Arr3 α := Arr3.zeros Xp.data.d0 Xp.data.d1 Xr.data.tail
  match forM' (List.range Xp.sizeAtT.length) (0, Y.data) (unpackStep Xr.data.rows Xp.sizeAtT) with
  | .ok s => .ok ⟨{ Y with data := s.2 }, Xp.sizeAtT, Xp.lengths, Xp.indices⟩
  | .error e => .error e

end Thinc
