import Verif.Model.PySlice
import Mathlib.Algebra.BigOperators.Group.List.Basic
/-!
# Arrays as lists of rows, and the sequence operations of `Ops`

Source: thinc/backends/ops.py.

An array with at least one dimension is its list of rows; each row holds the elements of the
trailing dimensions in C order.  `tail` is the trailing shape (`shape[1:]`), which NumPy keeps even
when there are no rows.  The element type is a parameter: dtypes, strides and memory layout
(`as_contig`, views versus copies) are not modelled.  Lengths are natural numbers.
-/
namespace Thinc
variable {α : Type}

/-- An array of `ndim >= 1`. -/
structure Arr (α : Type) where
  tail : List Nat
  rows : List (List α)
  deriving DecidableEq, Repr

namespace Arr

/-- `len(x)` = `x.shape[0]`. -/
def len (x : Arr α) : Nat := x.rows.length

/-- `x.size`. -/
def size (x : Arr α) : Nat := x.len * x.tail.prod

/-- The rows really have the trailing shape. -/
def WF (x : Arr α) : Prop := ∀ r ∈ x.rows, r.length = x.tail.prod

/-- `alloc((n,) + tail)` / `xp.zeros((n,) + tail)`. -/
def zeros [Zero α] (n : Nat) (tail : List Nat) : Arr α :=
  ⟨tail, List.replicate n (List.replicate tail.prod 0)⟩

/-- `x[a:b]` for natural bounds. -/
def slice (x : Arr α) (a b : Nat) : Arr α := ⟨x.tail, (x.rows.take b).drop a⟩

end Arr

/-- `xp.concatenate(xs)`: ValueError for no arrays or for different trailing shapes. -/
def npConcatenate : List (Arr α) → Except PyErr (Arr α)
  | [] => .error .valueError
  | x :: xs => if xs.all (fun y => y.tail == x.tail) then
      .ok ⟨x.tail, ((x :: xs).map Arr.rows).flatten⟩
    else .error .valueError

/-- `numpy.cumsum(lengths)`, starting from `off`. -/
def cumsumFrom (off : Nat) : List Nat → List Nat
  | [] => []
  | l :: ls => (off + l) :: cumsumFrom (off + l) ls

/-- `xp.split(X, points)`: numpy/lib `array_split` with
`div_points = [0] + list(points) + [len(X)]` and `X[div_points[i]:div_points[i + 1]]`. -/
def npSplit (x : Arr α) (points : List Nat) : List (Arr α) :=
  (List.zip (0 :: points) (points ++ [x.len])).map (fun p => x.slice p.1 p.2)

/-- thinc/backends/ops.py:319-344 `Ops.flatten`.  `dtype` is not modelled. -/
def opsFlatten [Zero α] (X : List (Arr α)) (pad : Nat) (ndimIfEmpty : Nat := 2) :
    Except PyErr (Arr α) :=
  match X with
  | [] => .ok ⟨List.replicate (ndimIfEmpty - 1) 0, []⟩
  | x0 :: _ =>
    match X.filter (fun x => x.size != 0) with
    | [] => .ok (Arr.zeros x0.len x0.tail)
    | y :: ys =>
      if pad ≥ 1 then
        npConcatenate ((y :: ys).flatMap (fun x => [Arr.zeros pad x.tail, x]) ++
          [Arr.zeros pad ((y :: ys).getLast (by simp)).tail])
      else npConcatenate (y :: ys)

/-- thinc/backends/ops.py:364-379 `Ops.unflatten`. -/
def opsUnflatten (X : Arr α) (lengths : List Nat) (pad : Nat) : Except PyErr (List (Arr α)) :=
  let lengths' := if pad > 0 then lengths.map (fun l => if l > 0 then l + pad else 0) else lengths
  let unflat := (npSplit X (cumsumFrom 0 lengths')).dropLast
  let unflat := if pad > 0 then unflat.map (fun a => a.slice pad a.len) else unflat
  if unflat.length = lengths'.length then .ok unflat else .error .assertionError

/-- A batch of sequences: an array with two leading axes.  Cell `(i, j)` is the block of the
trailing shape. -/
structure Arr3 (α : Type) where
  d0 : Nat
  d1 : Nat
  tail : List Nat
  data : List (List (List α))
  deriving DecidableEq, Repr

namespace Arr3

/-- `x[i, j]` (the empty list outside the array; only used inside the bounds). -/
def cell (x : Arr3 α) (i j : Nat) : List α := (x.data.getD i []).getD j []

/-- The nested list has the stated dimensions. -/
def WF (x : Arr3 α) : Prop :=
  x.data.length = x.d0 ∧ (∀ r ∈ x.data, r.length = x.d1) ∧
    ∀ r ∈ x.data, ∀ c ∈ r, c.length = x.tail.prod

/-- `alloc((d0, d1) + tail)`. -/
def zeros [Zero α] (d0 d1 : Nat) (tail : List Nat) : Arr3 α :=
  ⟨d0, d1, tail, List.replicate d0 (List.replicate d1 (List.replicate tail.prod 0))⟩

/-- `x.transpose((1, 0, 2))`. -/
def transpose (x : Arr3 α) : Arr3 α :=
  ⟨x.d1, x.d0, x.tail, (List.range x.d1).map (fun j => (List.range x.d0).map (fun i => x.cell i j))⟩

/-- `x[i, :n]` for `i` in range. -/
def rowTake (x : Arr3 α) (i n : Nat) : Arr α := ⟨x.tail, (x.data.getD i []).take n⟩

end Arr3

/-- `dst[a : a + n] = src` along the first axis (`a + n` clamped to the length): NumPy needs equal
numbers of rows, or a single source row, which is repeated. -/
def assignRows {β : Type} (dst : List β) (a n : Nat) (src : List β) : Except PyErr (List β) :=
  let m := min (a + n) dst.length - a
  if src.length = m then .ok (dst.take a ++ src ++ dst.drop (a + m))
  else match src with
    | [r] => .ok (dst.take a ++ List.replicate m r ++ dst.drop (a + m))
    | _ => .error .valueError

/-- `output[i, :arr.shape[0]] = arr`, the body of the loop in `Ops.pad`
(thinc/backends/ops.py:417-419). -/
def padAssign (out : List (List (List α))) (p : Arr α × Nat) :
    Except PyErr (List (List (List α))) :=
  match out[p.2]? with
  | none => .error .indexError
  | some row => match assignRows row 0 p.1.len p.1.rows with
    | .ok row' => .ok (out.set p.2 row')
    | .error e => .error e

/-- thinc/backends/ops.py:389-420 `Ops.pad`.  The test on `ndim` and the one on `shape[1:]` are
the single test on `tail` here, both raise ValueError; dtypes are not modelled. -/
def opsPad [Zero α] (seqs : List (Arr α)) (roundTo : Int) : Except PyErr (Arr3 α) :=
  if roundTo < 1 then .error .valueError
  else match seqs with
    | [] => .error .valueError
    | s0 :: rest =>
      if ¬ rest.all (fun s => s.tail == s0.tail) then .error .valueError
      else
        let maxLen : Nat := (seqs.map Arr.len).foldl max 0
        let maxLen : Nat := maxLen + ((-(maxLen : Int)) % roundTo).toNat
        let output : Arr3 α := Arr3.zeros seqs.length maxLen s0.tail
        match forM' seqs.zipIdx output.data padAssign with
        | .ok d => .ok { output with data := d }
        | .error e => .error e

/-- thinc/backends/ops.py:422-429 `Ops.unpad`; `padded[i]` raises IndexError past the end. -/
def opsUnpad (padded : Arr3 α) (lengths : List Nat) : Except PyErr (List (Arr α)) :=
  forM' lengths.zipIdx [] (fun out p =>
    if p.2 < padded.d0 then .ok (out ++ [padded.rowTake p.2 p.1]) else .error .indexError)

/-- thinc/types.py:1110-1124 `Padded`: data of shape (step, batch, ...). -/
structure Padded (α : Type) where
  data : Arr3 α
  sizeAtT : List Nat
  lengths : List Nat
  indices : List Nat
  deriving DecidableEq, Repr

/-- thinc/backends/ops.py:462-463: `while current_size and t >= lengths_[current_size - 1]`. -/
def shrinkSize (lengths : List Nat) (t : Nat) : Nat → Nat
  | 0 => 0
  | n + 1 => if t ≥ lengths.getD n 0 then shrinkSize lengths t n else n + 1

/-- thinc/backends/ops.py:459-464: the loop over `t` that fills `batch_size_at_t_`. -/
def sizesAtT (lengths : List Nat) : List Nat → Nat → List Nat
  | [], _ => []
  | t :: ts, cur => let cur' := shrinkSize lengths t cur; cur' :: sizesAtT lengths ts cur'

/-- `>=` on Python tuples `(length, i)`, the order used by `sort(reverse=True)`. -/
def geTuple (a b : Nat × Nat) : Bool := decide (b.1 < a.1) || (decide (a.1 = b.1) && decide (b.2 ≤ a.2))

/-- Insert into a list sorted by `>=`. -/
def insertDesc (a : Nat × Nat) : List (Nat × Nat) → List (Nat × Nat)
  | [] => [a]
  | b :: l => if geTuple a b then a :: b :: l else b :: insertDesc a l

/-- `list.sort(reverse=True)` on tuples that are pairwise different: the descending order (the
sorting algorithm itself is not modelled). -/
def sortDesc : List (Nat × Nat) → List (Nat × Nat)
  | [] => []
  | a :: l => insertDesc a (sortDesc l)

/-- thinc/backends/ops.py:431-471 `Ops.list2padded`. -/
def list2padded [Zero α] (seqs : List (Arr α)) : Except PyErr (Padded α) :=
  match seqs with
  | [] => .ok ⟨Arr3.zeros 0 0 [0], [], [], []⟩
  | [s] => match s.tail with
    | [] => .error .indexError
    | nO :: _ =>
      if s.size = s.len * 1 * nO then
        .ok ⟨⟨s.len, 1, [nO], s.rows.map (fun r => [r])⟩, List.replicate s.len 1, [s.len], [0]⟩
      else .error .valueError
  | s0 :: s1 :: rest =>
    let lengthsIndices := sortDesc ((s0 :: s1 :: rest).zipIdx.map (fun p => (p.1.len, p.2)))
    let indices := lengthsIndices.map Prod.snd
    let lengths := lengthsIndices.map Prod.fst
    let nS := ((s0 :: s1 :: rest).map Arr.len).foldl max 0
    let nB := (s0 :: s1 :: rest).length
    match s0.tail with
    | [] => .error .indexError
    | nO :: _ =>
      let sorted := indices.filterMap (fun i => (s0 :: s1 :: rest)[i]?)
      match opsPad sorted 1 with
      | .error e => .error e
      | .ok arr =>
        if ¬ (arr.d0 = nB ∧ arr.d1 = nS ∧ arr.tail = [nO]) then .error .assertionError
        else
          let sizes := sizesAtT lengths (List.range nS) lengths.length
          if lengths.sum = sizes.sum then .ok ⟨arr.transpose, sizes, lengths, indices⟩
          else .error .assertionError

/-- The body of the loop in `Ops.padded2list`: `unpadded[indices[i]] = data[i, :lengths[i]]`. -/
def unpadAssign (data : Arr3 α) (indices lengths : List Nat) (out : List (Option (Arr α)))
    (i : Nat) : Except PyErr (List (Option (Arr α))) :=
  match indices[i]?, lengths[i]? with
  | some j, some n => if j < out.length then .ok (out.set j (some (data.rowTake i n)))
    else .error .indexError
  | _, _ => .error .indexError

/-- thinc/backends/ops.py:473-483 `Ops.padded2list`.  A slot that is never assigned stays `None`. -/
def padded2list (p : Padded α) : Except PyErr (List (Option (Arr α))) :=
  let data := p.data.transpose
  forM' (List.range data.d0) (List.replicate p.lengths.length none)
    (unpadAssign data p.indices p.lengths)

end Thinc
