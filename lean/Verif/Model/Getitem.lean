import Verif.Model.Gather
import Verif.Model.Ragged
/-!
# array_getitem

Indexing of two-dimensional arrays.  The result can have zero, one or two dimensions, so arrays carry their shape;
their numbers are in row-major order.
-/
namespace Thinc
variable {α : Type}

/-- An array of any shape. -/
structure NdArr (α : Type) where
  shape : List Nat
  data : List α

/-- thinc/layers/array_getitem.py:6 `AxisIndex`: an index for one axis. -/
inductive AxisIndex where
  | int (i : Int)
  | slice (s : PySlice)
  | list (is : List Int)

/-- thinc/layers/array_getitem.py:7 `Index`. -/
inductive NpIndex where
  | axis (a : AxisIndex)
  | tuple (as : List AxisIndex)

/-- NumPy: the positions that an index selects along an axis of the given size. -/
def AxisIndex.positions (n : Nat) : AxisIndex → Except PyErr (List Nat)
  | .int i => do return [← npIndex n i]
  | .slice s => s.positions n
  | .list is => mapRaise (npIndex n) is

/-- NumPy: an integer removes its axis, a slice or a list keeps it. -/
def AxisIndex.dims (ps : List Nat) : AxisIndex → List Nat
  | .int _ => []
  | _ => [ps.length]

/-- NumPy: the flat positions of all pairs of a row and a column. -/
def outerPositions (cols : Nat) (ps qs : List Nat) : List Nat := ps.flatMap fun p => qs.map fun q => p * cols + q

/-- NumPy: two index arrays are broadcast against each other and give one position for every pair. -/
def pairPositions (cols : Nat) (ps qs : List Nat) : Except PyErr (List Nat) :=
  if ps.length = qs.length then .ok (List.zipWith (fun p q => p * cols + q) ps qs)
  else if ps.length = 1 then .ok (qs.map fun q => ps.headD 0 * cols + q)
  else if qs.length = 1 then .ok (ps.map fun p => p * cols + qs.headD 0)
  else .error .indexError

/-- NumPy: an index for the first axis only. -/
def resolveRows (rows cols : Nat) (a : AxisIndex) : Except PyErr (List Nat × List Nat) := do
  let ps ← a.positions rows
  return (a.dims ps ++ [cols], outerPositions cols ps (List.range cols))

/-- NumPy: an index for both axes. -/
def resolveBoth (rows cols : Nat) : AxisIndex → AxisIndex → Except PyErr (List Nat × List Nat)
  | .list is, .list js => do
    let ps ← mapRaise (npIndex rows) is
    let qs ← mapRaise (npIndex cols) js
    let out ← pairPositions cols ps qs
    return ([out.length], out)
  | a, b => do
    let ps ← a.positions rows
    let qs ← b.positions cols
    return (a.dims ps ++ b.dims qs, outerPositions cols ps qs)

/-- NumPy: the shape of `X[index]` and the flat positions of its entries, for `X` with two dimensions.  (Boolean
masks, `None` and `Ellipsis` are not modelled.) -/
def NpIndex.resolve (rows cols : Nat) : NpIndex → Except PyErr (List Nat × List Nat)
  | .axis a => resolveRows rows cols a
  | .tuple [] => .ok ([rows, cols], List.range (rows * cols))
  | .tuple [a] => resolveRows rows cols a
  | .tuple [a, b] => resolveBoth rows cols a b
  | .tuple _ => .error .indexError

variable [Zero α]

/-- `X[index]` -/
def npGetitem (X : NdArr α) (rows cols : Nat) (index : NpIndex) : Except PyErr (NdArr α) := do
  let (shape, ps) ← index.resolve rows cols
  return ⟨shape, ps.map fun p => X.data.getD p 0⟩

/-- `dX[index] = dY` for an array `dX` of zeros: one assignment after the other.  (`dY` has to have the shape of
`dX[index]`; broadcasting is not modelled and raises ValueError here.) -/
def npSetitem (rows cols : Nat) (index : NpIndex) (dY : NdArr α) : Except PyErr (NdArr α) := do
  let (shape, ps) ← index.resolve rows cols
  if dY.shape = shape then
    return ⟨[rows, cols], (ps.zip dY.data).foldl (fun d e => d.set e.1 e.2) (List.replicate (rows * cols) 0)⟩
  else .error .valueError

/-- thinc/layers/array_getitem.py:38-51 `forward`, the same for `array_getitem`, `floats_getitem` and `ints_getitem`, on
an array of `rows` rows and `cols` columns. -/
def getitemForward (index : NpIndex) (rows cols : Nat) (X : NdArr α) :
    Except PyErr (NdArr α × (NdArr α → Except PyErr (NdArr α))) := do
  if rows = 0 then return (X, npSetitem rows cols index)
  else return (← npGetitem X rows cols index, npSetitem rows cols index)

end Thinc
