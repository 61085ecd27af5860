import Verif.Model.ArrConv
/-!
# New arrays and shapes: `alloc`, `reshape` and their variants
(thinc/backends/ops.py lines 499-665, thinc/backends/numpy_ops.pyx lines 72-76)

The simplifications of `Verif.Model.ArrConv` hold here too.
-/
namespace Thinc.ArrConv

/-- `Shape` of thinc/types.py: a number or a tuple. -/
inductive Shape where
  | int (d : Int)
  | tuple (ds : List Int)

/-- `if isinstance(shape, int): shape = (shape,)`, ops.py:609-610 and 663-664; numpy does the same (for numpy_ops.pyx:72-76). -/
def Shape.dims : Shape → List Int
  | .int d => [d]
  | .tuple ds => ds

/-- `float32`, `int32` and `float64` of a machine. -/
def Machine.float32 (M : Machine) : DType := ⟨.float, 4, M.native⟩
def Machine.int32 (M : Machine) : DType := ⟨.int, 4, M.native⟩
def Machine.float64 (M : Machine) : DType := ⟨.float, 8, M.native⟩

/-- thinc/backends/ops.py:601-615 `alloc`, and thinc/backends/numpy_ops.pyx:72-76, which is the same; `lib` is the library of the backend,
`found` are the bytes that `empty` finds in the new memory, by their number. -/
def alloc (M : Machine) (lib : Lib) (new : Nat) (found : Nat → Nat) (shape : Shape) (dtype : Option DType) (zeros : Bool) : Except PyErr Arr :=
  if shape.dims.any (· < 0) then .error .valueError
  else
    let s := shape.dims.map Int.toNat
    let d := dtype.getD M.float64
    .ok ⟨lib, d, s, true, new,
      (List.range s.prod).map fun i => (List.range d.size).map fun j => if zeros then 0 else found (i * d.size + j) % 256⟩

/-- ops.py:499-548 `alloc1f`, `alloc2f`, `alloc3f`, `alloc4f` and `alloc_f`, without a `dtype`. -/
def allocF (M : Machine) (lib : Lib) (new : Nat) (found : Nat → Nat) (shape : Shape) (zeros : Bool) : Except PyErr Arr :=
  alloc M lib new found shape (some M.float32) zeros

/-- ops.py:550-599 `alloc1i`, `alloc2i`, `alloc3i`, `alloc4i` and `alloc_i`, without a `dtype`. -/
def allocI (M : Machine) (lib : Lib) (new : Nat) (found : Nat → Nat) (shape : Shape) (zeros : Bool) : Except PyErr Arr :=
  alloc M lib new found shape (some M.int32) zeros

/-- `array.reshape(shape)` of numpy and cupy: the shape of the result for an array of `size` elements.  One dimension may be negative
(numpy takes every negative number for `-1`): it is inferred. -/
def resolveShape (size : Nat) (dims : List Int) : Except PyErr (List Nat) :=
  let known := ((dims.filter (0 ≤ ·)).map Int.toNat).prod
  match (dims.filter (· < 0)).length with
  | 0 => if known = size then .ok (dims.map Int.toNat) else .error .valueError
  | 1 => if known = 0 ∨ size % known ≠ 0 then .error .valueError else .ok (dims.map fun d => if d < 0 then size / known else d.toNat)
  | _ => .error .valueError

/-- thinc/backends/ops.py:617-665 `reshape` (and `reshape1` … `reshape4`, `reshape1f` … `reshape_f`, `reshape1i` … `reshape_i`, which hand on
a tuple).  A contiguous array gives a view.  For another one `view` says whether its strides allow a view, and whether that is
contiguous; if not, the elements are copied in C order. -/
def reshape (new : Nat) (view : Option Bool) (a : Arr) (shape : Shape) : Except PyErr Arr := do
  let s ← resolveShape a.shape.prod shape.dims
  if a.contig then return { a with shape := s }
  match view with
  | some c => return { a with shape := s, contig := c }
  | none => return { a with shape := s, contig := true, buf := new }

end Thinc.ArrConv
