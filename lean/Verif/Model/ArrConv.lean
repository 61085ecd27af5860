import Verif.Model.Py
/-!
# Conversions of arrays: `asarray`, `as_contig` and `to_numpy` of the backends
(thinc/backends/ops.py lines 75-82, 655-771, thinc/backends/numpy_ops.pyx lines 55-69, thinc/backends/cupy_ops.py lines 32-38 and 86-102)

Simplifications, for the whole file:
* an array is its type, its shape, the bytes of its elements in the order of their indices, whether it is C-contiguous, and the identity
  of the memory it reads; strides are not modelled;
* the conversion of one number to another type is a parameter (`conv`), on bit patterns;
* arrays of objects, TensorFlow and MXNet arrays are not modelled; a GPU is there for cupy.
-/
namespace Thinc.ArrConv

/-- The order of the bytes of a number in memory. -/
inductive Order where
  | little
  | big
  deriving DecidableEq, Repr

/-- `dtype.kind` of numpy. -/
inductive Kind where
  | float
  | int
  | uint
  | bool
  deriving DecidableEq, Repr

/-- A `dtype` of numpy: the kind, the number of bytes, and their order.  (`data.dtype == dtype` compares all three, ops.py:751.) -/
structure DType where
  kind : Kind
  size : Nat
  order : Order
  deriving DecidableEq, Repr

/-- What a number means apart from the order of its bytes. -/
def DType.format (d : DType) : Kind × Nat := (d.kind, d.size)

/-- The library an array belongs to: `numpy.ndarray` or `cupy.ndarray`. -/
inductive Lib where
  | numpy
  | cupy
  deriving DecidableEq, Repr

/-- An array: `cells` are the bytes of its elements, in C order of the indices, `buf` is the memory it reads. -/
structure Arr where
  lib : Lib
  dtype : DType
  shape : List Nat
  contig : Bool
  buf : Nat
  cells : List (List Nat)
  deriving DecidableEq, Repr

/-- The machine and its libraries: the order of bytes of the processor, the conversion of a number between types, and whether a copy with
`order="K"` of a non-contiguous array is contiguous. -/
structure Machine where
  native : Order
  conv : Kind × Nat → Kind × Nat → Nat → Nat
  keepOrder : Arr → Bool

/-- A number from its bytes, the lowest first. -/
def fromLittle : List Nat → Nat
  | [] => 0
  | b :: bs => b + 256 * fromLittle bs

/-- The lowest `size` bytes of a number, the lowest first. -/
def toLittle : Nat → Nat → List Nat
  | 0, _ => []
  | size + 1, n => n % 256 :: toLittle size (n / 256)

/-- How the processor (or numpy, for another order) reads the bytes of a number. -/
def decode : Order → List Nat → Nat
  | .little, c => fromLittle c
  | .big, c => fromLittle c.reverse

/-- How the processor (or numpy, for another order) writes a number. -/
def encode : Order → Nat → Nat → List Nat
  | .little, size, n => toLittle size n
  | .big, size, n => (toLittle size n).reverse

/-- The elements of an array converted to another type. -/
def Arr.castCells (M : Machine) (a : Arr) (d : DType) : List (List Nat) :=
  a.cells.map fun c => encode d.order d.size (M.conv a.dtype.format d.format (decode a.dtype.order c))

/-- `array.astype(dtype=d, copy=False)` and `xp.asarray(array, dtype=d)`: the array itself if it has the type, else a copy in new memory. -/
def Arr.astype (M : Machine) (new : Nat) (a : Arr) (d : DType) : Arr :=
  if a.dtype = d then a
  else { a with dtype := d, buf := new, contig := a.contig || M.keepOrder a, cells := a.castCells M d }

/-- `array.astype(dtype=dtype, copy=False)` under `if dtype is not None`, numpy_ops.pyx:66-67 and cupy_ops.py:99-100. -/
def Arr.astype? (M : Machine) (new : Nat) (a : Arr) : Option DType → Arr
  | none => a
  | some d => a.astype M new d

/-- What is handed to `asarray`. -/
inductive Data where
  /-- an array of numpy or cupy -/
  | array (a : Arr)
  /-- a PyTorch tensor on a GPU or the CPU, with or without `requires_grad`; `a` is the array that reads its memory -/
  | tensor (gpu grad : Bool) (a : Arr)
  /-- a `dict`, or another object whose method `get` needs an argument -/
  | mapping
  /-- nested sequences of Python numbers; `a` is the array that `numpy.array` makes of them without a `dtype` (the numbers fit the types
  they are converted to) -/
  | nested (a : Arr)

/-- `array.get()` of cupy: a C-contiguous copy in the memory of the host. -/
def Arr.get (new : Nat) (a : Arr) : Arr := { a with lib := .numpy, contig := true, buf := new }

/-- `tensor.numpy()`: TypeError for a tensor on a GPU, RuntimeError (`userError 0`) for one that requires gradients, else an array that
shares the memory of the tensor. -/
def tensorNumpy (gpu grad : Bool) (a : Arr) : Except PyErr Arr :=
  if gpu then .error .typeError else if grad then .error (.userError 0) else .ok a

/-- `cupy.array(data)` of an array in the memory of the host: a copy on the GPU in the order of bytes of the processor. -/
def Arr.toGpu (M : Machine) (new : Nat) (a : Arr) : Arr :=
  { a.astype M new { a.dtype with order := M.native } with lib := .cupy, buf := new }

/-- thinc/backends/numpy_ops.pyx:55-69 `NumpyOps.asarray`; new arrays get the memory `new`. -/
def numpyAsarray (M : Machine) (new : Nat) (data : Data) (dtype : Option DType) : Except PyErr Arr := do
  let array ← match data with
    | .array a => match a.lib with
      | .numpy => .ok a
      | .cupy => .ok (a.get new)
    | .tensor gpu grad a => tensorNumpy gpu grad a
    | .mapping => .error .typeError
    | .nested a => .ok ({ a with buf := new }.astype? M new dtype)
  return array.astype? M new dtype

/-- thinc/backends/cupy_ops.py:86-102 `CupyOps.asarray`.  A tensor on the GPU shares its memory by way of DLPack (thinc/util.py:428). -/
def cupyAsarray (M : Machine) (new : Nat) (data : Data) (dtype : Option DType) : Except PyErr Arr := do
  let array ← match data with
    | .array a => match a.lib with
      | .cupy => .ok (a.astype? M new dtype)
      | .numpy => .ok ((a.toGpu M new).astype? M new dtype)
    | .tensor gpu grad a =>
      if gpu then .ok a
      else (tensorNumpy gpu grad a).map fun host => (host.toGpu M new).astype? M new dtype
    | .mapping => .error .valueError
    | .nested a => .ok ((a.toGpu M new).astype? M new dtype)
  return array.astype? M new dtype

/-- thinc/backends/ops.py:741-762 `Ops.asarray`, for a backend of its own that works with numpy and inherits it.  numpy refuses arrays of
cupy.  (A `dict` without a `dtype` would become an array of an object: not modelled, an error here.) -/
def baseAsarray (M : Machine) (new : Nat) (data : Data) (dtype : Option DType) : Except PyErr Arr :=
  match data with
  | .array a => match a.lib with
    | .numpy => match dtype with
      | none => .ok a
      | some d => if a.dtype = d then .ok a else .ok (a.astype M new d)
    | .cupy => .error .typeError
  | .tensor gpu grad a => tensorNumpy gpu grad a
  | .mapping => .error .typeError
  | .nested a => .ok ({ a with buf := new }.astype? M new dtype)

/-- thinc/backends/ops.py:763-771 `as_contig`.  `ascontiguousarray` gives an array of at least one dimension. -/
def asContig (M : Machine) (new : Nat) (data : Arr) (dtype : Option DType) : Arr :=
  if data.contig = true ∧ (dtype = none ∨ dtype = some data.dtype) then data
  else
    { data with dtype := dtype.getD data.dtype, buf := new, contig := true, shape := if data.shape = [] then [1] else data.shape,
                cells := if dtype = none ∨ dtype = some data.dtype then data.cells else data.castCells M (dtype.getD data.dtype) }

/-- The values of `byte_order`: `"<"`, `">"`, `"="` and `"S"`. -/
inductive ByteOrder where
  | little
  | big
  | native
  | swap

/-- `dtype.newbyteorder(byte_order)`; types of one byte have no order. -/
def DType.newByteOrder (M : Machine) (d : DType) (b : ByteOrder) : DType :=
  if d.size ≤ 1 then d
  else match b with
    | .little => { d with order := .little }
    | .big => { d with order := .big }
    | .native => { d with order := M.native }
    | .swap => { d with order := match d.order with | .little => .big | .big => .little }

/-- `if byte_order: data = numpy.asarray(data, dtype=data.dtype.newbyteorder(byte_order))`, ops.py:77-79 and cupy_ops.py:35-37. -/
def Arr.reorder (M : Machine) (new : Nat) (a : Arr) : Option ByteOrder → Arr
  | none => a
  | some b => a.astype M new (a.dtype.newByteOrder M b)

/-- thinc/backends/ops.py:75-82 `Ops.to_numpy`, which NumpyOps inherits. -/
def toNumpy (M : Machine) (new : Nat) (data : Data) (byteOrder : Option ByteOrder) : Except PyErr Arr :=
  match data with
  | .array a => match a.lib with
    | .numpy => .ok (a.reorder M new byteOrder)
    | .cupy => .error .valueError
  | _ => .error .valueError

/-- thinc/backends/cupy_ops.py:32-38 `CupyOps.to_numpy`: tensors and sequences have no method `get`. -/
def cupyToNumpy (M : Machine) (new : Nat) (data : Data) (byteOrder : Option ByteOrder) : Except PyErr Arr :=
  match data with
  | .array a => match a.lib with
    | .numpy => .ok (a.reorder M new byteOrder)
    | .cupy => .ok ((a.get new).reorder M new byteOrder)
  | .mapping => .error .typeError
  | _ => .error .attributeError

end Thinc.ArrConv
