import Verif.Model.Py
/-!
# Layers that change the shape or the device of the data around another layer

thinc/layers/with_reshape.py and thinc/layers/with_cpu.py.  The inner layer is an arbitrary function that may raise.
-/
namespace Thinc.Container

/-! ### Arrays with a shape -/

/-- An array: its shape and its entries in row-major order. -/
structure NdArray (α : Type) where
  shape : List Nat
  data : List α
  deriving DecidableEq

variable {α : Type}

/-- The length of an axis in the new shape, given the length found for `-1`. -/
def axisLength (unknown : Nat) (d : Int) : Nat := if d = -1 then unknown else d.toNat

/-- `array.reshape(shape)` (thinc/backends/ops.py:661-665): `-1` may occur once and stands for the length that fits; the
number of entries must not change. -/
def NdArray.reshape (a : NdArray α) (shape : List Int) : Except PyErr (NdArray α) :=
  let known := ((shape.filter (· ≠ -1)).map Int.toNat).prod
  if shape.any (· < -1) then .error .valueError
  else if shape.count (-1) = 0 then
    if known = a.data.length then .ok ⟨shape.map Int.toNat, a.data⟩ else .error .valueError
  else if 1 < shape.count (-1) then .error .valueError
  else if known = 0 then .error .valueError
  else if a.data.length % known = 0 then .ok ⟨shape.map (axisLength (a.data.length / known)), a.data⟩
  else .error .valueError

/-- `ops.reshape3(array, *shape)` (thinc/backends/ops.py:623-624): exactly three lengths. -/
def NdArray.reshape3 (a : NdArray α) : List Nat → Except PyErr (NdArray α)
  | [d0, d1, d2] => a.reshape [d0, d1, d2]
  | _ => .error .typeError

/-- `array.shape[i]` -/
def NdArray.axis (a : NdArray α) (i : Nat) : Except PyErr Nat :=
  match a.shape[i]? with
  | some n => .ok n
  | none => .error .indexError

/-- A layer: `layer(X, is_train=…)`. -/
abbrev Inner (V W : Type) := V → Bool → Except PyErr (W × (W → Except PyErr V))

/-- thinc/layers/with_reshape.py:33-35: the callback `backprop`.  `initialShape` is the shape of the input. -/
def reshapeBackprop (initialShape : List Nat) (nB nT : Nat) (back : NdArray α → Except PyErr (NdArray α)) (dY : NdArray α) :
    Except PyErr (NdArray α) := do
  let reshaped ← dY.reshape [((nB * nT : Nat) : Int), -1]
  let d ← reshaped.reshape3 initialShape
  back d

/-- thinc/layers/with_reshape.py:23-37 `forward`.  `nO` is `layer.get_dim("nO")`. -/
def withReshape (layer : Inner (NdArray α) (NdArray α)) (nO : Except PyErr Nat) : Inner (NdArray α) (NdArray α) :=
  fun X isTrain => do
    let nO ← nO
    let nB ← X.axis 0
    let nT ← X.axis 1
    let width ← X.axis 2
    let X2d ← X.reshape [-1, (width : Int)]
    let (Y2d, back) ← layer X2d isTrain
    let Y ← Y2d.reshape3 (X.shape.dropLast ++ [nO])
    .ok (Y, reshapeBackprop X.shape nB nT back)

/-! ### Devices -/

/-- Where an array is. -/
inductive Device where
  | cpu
  | gpu
  deriving DecidableEq

/-- Arrays (with contents `α`) on a device, nested in tuples and lists; dicts; other objects (without a method `get`). -/
inductive Val (α : Type) where
  | arr (device : Device) (data : α)
  | tup (xs : List (Val α))
  | list (xs : List (Val α))
  | dict (size : Nat)
  | other (id : Nat)

mutual
/-- thinc/layers/with_cpu.py:39-49 `_to_cpu`: arrays on the GPU have a method `get`; so have dicts, but theirs needs an
argument. -/
def toCpu : Val α → Except PyErr (Val α)
  | .arr .cpu x => .ok (.arr .cpu x)
  | .arr .gpu x => .ok (.arr .cpu x)
  | .tup xs => (toCpuAll xs).map .tup
  | .list xs => (toCpuAll xs).map .list
  | .dict _ => .error .typeError
  | .other i => .ok (.other i)
/-- thinc/layers/with_cpu.py:43, 45: the comprehensions. -/
def toCpuAll : List (Val α) → Except PyErr (List (Val α))
  | [] => .ok []
  | x :: xs => do
    let y ← toCpu x
    let ys ← toCpuAll xs
    .ok (y :: ys)
end

mutual
/-- thinc/layers/with_cpu.py:52-58 `_to_device`: everything that is not a tuple or list becomes an array of the device of
`ops` (thinc/backends/numpy_ops.pyx:55-69, thinc/backends/cupy_ops.py:86-102 `asarray`); `array` says what becomes of objects
that are no arrays. -/
def toDevice (device : Device) (array : Val α → Except PyErr α) : Val α → Except PyErr (Val α)
  | .arr _ x => .ok (.arr device x)
  | .tup xs => (toDeviceAll device array xs).map .tup
  | .list xs => (toDeviceAll device array xs).map .list
  | .dict n => (array (.dict n)).map (.arr device)
  | .other i => (array (.other i)).map (.arr device)
/-- thinc/layers/with_cpu.py:54, 56: the comprehensions. -/
def toDeviceAll (device : Device) (array : Val α → Except PyErr α) : List (Val α) → Except PyErr (List (Val α))
  | [] => .ok []
  | x :: xs => do
    let y ← toDevice device array x
    let ys ← toDeviceAll device array xs
    .ok (y :: ys)
end

/-- thinc/layers/with_cpu.py:28-30 `with_cpu_backprop`. -/
def cpuBackprop (back : Val α → Except PyErr (Val α)) (d : Val α) : Except PyErr (Val α) := do
  let cpu ← toCpu d
  back cpu

/-- thinc/layers/with_cpu.py:24-32 `forward`: `begin_update` is a call with `is_train=True` (thinc/model.py:321-328). -/
def withCpu (layer : Inner (Val α) (Val α)) (device : Device) (array : Val α → Except PyErr α) : Inner (Val α) (Val α) :=
  fun X _isTrain => do
    let X ← toCpu X
    let (Y, back) ← layer X true
    let Y ← toDevice device array Y
    .ok (Y, cpuBackprop back)

end Thinc.Container
