import Mathlib.Algebra.Group.Defs
/-!
# Layers that share arrays

The layer model of `Verif.Model.Layer` has immutable values.  Here arrays are objects at addresses, so
that `Y += Z` changes what everyone who holds `Y` sees.  The contents of an array are elements of an
additive group `V` (all arrays have the same shape: the in-place additions of `add` and `tuplify` need
that).  Parameters and exceptions are left out.
-/
namespace Thinc

/-- The arrays that exist: their contents by address, and the first address not in use. -/
structure ArrHeap (V : Type) where
  cell : Nat → V
  next : Nat

variable {V : Type}

/-- A new array. -/
def ArrHeap.alloc (h : ArrHeap V) (v : V) : Nat × ArrHeap V :=
  (h.next, ⟨fun a => if a = h.next then v else h.cell a, h.next + 1⟩)

/-- `A += B` -/
def ArrHeap.iadd [Add V] (h : ArrHeap V) (a b : Nat) : ArrHeap V :=
  ⟨fun c => if c = a then h.cell a + h.cell b else h.cell c, h.next⟩

/-- A callback: from the address of the gradient of the output to that of the gradient of the input. -/
abbrev HCallback (V : Type) := Nat → ArrHeap V → Nat × ArrHeap V

/-- A layer's forward function. -/
abbrev HLayer (V : Type) := Nat → ArrHeap V → (Nat × HCallback V) × ArrHeap V

/-- thinc/layers/noop.py:14-21 `forward`: the output *is* the input. -/
def hNoop : HLayer V := fun X h => ((X, fun dY h => (dY, h)), h)

/-- A layer that computes a new array with `f` and whose callback computes a new array with `b`, from the
contents that the input has when the callback runs (layers keep a reference to their input). -/
def hMap (f : V → V) (b : V → V → V) : HLayer V := fun X h =>
  let (Y, h) := h.alloc (f (h.cell X))
  ((Y, fun dY h => h.alloc (b (h.cell X) (h.cell dY))), h)

/-- A layer that computes a new array with `f` and whose callback uses the contents that the *output* has
when the callback runs: for instance thinc/layers/relu.py:45-57 and thinc/layers/sigmoid.py:38-50 (the
activation, without the parameters), thinc/layers/softmax_activation.py:16-22. -/
def hKeepsOutput (f : V → V) (b : V → V → V) : HLayer V := fun X h =>
  let (Y, h) := h.alloc (f (h.cell X))
  ((Y, fun dY h => h.alloc (b (h.cell Y) (h.cell dY))), h)

section
variable [Add V]

/-- The loop of thinc/layers/add.py:34-38. -/
def hAddForward (X Y : Nat) : List (HLayer V) → ArrHeap V → List (HCallback V) × ArrHeap V
  | [], h => ([], h)
  | layer :: layers, h =>
    let ((layerY, callback), h) := layer X h
    let h := h.iadd Y layerY
    let (callbacks, h) := hAddForward X Y layers h
    (callback :: callbacks, h)

/-- The loop of thinc/layers/add.py:42-43. -/
def hAddBackward (dY dX : Nat) : List (HCallback V) → ArrHeap V → ArrHeap V
  | [], h => h
  | callback :: callbacks, h =>
    let (d, h) := callback dY h
    hAddBackward dY dX callbacks (h.iadd dX d)

/-- thinc/layers/add.py:30-46 `forward` -/
def hAdd : List (HLayer V) → HLayer V
  | [], X, h => ((X, fun dY h => (dY, h)), h)
  | layer :: layers, X, h =>
    let ((Y, firstCallback), h) := layer X h
    let (callbacks, h) := hAddForward X Y layers h
    ((Y, fun dY h =>
      let (dX, h) := firstCallback dY h
      (dX, hAddBackward dY dX callbacks h)), h)

/-- thinc/layers/residual.py:28-50 `forward` for a `Padded` input; the array is the data of the
`Padded`. -/
def hResidualPadded (layer : HLayer V) : HLayer V := fun X h =>
  let ((Y, backpropLayer), h) := layer X h
  ((Y, fun dOutput h =>
    let (dX, h) := backpropLayer dOutput h
    (dX, h.iadd dX dOutput)), h.iadd Y X)

/-- thinc/layers/residual.py:28-50 `forward` for an array input. -/
def hResidual (layer : HLayer V) : HLayer V := fun X h =>
  let ((Y, backpropLayer), h) := layer X h
  let (Z, h) := h.alloc (h.cell X + h.cell Y)
  ((Z, fun dOutput h =>
    let (dX, h) := backpropLayer dOutput h
    h.alloc (h.cell dOutput + h.cell dX)), h)

/-- The calls in thinc/layers/chain.py:48-64 `forward`, for two layers. -/
def hChain (f g : HLayer V) : HLayer V := fun X h =>
  let ((Y, incCallback), h) := f X h
  let ((Z, incCallback'), h) := g Y h
  ((Z, fun dY h =>
    let (d, h) := incCallback' dY h
    incCallback d h), h)

end
end Thinc
