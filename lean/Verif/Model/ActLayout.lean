import Verif.Model.Activations
/-!
# `relu` and `mish` of `NumpyOps` on arrays of any memory layout

The kernels get `<float*>x.data` and `x.size`, and go through that many numbers behind the data pointer, whatever the strides are.
Simplifications: matrices of float32 (float64 takes the same way, other types go to `Ops`), positive strides, arguments that do not overlap.
-/
namespace Thinc

/-- A matrix inside a memory: the index of its first element, its strides (in elements) and its shape. -/
structure View2 where
  start : Nat
  s0 : Nat
  s1 : Nat
  rows : Nat
  cols : Nat

/-- Where element `(i, j)` is. -/
def View2.pos (v : View2) (i j : Nat) : Nat := v.start + v.s0 * i + v.s1 * j

/-- The layout of `numpy.array(X)`, which keeps the order of the axes (`order="K"`): rows one after another if the stride of the rows is at
least that of the columns, otherwise columns one after another. -/
def View2.copyLayout (v : View2) : View2 :=
  if v.s1 ≤ v.s0 then ⟨0, v.cols, 1, v.rows, v.cols⟩ else ⟨0, 1, v.rows, v.rows, v.cols⟩

/-- The memory of `numpy.array(X)`. -/
def View2.copyMem (v : View2) (mem : Nat → ℝ) : Nat → ℝ := fun p =>
  if v.s1 ≤ v.s0 then mem (v.pos (p / v.cols) (p % v.cols)) else mem (v.pos (p % v.rows) (p / v.rows))

/-- thinc/backends/numpy_ops.pyx:1120-1124 `_inplace_or_copy` -/
def inplaceOrCopy (inplace : Bool) (v : View2) (mem : Nat → ℝ) : View2 × (Nat → ℝ) :=
  if inplace then (v, mem) else (v.copyLayout, v.copyMem mem)

/-- thinc/backends/numpy_ops.pyx:128-140 `NumpyOps.relu` and 222-234 `NumpyOps.mish`, with `f` the kernel on one element. -/
noncomputable def numpyAct (f : ℝ → ℝ) (inplace : Bool) (v : View2) (mem : Nat → ℝ) : View2 × (Nat → ℝ) :=
  let Y := inplaceOrCopy inplace v mem
  (Y.1, fun p => if Y.1.start ≤ p ∧ p < Y.1.start + Y.1.rows * Y.1.cols then f (Y.2 p) else Y.2 p)

/-- thinc/backends/numpy_ops.pyx:142-157 `NumpyOps.backprop_relu` and 236-250 `NumpyOps.backprop_mish`, with `b` the kernel on one element of
`dY` and one of the other array. -/
noncomputable def numpyActBack (b : ℝ → ℝ → ℝ) (inplace : Bool) (d : View2) (dY : Nat → ℝ) (y : View2) (Y : Nat → ℝ) :
    Except PyErr (View2 × (Nat → ℝ)) :=
  if d.rows ≠ y.rows ∨ d.cols ≠ y.cols then .error .valueError
  else
    let dX := inplaceOrCopy inplace d dY
    .ok (dX.1, fun p =>
      if dX.1.start ≤ p ∧ p < dX.1.start + y.rows * y.cols then b (dX.2 p) (Y (y.start + (p - dX.1.start))) else dX.2 p)

/-- thinc/backends/cpu_kernels.hh:340-352 `cpu_relu`, one element. -/
noncomputable def reluEntry (x : ℝ) : ℝ := cpuRelu (fun _ : Unit => x) ()

/-- thinc/backends/numpy_ops.pyx:152-154, one element. -/
noncomputable def reluBackEntry (d y : ℝ) : ℝ := cpuBackpropRelu (fun _ : Unit => d) (fun _ => y) ()

end Thinc
