import Verif.Model.Optimizer
/-!
# `ops.adam` called directly, on views of larger arrays and with `mod_rate`

Simplification: the four arrays lie in four separate memories (they do not overlap); strides are positive.
-/
namespace Thinc

/-- A one-dimensional array inside a memory: the index its data pointer points to, and the distance between elements. -/
structure View where
  start : Nat
  stride : Nat

/-- Where element `i` is. -/
def View.pos (v : View) (i : Nat) : Nat := v.start + v.stride * i

/-- `v[...] = f`, for a view of `n` elements: NumPy writes to the places of the elements. -/
def View.assign (v : View) (n : Nat) (f : Nat → ℝ) (mem : Nat → ℝ) : Nat → ℝ := fun j =>
  if v.start ≤ j ∧ v.stride ∣ j - v.start ∧ (j - v.start) / v.stride < n then f ((j - v.start) / v.stride) else mem j

/-- The memories of weights, gradient and moments. -/
structure AdamBufs where
  w : Nat → ℝ
  g : Nat → ℝ
  m1 : Nat → ℝ
  m2 : Nat → ℝ

/-- The four arguments of `adam`: each a view and a number of elements. -/
structure AdamArgs where
  w : View
  g : View
  m1 : View
  m2 : View
  nw : Nat
  ng : Nat
  n1 : Nat
  n2 : Nat

/-- The three checks at the beginning, thinc/backends/ops.py:1193-1195 and thinc/backends/numpy_ops.pyx:525-527 (`_check_compatible_shape`,
thinc/backends/ops.py:1705-1708 and thinc/backends/numpy_ops.pyx:1114-1117). -/
def adamChecks (a : AdamArgs) : Except PyErr Unit := do
  if a.nw ≠ a.ng then throw .valueError
  if a.nw ≠ a.n1 then throw .valueError
  if a.nw ≠ a.n2 then throw .valueError

/-- thinc/backends/ops.py:1181-1205 `Ops.adam`: operations of NumPy on the views. -/
noncomputable def opsAdamView (b1 b2 eps lr modRate : ℝ) (a : AdamArgs) (B : AdamBufs) : Except PyErr AdamBufs := do
  adamChecks a
  let n := a.nw
  let m1 := a.m1.assign n (fun i => B.m1 (a.m1.pos i) * b1) B.m1
  let m2 := a.m2.assign n (fun i => B.m2 (a.m2.pos i) * b2) B.m2
  let m1 := a.m1.assign n (fun i => m1 (a.m1.pos i) + B.g (a.g.pos i) * (1 - b1)) m1
  let m2 := a.m2.assign n (fun i => m2 (a.m2.pos i) + B.g (a.g.pos i) * B.g (a.g.pos i) * (1 - b2)) m2
  let w := a.w.assign n
    (fun i => B.w (a.w.pos i) - lr * (m1 (a.m1.pos i) / (modRate * Real.sqrt (m2 (a.m2.pos i)) + eps))) B.w
  return ⟨w, B.g, m1, m2⟩

/-- The memory behind a data pointer. -/
def behind (v : View) (mem : Nat → ℝ) : Nat → ℝ := fun i => mem (v.start + i)

/-- A memory after the part behind a data pointer has become `out`. -/
def putBack (v : View) (out mem : Nat → ℝ) : Nat → ℝ := fun j => if v.start ≤ j then out (j - v.start) else mem j

/-- thinc/backends/numpy_ops.pyx:521-536 `NumpyOps.adam`: the kernel gets the data pointers `<float*>x.data` and the number of elements, and
neither the strides nor `mod_rate`.  The declaration `np.ndarray[np.float32_t]` accepts arrays of any stride. -/
noncomputable def numpyAdamView (b1 b2 eps lr _modRate : ℝ) (a : AdamArgs) (B : AdamBufs) : Except PyErr AdamBufs := do
  adamChecks a
  let r := numpyAdam b1 b2 eps lr a.nw (behind a.w B.w) ⟨behind a.g B.g, behind a.m1 B.m1, behind a.m2 B.m2⟩
  return ⟨putBack a.w r.1 B.w, putBack a.g r.2.grad B.g, putBack a.m1 r.2.mom1 B.m1, putBack a.m2 r.2.mom2 B.m2⟩

end Thinc
