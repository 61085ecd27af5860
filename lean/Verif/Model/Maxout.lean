import Verif.Model.Pooling
/-!
# Maxout
-/
namespace Thinc
variable {K : Type}

/-- A C-contiguous three-dimensional array. -/
structure Cube (α : Type) where
  d0 : Nat
  d1 : Nat
  d2 : Nat
  val : Nat → α

/-- `x[b, o, p]`. -/
def Cube.at {α : Type} (x : Cube α) (b o p : Nat) : α := x.val ((b * x.d1 + o) * x.d2 + p)

/-- `x.data`. -/
def Cube.buf {α : Type} (x : Cube α) : Buf α := ⟨x.d0 * x.d1 * x.d2, x.val⟩

/-- `&x[0, 0, 0]` on a typed memoryview: bounds-checked. -/
def Cube.pointer {α : Type} (x : Cube α) : Except PyErr (Buf α) :=
  if 0 < x.d0 ∧ 0 < x.d1 ∧ 0 < x.d2 then .ok x.buf else .error .indexError

/-- thinc/backends/cpu_kernels.hh:36-54 `argmax(arr, len)`, the loop over an array: the first
element is taken without looking at `len`; a later one replaces it if it is larger. -/
def argmaxLoop [LinearOrder K] (arr : Buf K) (off : Int) (len : Nat) : Except PyErr (K × Nat) := do
  let x ← arr.read off
  forN (len - 1) (x, 0) (fun r i => do
    let a ← arr.read (off + (i + 1 : Nat))
    if a > r.1 then pure (a, i + 1) else pure r)

/-- thinc/backends/cpu_kernels.hh:56-79: `argmax(a, args...)` on a fixed number of arguments. -/
def argmaxArgs [LinearOrder K] : K → List K → K × Nat
  | a, [] => (a, 0)
  | a, b :: rest =>
    let acc := argmaxArgs b rest
    if acc.1 > a then (acc.1, acc.2 + 1) else (a, 0)

/-- thinc/backends/cpu_kernels.hh:93-122 `cpu_maxout`. -/
def cpuMaxout [LinearOrder K] (best : Buf K) (which : Buf Int) (cands : Buf K) (B O P : Nat) :
    Except PyErr (Buf K × Buf Int) :=
  let put (s : Buf K × Buf Int) (i : Nat) (r : K × Nat) : Except PyErr (Buf K × Buf Int) := do
    let which ← s.2.write i r.2
    let best ← s.1.write i r.1
    pure (best, which)
  if P = 2 then
    forN (B * O) (best, which) (fun s i => do
      let x0 ← cands.read ((i * P : Nat) + (0 : Nat))
      let x1 ← cands.read ((i * P : Nat) + (1 : Nat))
      put s i (argmaxArgs x0 [x1]))
  else if P = 3 then
    forN (B * O) (best, which) (fun s i => do
      let x0 ← cands.read ((i * P : Nat) + (0 : Nat))
      let x1 ← cands.read ((i * P : Nat) + (1 : Nat))
      let x2 ← cands.read ((i * P : Nat) + (2 : Nat))
      put s i (argmaxArgs x0 [x1, x2]))
  else
    forN (B * O) (best, which) (fun s i => do
      let r ← argmaxLoop cands (i * P : Nat) P
      put s i r)

/-- thinc/backends/numpy_ops.pyx:189-206 `NumpyOps.maxout`.  `junk` and `junkW` are what the two
uninitialised output arrays contain. -/
def maxout [LinearOrder K] (junk : Nat → K) (junkW : Nat → Int) (X : Cube K) :
    Except PyErr (Mat K × Mat Int) := do
  if 0 < X.d0 then
    let p ← X.pointer
    let (best, which) ← cpuMaxout ⟨X.d0 * X.d1, junk⟩ ⟨X.d0 * X.d1, junkW⟩ p X.d0 X.d1 X.d2
    pure (best.toMat X.d0 X.d1, which.toMat X.d0 X.d1)
  else pure (⟨X.d0, X.d1, junk⟩, ⟨X.d0, X.d1, junkW⟩)

/-- The state of `cpu_backprop_maxout`: `dX__bop` is the gradient buffer with the offset of the
moving pointer, `pos` the offset of `dX__bo` and `which__bo`. -/
structure BackMaxout (K : Type) where
  dX : Buf K
  off : Int
  pos : Int

/-- thinc/backends/cpu_kernels.hh:125-145 `cpu_backprop_maxout`; the exception `out_of_range`
becomes Python's IndexError. -/
def cpuBackpropMaxout (dX dY : Buf K) (which : Buf Int) (B O P : Nat) : Except PyErr (Buf K) := do
  let s ← forN B ⟨dX, 0, 0⟩ (fun (s : BackMaxout K) _ =>
    forN O s (fun s _ => do
      let w ← which.read s.pos
      if w ≥ P then .error .indexError
      else
        let d ← dY.read s.pos
        let dX ← s.dX.write (s.off + w) d
        pure ⟨dX, s.off + P, s.pos + 1⟩))
  pure s.dX

/-- thinc/backends/numpy_ops.pyx:208-219 `NumpyOps.backprop_maxout`. -/
def backpropMaxout [Zero K] (dY : Mat K) (which : Mat Int) (P : Nat) : Except PyErr (Cube K) := do
  let d ← dY.pointer
  let w ← which.pointer
  let b ← cpuBackpropMaxout ⟨dY.rows * dY.cols * P, fun _ => 0⟩ d w dY.rows dY.cols P
  pure ⟨dY.rows, dY.cols, P, b.val⟩

/-- thinc/backends/ops.py:888-890 `Ops.maxout`: numpy's `argmax` (the first largest) and `max` over the
last axis; ValueError if that axis is empty. -/
def opsMaxout [LinearOrder K] (X : Cube K) : Except PyErr (Mat K × Mat Int) :=
  if X.d2 = 0 then .error .valueError
  else
    let row := fun k => (List.range X.d2).map (fun p => X.val (k * X.d2 + p))
    .ok (⟨X.d0, X.d1, fun k => X.val (k * X.d2 + listArgmax (row k))⟩,
      ⟨X.d0, X.d1, fun k => (listArgmax (row k) : Int)⟩)

/-- thinc/backends/ops.py:892-897 `Ops.backprop_maxout`; `dX[b, o, w] = ...` accepts negative `w`
down to `-P`. -/
def opsBackpropMaxout [Zero K] (dY : Mat K) (which : Mat Int) (P : Nat) : Except PyErr (Cube K) := do
  let v ← forN dY.rows (fun _ => (0 : K)) (fun v b =>
    forN dY.cols v (fun v o =>
      if ¬ (b < which.rows ∧ o < which.cols) then .error .indexError
      else
        let w := which.at b o
        if ¬ (-(P : Int) ≤ w ∧ w < P) then .error .indexError
        else
          let w' := (if w < 0 then w + P else w).toNat
          .ok (fun k => if k = (b * dY.cols + o) * P + w' then dY.at b o else v k)))
  pure ⟨dY.rows, dY.cols, P, v⟩

end Thinc
