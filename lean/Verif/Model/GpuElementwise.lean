import Verif.Model.GpuKernels
import Verif.Model.Activations
import Verif.Model.Hash
/-!
# The elementwise CUDA kernels and the hashing kernel

Floats are real numbers, so the rounding of the constants `INV_SQRT_2` and `INV_SQRT_2PI` (thinc/backends/_custom_kernels.cu:9-23) is left
out.  A kernel reads an element anew whenever its text names it.
-/
namespace Thinc.Gpu
open Real

/-! ## Kernels -/

/-- thinc/backends/_custom_kernels.cu:175-179, the loop body of `clipped_linear`. -/
noncomputable def clippedLinearBody (Y X : Nat) (slope offset minVal maxVal : ℝ) (_ : Unit) (i : Nat) : Prog ℝ Unit := do
  let x ← readNum X i
  let y := x * slope + offset
  writeNum Y i (min (max y minVal) maxVal)

/-- thinc/backends/_custom_kernels.cu:189-193, the loop body of `dish`. -/
noncomputable def dishBody (Y X : Nat) (_ : Unit) (i : Nat) : Prog ℝ Unit := do
  let x ← readNum X i
  writeNum Y i (0.5 * x * (x / √(1 + x * x) + 1))

/-- thinc/backends/_custom_kernels.cu:203-214, the loop body of `gelu`, with CUDA's `erf` as a parameter. -/
noncomputable def geluBody (erf : ℝ → ℝ) (Y X : Nat) (threshold : ℝ) (_ : Unit) (i : Nat) : Prog ℝ Unit := do
  let x ← readNum X i
  if x ≥ threshold then writeNum Y i x
  else if x ≤ -threshold then writeNum Y i 0
  else
    let cdf := 0.5 * (1 + erf (1 / √2 * x))
    writeNum Y i (x * cdf)

/-- thinc/backends/_custom_kernels.cu:224-230, the loop body of `mish`. -/
noncomputable def mishBody (Y X : Nat) (threshold : ℝ) (_ : Unit) (i : Nat) : Prog ℝ Unit := do
  let x ← readNum X i
  if x ≥ threshold then do
    let x ← readNum X i
    writeNum Y i x
  else do
    let x ← readNum X i
    let x' ← readNum X i
    writeNum Y i (x * tanh (log (1 + exp x')))

/-- thinc/backends/_custom_kernels.cu:240-250, the loop body of `swish`. -/
noncomputable def swishBody (Y X : Nat) (threshold : ℝ) (_ : Unit) (i : Nat) : Prog ℝ Unit := do
  let x ← readNum X i
  if x ≥ threshold then do
    let x ← readNum X i
    writeNum Y i x
  else do
    let x ← readNum X i
    if x ≤ -threshold then writeNum Y i 0
    else do
      let x ← readNum X i
      let cdf := 1 / (1 + exp (-x))
      let x ← readNum X i
      writeNum Y i (x * cdf)

/-- thinc/backends/_custom_kernels.cu:396-408, the loop body of `backprop_clipped_linear`.  (If the slope is zero, the bounds `low` and
`high` are infinite or not a number in the code and zero here; in both cases the result is zero.) -/
noncomputable def backpropClippedLinearBody (dX dY X : Nat) (slope offset minVal maxVal : ℝ) (_ : Unit) (i : Nat) : Prog ℝ Unit := do
  let low := (minVal - offset) / slope
  let high := (maxVal - offset) / slope
  let x ← readNum X i
  if low < x ∧ x < high then do
    let y ← readNum dY i
    writeNum dX i (y * slope)
  else writeNum dX i 0

/-- thinc/backends/_custom_kernels.cu:418-427, the loop body of `backprop_hard_swish`. -/
noncomputable def backpropHardSwishBody (dX dY X : Nat) (_ : Unit) (i : Nat) : Prog ℝ Unit := do
  let x ← readNum X i
  if x > 2.5 then do
    let y ← readNum dY i
    writeNum dX i y
  else do
    let x ← readNum X i
    if x < -2.5 then writeNum dX i 0
    else do
      let y ← readNum dY i
      let x ← readNum X i
      writeNum dX i (y * (x * 0.4 + 0.5))

/-- thinc/backends/_custom_kernels.cu:437-446, the loop body of `backprop_hard_swish_mobilenet`. -/
noncomputable def backpropHardSwishMobilenetBody (dX dY X : Nat) (_ : Unit) (i : Nat) : Prog ℝ Unit := do
  let x ← readNum X i
  if x > 3 then do
    let y ← readNum dY i
    writeNum dX i y
  else do
    let x ← readNum X i
    if x < -3 then writeNum dX i 0
    else do
      let y ← readNum dY i
      let x ← readNum X i
      writeNum dX i (y * ((x * 2 + 3) / 6))

/-- thinc/backends/_custom_kernels.cu:457-464, the loop body of `backprop_dish`. -/
noncomputable def backpropDishBody (dX dY X : Nat) (_ : Unit) (i : Nat) : Prog ℝ Unit := do
  let x ← readNum X i
  let xSq := x * x
  let xSqPlusOne := xSq + 1
  let y ← readNum dY i
  writeNum dX i (y * (x / √xSqPlusOne - (0.5 * x * xSq) / xSqPlusOne ^ (1.5 : ℝ) + 0.5))

/-- thinc/backends/_custom_kernels.cu:476-489, the loop body of `backprop_gelu`. -/
noncomputable def backpropGeluBody (erf : ℝ → ℝ) (dX dY X : Nat) (threshold : ℝ) (_ : Unit) (i : Nat) : Prog ℝ Unit := do
  let x ← readNum X i
  if x ≥ threshold then do
    let y ← readNum dY i
    writeNum dX i y
  else if x ≤ -threshold then writeNum dX i 0
  else do
    let cdf := 0.5 * (1 + erf (1 / √2 * x))
    let pdf := 1 / √(2 * π) * exp (-0.5 * x * x)
    let y ← readNum dY i
    writeNum dX i (y * (cdf + x * pdf))

/-- thinc/backends/_custom_kernels.cu:517-533, the loop body of `backprop_mish`. -/
noncomputable def backpropMishBody (dX dY X : Nat) (threshold : ℝ) (_ : Unit) (i : Nat) : Prog ℝ Unit := do
  let x ← readNum X i
  if x ≥ threshold then do
    let y ← readNum dY i
    writeNum dX i y
  else do
    let expX := exp x
    let exp2X := exp (2 * x)
    let exp3X := exp (3 * x)
    let omega := (4 * (x + 1)) + (4 * exp2X) + exp3X + expX * (4 * x + 6)
    let delta := 2 * expX + exp2X + 2
    let y ← readNum dY i
    writeNum dX i (y * ((expX * omega) / (delta * delta)))

/-- thinc/backends/_custom_kernels.cu:544-558, the loop body of `backprop_swish`. -/
noncomputable def backpropSwishBody (dX dY X Y : Nat) (threshold : ℝ) (_ : Unit) (i : Nat) : Prog ℝ Unit := do
  let x ← readNum X i
  let y ← readNum Y i
  if x ≥ threshold then do
    let d ← readNum dY i
    writeNum dX i d
  else if x ≤ -threshold then writeNum dX i 0
  else do
    let cdf := 1 / (1 + exp (-x))
    let d' := y + cdf * (1 - y)
    let d ← readNum dY i
    writeNum dX i (d * d')

/-- thinc/backends/cupy_ops.py:350-358 `adam_kernel`, for one element: the arrays are `grad`, `param`, `m` and `v`. -/
noncomputable def adamBody (grad param m v : Nat) (lr oneMinusBeta1 oneMinusBeta2 eps : ℝ) (_ : Unit) (i : Nat) : Prog ℝ Unit := do
  let g ← readNum grad i
  let a ← readNum m i
  let a := a + oneMinusBeta1 * (g - a)
  writeNum m i a
  let b ← readNum v i
  let b := b + oneMinusBeta2 * (g * g - b)
  writeNum v i b
  let p ← readNum param i
  writeNum param i (p - lr * a / (√b + eps))

/-! ## Launching -/

/-- A contiguous array of floats: its shape and its elements in order. -/
structure NdArr where
  shape : List Nat
  val : Nat → ℝ

/-- `x.size` -/
def NdArr.size (x : NdArr) : Nat := x.shape.prod

/-- The arguments of an elementwise kernel: the result is a new array (`_alloc_like`, thinc/backends/_custom_kernels.py:182-186), which is
the array 0 and happens to contain `junk`, unless the first argument is to be overwritten; then that one is both the array 0 and the
result. -/
noncomputable def elemMem (inplace : Bool) (junk : Nat → ℝ) (N : Nat) (ins : List NdArr) : Mem ℝ :=
  memOf ((if inplace then [] else [nums N junk]) ++ ins.map (fun x => nums x.size x.val))

/-- The number of argument `k` of an elementwise kernel. -/
def elemArg (inplace : Bool) (k : Nat) : Nat := if inplace then k else k + 1

/-- thinc/backends/_custom_kernels.py:818-820: `_is_float_array` checks that an argument has the right shape. -/
def checkShape (x : NdArr) (shape : List Nat) : Except PyErr Unit :=
  if x.shape ≠ shape then .error .valueError else .ok ()

/-- thinc/backends/_custom_kernels.py:248-276 `clipped_linear` -/
noncomputable def gpuClippedLinear (inplace : Bool) (junk : Nat → ℝ) (slope offset minVal maxVal : ℝ) (X : NdArr) : Launch ℝ :=
  ⟨grid X.size () (clippedLinearBody 0 (elemArg inplace 0) slope offset minVal maxVal), elemMem inplace junk X.size [X]⟩

/-- thinc/backends/_custom_kernels.py:309-319 `dish` -/
noncomputable def gpuDish (inplace : Bool) (junk : Nat → ℝ) (X : NdArr) : Launch ℝ :=
  ⟨grid X.size () (dishBody 0 (elemArg inplace 0)), elemMem inplace junk X.size [X]⟩

/-- thinc/backends/_custom_kernels.py:322-336 `gelu`, called with the threshold 6 (thinc/backends/cupy_ops.py:58-62). -/
noncomputable def gpuGelu (erf : ℝ → ℝ) (inplace : Bool) (junk : Nat → ℝ) (X : NdArr) : Launch ℝ :=
  ⟨grid X.size () (geluBody erf 0 (elemArg inplace 0) 6), elemMem inplace junk X.size [X]⟩

/-- thinc/backends/_custom_kernels.py:393-409 `mish` -/
noncomputable def gpuMish (inplace : Bool) (junk : Nat → ℝ) (threshold : ℝ) (X : NdArr) : Launch ℝ :=
  ⟨grid X.size () (mishBody 0 (elemArg inplace 0) threshold), elemMem inplace junk X.size [X]⟩

/-- thinc/backends/_custom_kernels.py:485-499 `swish`, called with the threshold 17 (thinc/backends/cupy_ops.py:240-244). -/
noncomputable def gpuSwish (inplace : Bool) (junk : Nat → ℝ) (X : NdArr) : Launch ℝ :=
  ⟨grid X.size () (swishBody 0 (elemArg inplace 0) 17), elemMem inplace junk X.size [X]⟩

/-- thinc/backends/_custom_kernels.py:527-559 `backprop_clipped_linear` -/
noncomputable def gpuBackpropClippedLinear (inplace : Bool) (junk : Nat → ℝ) (slope offset minVal maxVal : ℝ) (dY X : NdArr) : Except PyErr (Launch ℝ) := do
  checkShape X dY.shape
  return ⟨grid dY.size () (backpropClippedLinearBody 0 (elemArg inplace 0) (elemArg inplace 1) slope offset minVal maxVal), elemMem inplace junk dY.size [dY, X]⟩

/-- thinc/backends/_custom_kernels.py:562-581 `backprop_hard_swish` -/
noncomputable def gpuBackpropHardSwish (inplace : Bool) (junk : Nat → ℝ) (dY X : NdArr) : Except PyErr (Launch ℝ) := do
  checkShape X dY.shape
  return ⟨grid dY.size () (backpropHardSwishBody 0 (elemArg inplace 0) (elemArg inplace 1)), elemMem inplace junk dY.size [dY, X]⟩

/-- thinc/backends/_custom_kernels.py:584-603 `backprop_hard_swish_mobilenet` -/
noncomputable def gpuBackpropHardSwishMobilenet (inplace : Bool) (junk : Nat → ℝ) (dY X : NdArr) : Except PyErr (Launch ℝ) := do
  checkShape X dY.shape
  return ⟨grid dY.size () (backpropHardSwishMobilenetBody 0 (elemArg inplace 0) (elemArg inplace 1)), elemMem inplace junk dY.size [dY, X]⟩

/-- thinc/backends/_custom_kernels.py:606-630 `backprop_dish` -/
noncomputable def gpuBackpropDish (inplace : Bool) (junk : Nat → ℝ) (dY X : NdArr) : Except PyErr (Launch ℝ) := do
  checkShape X dY.shape
  return ⟨grid dY.size () (backpropDishBody 0 (elemArg inplace 0) (elemArg inplace 1)), elemMem inplace junk dY.size [dY, X]⟩

/-- thinc/backends/_custom_kernels.py:633-658 `backprop_gelu`, called with the threshold 6 (thinc/backends/cupy_ops.py:64-68). -/
noncomputable def gpuBackpropGelu (erf : ℝ → ℝ) (inplace : Bool) (junk : Nat → ℝ) (dY X : NdArr) : Except PyErr (Launch ℝ) := do
  checkShape X dY.shape
  return ⟨grid dY.size () (backpropGeluBody erf 0 (elemArg inplace 0) (elemArg inplace 1) 6), elemMem inplace junk dY.size [dY, X]⟩

/-- thinc/backends/_custom_kernels.py:683-702 `backprop_mish` -/
noncomputable def gpuBackpropMish (inplace : Bool) (junk : Nat → ℝ) (threshold : ℝ) (dY X : NdArr) : Except PyErr (Launch ℝ) := do
  checkShape X dY.shape
  return ⟨grid dY.size () (backpropMishBody 0 (elemArg inplace 0) (elemArg inplace 1) threshold), elemMem inplace junk dY.size [dY, X]⟩

/-- thinc/backends/_custom_kernels.py:775-795 `backprop_swish`, called with the threshold 17 (thinc/backends/cupy_ops.py:246-252). -/
noncomputable def gpuBackpropSwish (inplace : Bool) (junk : Nat → ℝ) (dY X Y : NdArr) : Except PyErr (Launch ℝ) := do
  checkShape X dY.shape
  checkShape Y dY.shape
  return ⟨grid dY.size () (backpropSwishBody 0 (elemArg inplace 0) (elemArg inplace 1) (elemArg inplace 2) 17), elemMem inplace junk dY.size [dY, X, Y]⟩

/-- thinc/backends/cupy_ops.py:332-343 `CupyOps.adam`, up to the clearing of the gradient.  That an elementwise kernel is launched like a
grid loop is an assumption about CuPy.  The argument `mod_rate` is not used. -/
noncomputable def gpuAdam (b1 b2 eps lr : ℝ) (w g m1 m2 : List ℝ) : Except PyErr (Launch ℝ) :=
  if w.length ≠ g.length ∨ w.length ≠ m1.length ∨ w.length ≠ m2.length then .error .valueError
  else .ok ⟨grid w.length () (adamBody 0 1 2 3 lr (1 - b1) (1 - b2) eps),
    memOf [nums w.length (fun k => g.getD k 0), nums w.length (fun k => w.getD k 0), nums w.length (fun k => m1.getD k 0),
      nums w.length (fun k => m2.getD k 0)]⟩

/-! ## Hashing -/

/-- thinc/backends/_murmur3.cu:127-146, the `switch` for a tail of at most 8 bytes: the cases fall through, so that the bytes from the last
to the first are put into `k1`. -/
def readTail (src : Nat) (base : Nat) : Nat → BitVec 64 → Prog (BitVec 8) (BitVec 64)
  | 0, k1 => .ret k1
  | n + 1, k1 => do
    let b ← readNum src (base + n : Nat)
    readTail src base n (k1 ^^^ (b.setWidth 64 <<< (8 * n)))

/-- thinc/backends/_murmur3.cu:44-47 `rotl64` -/
def rotl64 (x : BitVec 64) (r : Nat) : BitVec 64 := (x <<< r) ||| (x >>> (64 - r))

/-- thinc/backends/_murmur3.cu:74-83 `fmix64` -/
def fmix64 (k : BitVec 64) : BitVec 64 :=
  let k := k ^^^ (k >>> 33)
  let k := k * 0xff51afd7ed558ccd#64
  let k := k ^^^ (k >>> 33)
  let k := k * 0xc4ceb9fe1a85ec53#64
  k ^^^ (k >>> 33)

/-- thinc/backends/_murmur3.cu:87-96 and 146-164: the end of `MurmurHash3_x64_128` for a key of `len ≤ 8` bytes: `h1` and `h2` from `k1`. -/
def murmurEnd (k1 : BitVec 64) (len : Nat) (seed : BitVec 32) : BitVec 64 × BitVec 64 :=
  let h1 := seed.setWidth 64
  let h2 := seed.setWidth 64
  let k1 := k1 * 0x87c37b91114253d5#64
  let k1 := rotl64 k1 31
  let k1 := k1 * 0x4cf5ad432745937f#64
  let h1 := h1 ^^^ k1
  let h1 := h1 ^^^ BitVec.ofNat 64 len
  let h2 := h2 ^^^ BitVec.ofNat 64 len
  let h1 := h1 + h2
  let h2 := h2 + h1
  let h1 := fmix64 h1
  let h2 := fmix64 h2
  let h1 := h1 + h2
  let h2 := h2 + h1
  (h1, h2)

/-- Byte `j` of the array `entropy` that holds two 64-bit integers (the device is little-endian). -/
def entropyByte (h : BitVec 64 × BitVec 64) (j : Nat) : BitVec 8 :=
  if j < 8 then (h.1 >>> (8 * j)).setWidth 8 else (h.2 >>> (8 * (j - 8))).setWidth 8

/-- thinc/backends/_murmur3.cu:178-187, the loop body of `hash_data`, for keys of at most 8 bytes. -/
def hashDataBody (dest src outSize inSize : Nat) (seed : BitVec 32) (_ : Unit) (i : Nat) : Prog (BitVec 8) Unit := do
  let k1 ← readTail src (i * inSize) inSize 0
  let h := murmurEnd k1 inSize seed
  loop outSize () (fun _ j => writeNum dest (i * outSize + j : Nat) (entropyByte h j))

/-- thinc/backends/_custom_kernels.py:798-810 `hash`: the arrays are given by their bytes. -/
def gpuHash (ids : List (BitVec 64)) (seed : BitVec 32) : Launch (BitVec 8) :=
  ⟨grid ids.length () (hashDataBody 0 1 16 8 seed),
    memOf [nums (ids.length * 16) (fun _ => 0), nums (ids.length * 8) (fun k => ((ids.getD (k / 8) 0) >>> (8 * (k % 8))).setWidth 8)]⟩

end Thinc.Gpu
