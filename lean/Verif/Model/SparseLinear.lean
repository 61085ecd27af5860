import Verif.Model.Layer
import Verif.Model.Pooling
/-!
# SparseLinear

The compiled code works on raw pointers; reading or writing outside a buffer is the outcome `outOfBounds`.  The dtypes and
the memory layout of the arrays are not checked by the code and not modelled: keys are `uint64`, values `float32` and lengths
`int32`, all contiguous.  C `int` overflow is not modelled.
-/
namespace Thinc

/-! ### The hash -/

/-- One half of the key: thinc/layers/sparselinear.pyx:195-201 and 202-208, the same operations twice. -/
def murmur32Round (h1 k1 : BitVec 32) : BitVec 32 :=
  let k1 := k1 * 0xcc9e2d51#32
  let k1 := (k1 <<< 15) ||| (k1 >>> 17)
  let k1 := k1 * 0x1b873593#32
  let h1 := h1 ^^^ k1
  let h1 := (h1 <<< 13) ||| (h1 >>> 19)
  h1 * 5#32 + 0xe6546b64#32

/-- The finalisation, thinc/layers/sparselinear.pyx:210-214. -/
def murmur32Final (h1 : BitVec 32) : BitVec 32 :=
  let h1 := h1 ^^^ (h1 >>> 16)
  let h1 := h1 * 0x85ebca6b#32
  let h1 := h1 ^^^ (h1 >>> 13)
  let h1 := h1 * 0xc2b2ae35#32
  h1 ^^^ (h1 >>> 16)

/-- thinc/layers/sparselinear.pyx:189-216 `MurmurHash3_x86_32_uint64` -/
def murmur32 (key : BitVec 64) (seed : BitVec 32) : BitVec 32 :=
  let h1 := seed
  let h1 := murmur32Round h1 ((key &&& 0xffffffff#64).setWidth 32)
  let h1 := murmur32Round h1 ((key >>> 32).setWidth 32)
  let h1 := h1 ^^^ 8#32
  murmur32Final h1

/-! ### The loops -/

/-- The column of the weights for a hash: thinc/layers/sparselinear.pyx:138-143 and 170-175.  (`%` with 0 is undefined
behaviour in C.) -/
def sparseIndex (v1 : Bool) (hash : BitVec 32) (nrWeight : Nat) : Except PyErr Nat :=
  if v1 then .ok (hash &&& BitVec.ofInt 32 (nrWeight - 1)).toNat
  else if nrWeight = 0 then .error .zeroDivisionError
  else .ok (hash.toNat % nrWeight)

/-- The offset of a weight: `idx + clas` or `(clas * nr_weight) + idx` -/
def sparseOffset (v1 : Bool) (nrWeight idx clas : Nat) : Nat := if v1 then idx + clas else clas * nrWeight + idx

/-- `p[i] += x` -/
def Buf.incr (b : Buf ℝ) (i : Int) (x : ℝ) : Except PyErr (Buf ℝ) := do
  let y ← b.read i
  b.write i (y + x)

/-- thinc/layers/sparselinear.pyx:146-152, the body of the loop over the classes in `set_scoresC`.  `ptr` is the offset of the
pointer `scores`. -/
def scoreClass (v1 : Bool) (weights : Buf ℝ) (nrWeight : Nat) (ptr : Int) (idx1 idx2 : Nat) (value : ℝ) (scores : Buf ℝ)
    (clas : Nat) : Except PyErr (Buf ℝ) := do
  let w ← weights.read (sparseOffset v1 nrWeight idx1 clas : Nat)
  let scores ← scores.incr (ptr + clas) (w * value)
  let w ← weights.read (sparseOffset v1 nrWeight idx2 clas : Nat)
  scores.incr (ptr + clas) (w * value)

/-- thinc/layers/sparselinear.pyx:178-183, the same in `set_gradientC`.  `ptr` is the offset of the pointer `d_scores`. -/
def gradClass (v1 : Bool) (dScores : Buf ℝ) (nrWeight : Nat) (ptr : Int) (idx1 idx2 : Nat) (value : ℝ) (dWeights : Buf ℝ)
    (clas : Nat) : Except PyErr (Buf ℝ) := do
  let d ← dScores.read (ptr + clas)
  let dWeights ← dWeights.incr (sparseOffset v1 nrWeight idx1 clas : Nat) (d * value)
  let d ← dScores.read (ptr + clas)
  dWeights.incr (sparseOffset v1 nrWeight idx2 clas : Nat) (d * value)

/-- thinc/layers/sparselinear.pyx:136-145 and 167-177, the body of the loop over the features of one example: `keyPtr` is the
offset of the pointers `keys` and `values`, `body` the loop over the classes. -/
def sparseFeature (v1 : Bool) (keys : Buf (BitVec 64)) (values : Buf ℝ) (nrOut nrWeight : Nat) (keyPtr : Int)
    (body : Nat → Nat → ℝ → Buf ℝ → Nat → Except PyErr (Buf ℝ)) (out : Buf ℝ) (i : Nat) : Except PyErr (Buf ℝ) := do
  let key ← keys.read (keyPtr + i)
  let hash1 := murmur32 key 0#32
  let hash2 := murmur32 key 1#32
  let idx1 ← sparseIndex v1 hash1 nrWeight
  let idx2 ← sparseIndex v1 hash2 nrWeight
  let value ← values.read (keyPtr + i)
  forN nrOut out (body idx1 idx2 value)

/-- thinc/layers/sparselinear.pyx:134-155 and 166-186, the body of the loop over the batch.  The state is the output buffer and
the offsets of the pointer to the scores and of the pointers to keys and values.  A negative length moves the pointers
back. -/
def sparseExample (v1 : Bool) (keys : Buf (BitVec 64)) (values : Buf ℝ) (nrOut nrWeight : Nat)
    (body : Int → Nat → Nat → ℝ → Buf ℝ → Nat → Except PyErr (Buf ℝ)) (s : Buf ℝ × Int × Int) (length : Int) :
    Except PyErr (Buf ℝ × Int × Int) := do
  let out ← forN length.toNat s.1 (sparseFeature v1 keys values nrOut nrWeight s.2.2 (body s.2.1))
  return (out, s.2.1 + nrOut, s.2.2 + length)

/-- thinc/layers/sparselinear.pyx:129-155 `set_scoresC` -/
def setScoresC (scores : Buf ℝ) (keys : Buf (BitVec 64)) (values : Buf ℝ) (lengths : List Int) (nrOut : Nat) (weights : Buf ℝ)
    (nrWeight : Nat) (v1 : Bool) : Except PyErr (Buf ℝ) := do
  let s ← forM' lengths (scores, 0, 0) (sparseExample v1 keys values nrOut nrWeight (scoreClass v1 weights nrWeight))
  return s.1

/-- thinc/layers/sparselinear.pyx:160-186 `set_gradientC` -/
def setGradientC (dWeights : Buf ℝ) (keys : Buf (BitVec 64)) (values : Buf ℝ) (lengths : List Int) (nrOut : Nat)
    (dScores : Buf ℝ) (nrWeight : Nat) (v1 : Bool) : Except PyErr (Buf ℝ) := do
  let s ← forM' lengths (dWeights, 0, 0) (sparseExample v1 keys values nrOut nrWeight (gradClass v1 dScores nrWeight))
  return s.1

/-! ### The layer -/

/-- The input: a tuple of keys, values and lengths.  (One-dimensional arrays; the values are a matrix with one row here.) -/
def Val.asFeatures : Val → Except PyErr (List Int × Mat ℝ × List Int)
  | .tup [.ints keys, .arr values, .ints lengths] => .ok (keys, values, lengths)
  | _ => .error .valueError

/-- The buffer of the keys. -/
def keyBuf (keys : List Int) : Buf (BitVec 64) := ⟨keys.length, fun i => BitVec.ofInt 64 (keys.getD i 0)⟩

/-- thinc/layers/sparselinear.pyx:110, 118-121: `d_bias[j] += d_scores[i, j]` for all entries, with an IndexError for a column
without bias. -/
noncomputable def sparseBias (nO : Nat) (dScores : Mat ℝ) : Except PyErr (Mat ℝ) :=
  if dScores.rows ≠ 0 ∧ nO < dScores.cols then .error .indexError
  else .ok (Mat.ofFn 1 nO fun _ j => if j < dScores.cols then ∑ i ∈ Finset.range dScores.rows, dScores.at i j else 0)

/-- thinc/layers/sparselinear.pyx:50-59 `forward` on CPU arrays with `_begin_cpu_update` (82-94) and `_finish_linear_update`
(97-124).  `W` and `b` are the numbers of the parameters, `nO` and `length` the dimensions, and `v1` the attribute
`v1_indexing`.  `&d_scores[0,0]` needs an entry.  The callback returns the input and not a gradient of it. -/
noncomputable def sparseLinear (W b nO length : Nat) (v1 : Bool) : Layer := fun _ P X => do
  let (keys, values, lengths) ← X.asFeatures
  let scores ← npUpdate (· + ·) (Mat.zeros lengths.length nO : Mat ℝ) (P b)
  let scores ← setScoresC scores.buf (keyBuf keys) values.buf lengths nO (P W).buf length v1
  let callback : Callback := fun dScores G => do
    let dScores ← dScores.asArr
    let d ← dScores.pointer
    let dWeights ← setGradientC (Mat.zeros 1 (nO * length) : Mat ℝ).buf (keyBuf keys) values.buf lengths nO d length v1
    let dBias ← sparseBias nO dScores
    let G ← incGrad G W (dWeights.toMat 1 (nO * length))
    let G ← incGrad G b dBias
    return (X, G)
  return (.arr (scores.toMat lengths.length nO), callback)

end Thinc
