import Verif.Model.CMem
import Mathlib.Analysis.SpecialFunctions.Pow.Real
import Mathlib.Analysis.SpecialFunctions.Trigonometric.Basic
/-!
# Position encodings and n-gram hashes

Floats are reals: `sinf`, `cosf` and the power are exact.  `period` is the C `float` the `int`
argument is converted to; the power is the real power, which is what C computes for a positive
period (a period of zero or less gives infinities or NaN and is outside the model).
-/
namespace Thinc

/-- `pos / period ** (2 * d / dimensions)`, thinc/backends/numpy_ops.pyx:580-583. -/
noncomputable def encodeAngle (period : ℝ) (D : Nat) (pos d : ℝ) : ℝ := pos / period ^ (2 * d / (D : ℝ))

/-- The state of the column loop: `j`, `d` and the buffer. -/
structure EncodeState where
  j : Nat
  d : ℝ
  out : Buf ℝ

/-- The body of the `while` loop, thinc/backends/numpy_ops.pyx:579-582; `base` is the offset of the
pointer `output`, which has moved by `D` per row. -/
noncomputable def encodePair (period : ℝ) (D : Nat) (pos : ℝ) (base : Nat) (s : EncodeState) :
    Except PyErr EncodeState := do
  let d : ℝ := s.j
  let out ← s.out.write ((base + s.j : Nat) : Int) (Real.sin (encodeAngle period D pos d))
  let out ← out.write ((base + (s.j + 1) : Nat) : Int) (Real.cos (encodeAngle period D pos d))
  .ok ⟨s.j + 2, d, out⟩

/-- `while (j+1) < D: …`, thinc/backends/numpy_ops.pyx:578-582; `fuel` bounds the number of rounds
and is `D`, which is more than the loop can use. -/
noncomputable def encodeWhile (period : ℝ) (D : Nat) (pos : ℝ) (base : Nat) :
    Nat → EncodeState → Except PyErr EncodeState
  | 0, s => .ok s
  | fuel + 1, s => if s.j + 1 < D then do
      let s' ← encodePair period D pos base s
      encodeWhile period D pos base fuel s'
    else .ok s

/-- `if j < D: output[j] = …`, thinc/backends/numpy_ops.pyx:583-584. -/
noncomputable def encodeLast (period : ℝ) (D : Nat) (pos : ℝ) (base : Nat) (s : EncodeState) :
    Except PyErr (Buf ℝ) :=
  if s.j < D then s.out.write ((base + s.j : Nat) : Int) (Real.sin (encodeAngle period D pos s.d)) else .ok s.out

/-- One row, thinc/backends/numpy_ops.pyx:574-584. -/
noncomputable def encodeRow (period : ℝ) (D : Nat) (out : Buf ℝ) (i : Nat) : Except PyErr (Buf ℝ) := do
  let s ← encodeWhile period D (i : ℝ) (i * D) D ⟨0, 0, out⟩
  encodeLast period D (i : ℝ) (i * D) s

/-- thinc/backends/numpy_ops.pyx:570-585 `cpu_position_encode(output, period, N, D)`. -/
noncomputable def cpuPositionEncode (out : Buf ℝ) (period : ℝ) (N D : Nat) : Except PyErr (Buf ℝ) :=
  forN N out (encodeRow period D)

/-- thinc/backends/numpy_ops.pyx:548-557 `NumpyOps.position_encode(N, D, period, out)`.  `fresh` is
what the uninitialised memory of `self.alloc((N, D), zeros=False)` happens to hold.  A given `out`
is a C-contiguous float array (the code writes through `out.data` and checks only the shape).
thinc/backends/ops.py:1369-1376 and thinc/backends/cupy_ops.py:345-347 convert this result. -/
noncomputable def positionEncode (fresh : Nat → ℝ) (N D : Nat) (period : ℝ) (out : Option (Mat ℝ)) :
    Except PyErr (Mat ℝ) := do
  let out_ : Mat ℝ := out.getD ⟨N, D, fresh⟩
  if out_.rows ≠ N then .error .assertionError
  else if out_.cols ≠ D then .error .assertionError
  else do
    let b ← cpuPositionEncode out_.buf period N D
    .ok (b.toMat N D)

/-- The `n` keys `hash64(&keys_[i], n*sizeof(keys_[0]), 0)` reads. -/
def readKeys {α : Type} (b : Buf α) : Nat → Nat → Except PyErr (List α)
  | _, 0 => .ok []
  | i, n + 1 => do
    let x ← b.read (i : Int)
    let xs ← readKeys b (i + 1) n
    .ok (x :: xs)

/-- One round of the loop of thinc/backends/numpy_ops.pyx:544-545.  `hash64` (murmurhash, outside
the repository) is an arbitrary function of the keys it reads. -/
def ngramAt {α β : Type} (hash64 : List α → β) (keys : Buf α) (n : Nat) (output : Buf β) (i : Nat) :
    Except PyErr (Buf β) := do
  let window ← readKeys keys i n
  output.write (i : Int) (hash64 window)

/-- thinc/backends/numpy_ops.pyx:537-546 `NumpyOps.ngrams(n, keys)`.  `zero` is the content of the
allocated array; `&keys[0]` is bounds-checked, so that no keys at all are an `IndexError`. -/
def ngrams {α β : Type} (zero : β) (hash64 : List α → β) (n : Int) (keys : List α) (pad : α) :
    Except PyErr (List β) :=
  if n < 1 then .ok []
  else if keys.length = 0 then .error .indexError
  else do
    let length := max 0 ((keys.length : Int) - (n - 1))
    let output ← forN ((keys.length : Int) - (n - 1)).toNat ⟨length.toNat, fun _ => zero⟩
      (ngramAt hash64 ⟨keys.length, fun i => keys.getD i pad⟩ n.toNat)
    .ok ((List.range output.size).map output.val)

/-- thinc/backends/ops.py:1361-1367 `Ops.ngrams(n, keys)`, the version of the GPU backend: the
`uint64` hashes are converted by `asarray1i`, whose default type is `int32`
(thinc/backends/ops.py:707-710): the low 32 bits, read with a sign. -/
def opsNgrams (hash64 : List (BitVec 64) → BitVec 64) (n : Int) (keys : List (BitVec 64)) :
    Except PyErr (List Int) := do
  let hashes ← ngrams 0 hash64 n keys 0
  .ok (hashes.map (fun h => (h.truncate 32).toInt))

end Thinc
