import Verif.Model.Pooling
import Mathlib.Data.Fin.VecNotation
/-!
# Hashing
-/
namespace Thinc

/-- The finalisation of one half of the hash, the second block of thinc/backends/numpy_ops.pyx:1095-1104:
`h ^= h >> 33; h *= 0xff51afd7ed558ccd; h ^= h >> 33; h *= 0xc4ceb9fe1a85ec53; h ^= h >> 33`. -/
def murmurFinal (h : BitVec 64) : BitVec 64 :=
  let h := h ^^^ (h >>> 33)
  let h := h * 0xff51afd7ed558ccd#64
  let h := h ^^^ (h >>> 33)
  let h := h * 0xc4ceb9fe1a85ec53#64
  h ^^^ (h >>> 33)

/-- thinc/backends/numpy_ops.pyx:1078-1111 `MurmurHash3_x86_128_uint64`: the four 32-bit results. -/
def murmurHash (val : BitVec 64) (seed : BitVec 32) : Fin 4 → BitVec 32 :=
  let h1 := val
  let h1 := h1 * 0x87c37b91114253d5#64
  let h1 := (h1 <<< 31) ||| (h1 >>> 33)
  let h1 := h1 * 0x4cf5ad432745937f#64
  let h1 := h1 ^^^ seed.setWidth 64
  let h1 := h1 ^^^ 8#64
  let h2 := seed.setWidth 64
  let h2 := h2 ^^^ 8#64
  let h1 := h1 + h2
  let h2 := h2 + h1
  let h1 := murmurFinal h1
  let h2 := murmurFinal h2
  let h1 := h1 + h2
  let h2 := h2 + h1
  ![(h1 &&& 0xffffffff#64).setWidth 32, (h1 >>> 32).setWidth 32, (h2 &&& 0xffffffff#64).setWidth 32, (h2 >>> 32).setWidth 32]

/-- thinc/backends/numpy_ops.pyx:328-336 `NumpyOps.hash`, after `as_contig(ids, dtype="uint64")`
(thinc/layers/hashembed.py:68), which takes the ids modulo 2^64. -/
def hashIds (ids : List Int) (seed : BitVec 32) : Mat Int :=
  Mat.ofFn ids.length 4 (fun i k => if h : k < 4 then ((murmurHash (BitVec.ofInt 64 (ids.getD i 0)) seed ⟨k, h⟩).toNat : Int) else 0)

/-- `keys % nV` (thinc/layers/hashembed.py:71) -/
def Mat.modInt (x : Mat Int) (nV : Nat) : Mat Int := Mat.ofFn x.rows x.cols (fun i j => x.at i j % nV)

end Thinc
