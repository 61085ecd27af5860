import Verif.Model.Hash
import Verif.Lemmas.CMem
import Verif.Lemmas.Softmax
/-!
# C67: hash keys
-/
namespace Thinc

theorem add_right_cancel_bv {a b c : BitVec 64} (h : a + c = b + c) : a = b := by
  rw [← BitVec.add_sub_cancel a c, h, BitVec.add_sub_cancel]

theorem add_left_cancel_bv {a b c : BitVec 64} (h : a + b = a + c) : b = c := by
  rw [BitVec.add_comm a, BitVec.add_comm a] at h
  exact add_right_cancel_bv h

theorem xorshift_cancel (h : BitVec 64) : (h ^^^ (h >>> 33)) ^^^ ((h ^^^ (h >>> 33)) >>> 33) = h := by
  ext i hi
  simp only [BitVec.getElem_xor, BitVec.getElem_ushiftRight, BitVec.getLsbD_xor, BitVec.getLsbD_ushiftRight]
  have : h.getLsbD (33 + (33 + i)) = false := BitVec.getLsbD_of_ge _ _ (by omega)
  rw [this]
  simp

theorem xorshift_inj {a b : BitVec 64} (h : a ^^^ (a >>> 33) = b ^^^ (b >>> 33)) : a = b := by
  rw [← xorshift_cancel a, ← xorshift_cancel b, h]

theorem mul_inj_of_inv (c d : BitVec 64) (hcd : c * d = 1#64) {a b : BitVec 64} (h : a * c = b * c) : a = b := by
  have : a * (c * d) = b * (c * d) := by rw [← BitVec.mul_assoc, ← BitVec.mul_assoc, h]
  rwa [hcd, BitVec.mul_one, BitVec.mul_one] at this

theorem rotate_inj {a b : BitVec 64} (h : (a <<< 31) ||| (a >>> 33) = (b <<< 31) ||| (b >>> 33)) : a = b := by
  ext i hi
  by_cases h1 : i < 33
  · have := congrArg (fun x : BitVec 64 => x.getLsbD (i + 31)) h
    simp only [BitVec.getLsbD_or, BitVec.getLsbD_shiftLeft, BitVec.getLsbD_ushiftRight] at this
    have ea : a.getLsbD (33 + (i + 31)) = false := BitVec.getLsbD_of_ge _ _ (by omega)
    have eb : b.getLsbD (33 + (i + 31)) = false := BitVec.getLsbD_of_ge _ _ (by omega)
    rw [ea, eb] at this
    simpa [show i + 31 < 64 by omega, BitVec.getLsbD_eq_getElem hi] using this
  · have := congrArg (fun x : BitVec 64 => x.getLsbD (i - 33)) h
    simp only [BitVec.getLsbD_or, BitVec.getLsbD_shiftLeft, BitVec.getLsbD_ushiftRight] at this
    rw [show 33 + (i - 33) = i by omega] at this
    simpa [show i - 33 < 31 by omega, BitVec.getLsbD_eq_getElem hi] using this

theorem murmurFinal_inj {a b : BitVec 64} (h : murmurFinal a = murmurFinal b) : a = b := by
  unfold murmurFinal at h
  have h := mul_inj_of_inv 0xc4ceb9fe1a85ec53#64 0x9cb4b2f8129337db#64 (by decide +kernel) (xorshift_inj h)
  have h := mul_inj_of_inv 0xff51afd7ed558ccd#64 0x4f74430c22a54005#64 (by decide +kernel) (xorshift_inj h)
  exact xorshift_inj h

theorem halves_inj {a b : BitVec 64}
    (h0 : (a &&& 0xffffffff#64).setWidth 32 = (b &&& 0xffffffff#64).setWidth 32)
    (h1 : (a >>> 32).setWidth 32 = (b >>> 32).setWidth 32) : a = b := by
  have mask : ∀ i < 32, (0xffffffff#64).getLsbD i = true := by decide
  ext i hi
  by_cases hl : i < 32
  · have := congrArg (fun x : BitVec 32 => x.getLsbD i) h0
    simp only [BitVec.getLsbD_setWidth, BitVec.getLsbD_and, mask i hl] at this
    simpa [hl, BitVec.getLsbD_eq_getElem hi] using this
  · have := congrArg (fun x : BitVec 32 => x.getLsbD (i - 32)) h1
    simp only [BitVec.getLsbD_setWidth, BitVec.getLsbD_ushiftRight] at this
    rw [show 32 + (i - 32) = i by omega] at this
    simpa [show i - 32 < 32 by omega, BitVec.getLsbD_eq_getElem hi] using this

/-- With one seed, two different 64-bit keys never have the same four hashes. -/
theorem C67_injective (seed : BitVec 32) (a b : BitVec 64) (h : ∀ k, murmurHash a seed k = murmurHash b seed k) : a = b := by
  have e0 := h 0
  have e1 := h 1
  have e2 := h 2
  have e3 := h 3
  unfold murmurHash at e0 e1 e2 e3
  simp only [Matrix.cons_val] at e0 e1 e2 e3
  have k1 := halves_inj e0 e1
  have k2 := halves_inj e2 e3
  rw [k1] at k2
  have k3 := add_right_cancel_bv k2
  rw [k3] at k1
  have k4 := murmurFinal_inj (add_right_cancel_bv k1)
  have k5 := add_right_cancel_bv k4
  have k6 := (BitVec.xor_left_inj _).1 ((BitVec.xor_left_inj _).1 k5)
  have k7 := mul_inj_of_inv 0x4cf5ad432745937f#64 0xa81e14edd9de2c7f#64 (by decide +kernel) k6
  exact mul_inj_of_inv 0x87c37b91114253d5#64 0xa98409e882ce4d7d#64 (by decide +kernel) (rotate_inj k7)

/-- `NumpyOps.hash` gives a row of four 32-bit numbers for every id, which depends on the id (modulo 2^64)
and the seed only. -/
theorem C67_hash_rows (ids : List Int) (seed : BitVec 32) :
    (hashIds ids seed).rows = ids.length ∧ (hashIds ids seed).cols = 4 ∧
      ∀ (i : ℕ) (hi : i < ids.length) (k : Fin 4),
        (hashIds ids seed).at i k = ((murmurHash (BitVec.ofInt 64 ids[i]) seed k).toNat : Int) := by
  refine ⟨rfl, rfl, fun i hi k => ?_⟩
  unfold hashIds
  rw [ofFn_at _ _ _ _ _ k.2, dif_pos k.2]
  simp [List.getD_eq_getElem?_getD, hi]

/-- For a table with at least one row, the keys are rows of the table. -/
theorem C67_keys_in_range (ids : List Int) (seed : BitVec 32) (nV : ℕ) (hV : 0 < nV) :
    ((hashIds ids seed).modInt nV).rows = ids.length ∧ ((hashIds ids seed).modInt nV).cols = 4 ∧
      ∀ (i : ℕ) (hi : i < ids.length) (k : Fin 4),
        ((hashIds ids seed).modInt nV).at i k = (((murmurHash (BitVec.ofInt 64 ids[i]) seed k).toNat % nV : ℕ) : Int) ∧
        0 ≤ ((hashIds ids seed).modInt nV).at i k ∧ ((hashIds ids seed).modInt nV).at i k < nV := by
  refine ⟨rfl, rfl, fun i hi k => ?_⟩
  have e : ((hashIds ids seed).modInt nV).at i k = (((murmurHash (BitVec.ofInt 64 ids[i]) seed k).toNat % nV : ℕ) : Int) := by
    unfold Mat.modInt
    rw [(C67_hash_rows ids seed).2.1, ofFn_at _ _ _ _ _ k.2, (C67_hash_rows ids seed).2.2 i hi k, Int.natCast_mod]
  have : (murmurHash (BitVec.ofInt 64 ids[i]) seed k).toNat % nV < nV := Nat.mod_lt _ hV
  exact ⟨e, by omega, by omega⟩

/-- Two ids below 2^64 with the same keys before the reduction modulo the table size are equal. -/
theorem C67_distinct_ids (seed : BitVec 32) (a b : ℕ) (ha : a < 2 ^ 64) (hb : b < 2 ^ 64)
    (h : ∀ k : Fin 4, (hashIds [(a : Int)] seed).at 0 k = (hashIds [(b : Int)] seed).at 0 k) : a = b := by
  have := C67_injective seed (BitVec.ofInt 64 a) (BitVec.ofInt 64 b) fun k => by
    have e := h k
    rw [(C67_hash_rows [(a : Int)] seed).2.2 0 (by simp) k, (C67_hash_rows [(b : Int)] seed).2.2 0 (by simp) k] at e
    exact BitVec.eq_of_toNat_eq (by exact_mod_cast e)
  have e := congrArg BitVec.toNat this
  rw [BitVec.ofInt_natCast, BitVec.ofInt_natCast, BitVec.toNat_ofNat, BitVec.toNat_ofNat, Nat.mod_eq_of_lt ha,
    Nat.mod_eq_of_lt hb] at e
  exact e

/-- Keys of two ids in a table with 3 rows; the first id is hashed to different rows than the second. -/
example : (0 : ℕ) < 3 ∧ (List.range 4).map (((hashIds [1, 2] 0).modInt 3).at 0) ≠
    (List.range 4).map (((hashIds [1, 2] 0).modInt 3).at 1) := by decide +kernel

end Thinc
