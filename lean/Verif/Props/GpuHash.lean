import Verif.Model.GpuElementwise
import Verif.Props.GpuKernels
import Mathlib.Tactic.IntervalCases
/-!
# C96: hashing on the GPU
-/
namespace Thinc.Gpu

theorem wp_readTail {rd own : Loc → Prop} {m : Mem (BitVec 8)} {base : Nat} {v : BitVec 64} :
    ∀ (n : Nat) (k : BitVec 64), (∀ j < n, base + j < m.size 1 ∧ rd (1, base + j) ∧
      m.get (1, base + j) = .num ((v >>> (8 * j)).setWidth 8)) → n ≤ 8 →
      (readTail 1 base n k).wp rd own m (fun r m' => m' = m ∧ ∀ t < 64, r.getLsbD t = (k.getLsbD t ^^ (decide (t < 8 * n) && v.getLsbD t)))
  | 0, k, _, _ => ⟨rfl, by simp⟩
  | n + 1, k, h, hn => by
    obtain ⟨h1, h2, h3⟩ := h n (by omega)
    refine wp_bind'.2 (wp_readNum (base + n) rfl h1 h2 h3 ?_)
    refine wp_mono (fun r m' hr => ⟨hr.1, fun t ht => ?_⟩) (wp_readTail n _ (fun j hj => h j (by omega)) (by omega))
    rw [hr.2 t ht]
    simp only [BitVec.getLsbD_xor, BitVec.getLsbD_shiftLeft, BitVec.getLsbD_setWidth, BitVec.getLsbD_ushiftRight]
    by_cases hlt : t < 8 * n
    · simp [hlt, ht, show t < 8 * (n + 1) by omega]
    · by_cases hlt' : t < 8 * (n + 1)
      · simp [hlt, hlt', ht, show t - 8 * n < 64 by omega, show t - 8 * n < 8 by omega, show 8 * n + (t - 8 * n) = t by omega]
      · simp [hlt, hlt', ht, show ¬ (t - 8 * n < 8) by omega]

theorem byte_low (h : BitVec 64) (r : Nat) (hr : r < 4) :
    (((h &&& 0xffffffff#64).setWidth 32 >>> (8 * r)).setWidth 8 : BitVec 8) = (h >>> (8 * r)).setWidth 8 := by
  ext t ht
  simp only [BitVec.getElem_setWidth, BitVec.getLsbD_ushiftRight, BitVec.getLsbD_setWidth, BitVec.getLsbD_and]
  have e : (0xffffffff#64).getLsbD (8 * r + t) = true := by
    have hn : 8 * r + t < 32 := by omega
    generalize 8 * r + t = n at hn
    interval_cases n <;> rfl
  rw [e]
  simp
  omega

theorem byte_high (h : BitVec 64) (r : Nat) (hr : r < 4) :
    (((h >>> 32).setWidth 32 >>> (8 * r)).setWidth 8 : BitVec 8) = (h >>> (8 * (r + 4))).setWidth 8 := by
  ext t ht
  simp only [BitVec.getElem_setWidth, BitVec.getLsbD_ushiftRight, BitVec.getLsbD_setWidth]
  rw [show 32 + (8 * r + t) = 8 * (r + 4) + t by ring]
  simp
  omega

/-- Byte `j` of the four 32-bit numbers `h`, stored one after the other, the lowest byte first. -/
def hashByte (h : Fin 4 → BitVec 32) (j : Nat) : BitVec 8 :=
  if hj : j / 4 < 4 then (h ⟨j / 4, hj⟩ >>> (8 * (j % 4))).setWidth 8 else 0

theorem hashByte_word (h : Fin 4 → BitVec 32) (q r : Nat) (hq : q < 4) (hr : r < 4) :
    hashByte h (4 * q + r) = (h ⟨q, hq⟩ >>> (8 * r)).setWidth 8 := by
  have e1 : (4 * q + r) / 4 = q := by omega
  have e2 : (4 * q + r) % 4 = r := by omega
  simp only [hashByte, e1, e2, hq, dite_true]

theorem murmur_eq (v : BitVec 64) (seed : BitVec 32) : ∃ h1 h2 : BitVec 64, murmurEnd v 8 seed = (h1, h2) ∧ murmurHash v seed =
    ![(h1 &&& 0xffffffff#64).setWidth 32, (h1 >>> 32).setWidth 32, (h2 &&& 0xffffffff#64).setWidth 32, (h2 >>> 32).setWidth 32] := by
  refine ⟨(murmurEnd v 8 seed).1, (murmurEnd v 8 seed).2, rfl, ?_⟩
  simp only [murmurHash, murmurEnd, rotl64, fmix64, murmurFinal, BitVec.xor_comm (seed.setWidth 64)]

theorem entropy_eq (v : BitVec 64) (seed : BitVec 32) (j : Nat) (hj : j < 16) :
    entropyByte (murmurEnd v 8 seed) j = hashByte (murmurHash v seed) j := by
  obtain ⟨h1, h2, e1, e2⟩ := murmur_eq v seed
  obtain ⟨q, r, hq, hr, rfl⟩ : ∃ q r, q < 4 ∧ r < 4 ∧ j = 4 * q + r := ⟨j / 4, j % 4, by omega, by omega, by omega⟩
  rw [e1, e2, hashByte_word _ q r hq hr, entropyByte]
  interval_cases q
  · rw [if_pos (by omega), show 4 * 0 + r = r by omega]
    exact (byte_low h1 r hr).symm
  · rw [if_pos (by omega), show 4 * 1 + r = r + 4 by omega]
    exact (byte_high h1 r hr).symm
  · rw [if_neg (by omega), show 4 * 2 + r - 8 = r by omega]
    exact (byte_low h2 r hr).symm
  · rw [if_neg (by omega), show 4 * 3 + r - 8 = r + 4 by omega]
    exact (byte_high h2 r hr).symm

theorem wp_writeRow {m : Mem (BitVec 8)} {i w : Nat} (b : Nat → BitVec 8) (hsz : ∀ j < w, i * w + j < m.size 0) :
    (loop w () (fun _ j => writeNum 0 (i * w + j : Nat) (b j))).wp (fun l => l.1 ≠ 0 ∨ ownRow 0 w i l) (ownRow 0 w i) m
      (fun _ m' => ∀ o < w, m'.get (0, i * w + o) = .num (b o)) := by
  have hw := wp_loopF (rd := fun l => l.1 ≠ 0 ∨ ownRow 0 w i l) (own := ownRow 0 w i) (m0 := m) (m := m) (n := w) (s := ())
    (body := fun _ j => writeNum 0 (i * w + j : Nat) (b j))
    (fun n _ m => ∀ o < n, m.get (0, i * w + o) = .num (b o)) (by simp) (Frame.refl _ _) (by
      intro j hj _ m h hf
      refine wp_writeNum (i * w + j) rfl ?_ ⟨rfl, j, hj, rfl⟩ ?_
      · rw [hf.1]
        exact hsz j hj
      · intro o ho
        by_cases e : o = j
        · rw [e, get_set_self]
        · rw [get_set_ne _ _ (loc_ne (by omega)), h o (by omega)])
  exact wp_mono (fun _ m h => h.1) hw

theorem wp_hashData {m : Mem (BitVec 8)} {i w n : Nat} {seed : BitVec 32} {v : BitVec 64} (hn : n ≤ 8) (hsz : ∀ j < w, i * w + j < m.size 0)
    (hsrc : ∀ j < n, i * n + j < m.size 1 ∧ m.get (1, i * n + j) = .num ((v >>> (8 * j)).setWidth 8))
    (hv : ∀ r : BitVec 64, (∀ t < 64, r.getLsbD t = ((0 : BitVec 64).getLsbD t ^^ (decide (t < 8 * n) && v.getLsbD t))) → r = v) :
    (hashDataBody 0 1 w n seed () i).wp (fun l => l.1 ≠ 0 ∨ ownRow 0 w i l) (ownRow 0 w i) m
      (fun _ m' => ∀ o < w, m'.get (0, i * w + o) = .num (entropyByte (murmurEnd v n seed) o)) := by
  unfold hashDataBody
  refine wp_bind'.2 (wp_mono (fun k m' hk => ?_) (wp_readTail (v := v) n 0
    (fun j hj => ⟨(hsrc j hj).1, Or.inl (by simp), (hsrc j hj).2⟩) hn))
  obtain ⟨rfl, hk⟩ := hk
  rw [hv k hk]
  exact wp_writeRow _ hsz

/-- **C96**: `hash` on the GPU gives, byte for byte, the numbers that `hash` gives on the CPU, for every launch size and every schedule. -/
theorem C96_hash (ids : List (BitVec 64)) (seed : BitVec 32) :
    let L := gpuHash ids seed
    Always L.kernel L.mem (fun m => m.Holds 0 ids.length 16 (fun i j => hashByte (murmurHash (ids.getD i 0) seed) j) ∧ m.SameFrom 1 L.mem) := by
  refine always_rows (J := fun _ _ => True) _ _ rfl trivial (fun _ _ _ _ _ => trivial) ?_
  intro i hi s m _ hs hro h0
  refine wp_mono (fun _ m h => ⟨trivial, fun o ho => ?_⟩) (wp_hashData (v := ids.getD i 0) (Nat.le_refl 8) ?_ ?_ ?_)
  · intro j hj
    rw [hs]
    exact rowMajor_lt hi hj
  · intro j hj
    have hm : m.get (1, i * 8 + j) = _ := hro 1 (i * 8 + j) (by simp)
    refine ⟨by rw [hs]; exact rowMajor_lt hi hj, hm.trans ?_⟩
    show Cell.num _ = _
    simp only [rowMajor_div _ _ _ hj, rowMajor_mod _ _ _ hj]
  · intro r hk
    ext t ht
    have := hk t ht
    rw [← BitVec.getLsbD_eq_getElem, ← BitVec.getLsbD_eq_getElem, this]
    simp
    omega
  · rw [h o ho, entropy_eq _ _ _ ho]

end Thinc.Gpu
