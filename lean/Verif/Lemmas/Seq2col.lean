import Verif.Model.Seq2col
import Verif.Lemmas.PoolMax
import Mathlib.Algebra.BigOperators.Ring.Finset
/-!
# Lemmas about the window kernels
-/
namespace Thinc
open Finset Spec
variable {K : Type}

/-- Offsets inside a row of windows. -/
theorem window_iff (I k i a b : Nat) (hi : i < I) :
    (a * I ≤ k * I + i ∧ k * I + i < b * I) ↔ (a ≤ k ∧ k < b) := by
  constructor
  · rintro ⟨h1, h2⟩
    constructor
    · by_contra h
      have : (k + 1) * I ≤ a * I := Nat.mul_le_mul_right I (by omega)
      have e : (k + 1) * I = k * I + I := by ring
      omega
    · by_contra h
      have : b * I ≤ k * I := Nat.mul_le_mul_right I (by omega)
      omega
  · rintro ⟨h1, h2⟩
    have h3 : a * I ≤ k * I := Nat.mul_le_mul_right I h1
    have h4 := rowMajor_lt h2 hi
    omega

/-- One row of the forward kernel. -/
theorem seq2colRow_spec [Zero K] (X out : Buf K) (nW I start len t T : Nat) (ht : t < len)
    (hT : start + len ≤ T) (hX : X.size = T * I) (hout : out.size = T * ((2 * nW + 1) * I))
    (hz : ∀ p, (start + t) * ((2 * nW + 1) * I) ≤ p → out.val p = 0) :
    ∃ out', seq2colRow X nW I (start : Int) ((start : Int) + (len : Int)) out ((start : Int) + (t : Int)) = .ok out' ∧
      out'.size = out.size ∧
      (∀ p, p < (start + t) * ((2 * nW + 1) * I) → out'.val p = out.val p) ∧
      (∀ p, (start + t + 1) * ((2 * nW + 1) * I) ≤ p → out'.val p = 0) ∧
      ∀ k < 2 * nW + 1, ∀ i < I, out'.val ((start + t) * ((2 * nW + 1) * I) + (k * I + i)) =
        if nW ≤ t + k ∧ t + k - nW < len then X.val ((start + (t + k - nW)) * I + i) else 0 := by
  obtain ⟨W, hW⟩ : ∃ W, W = (2 * nW + 1) * I := ⟨_, rfl⟩
  obtain ⟨off, hoff⟩ : ∃ off, off = nW - t := ⟨_, rfl⟩
  obtain ⟨xs, hxs⟩ : ∃ xs, xs = start + (t - nW) := ⟨_, rfl⟩
  obtain ⟨n, hn⟩ : ∃ n, n = min (start + len) (start + t + nW + 1) - xs := ⟨_, rfl⟩
  have hxn : xs + n ≤ start + len := by omega
  have hon : off + n ≤ 2 * nW + 1 := by omega
  have e1 : max (start : Int) ((start : Int) + (t : Int) - (nW : Int)) = (xs : Int) := by omega
  have e2 : min ((start : Int) + (len : Int)) ((start : Int) + (t : Int) + (nW : Int) + 1) - (xs : Int) = (n : Int) := by
    omega
  have e3 : (xs : Int) - ((start : Int) + (t : Int) - (nW : Int)) = (off : Int) := by omega
  have e4 : ((start : Int) + (t : Int)) * ((nW : Int) * 2 + 1) * (I : Int) + (off : Int) * (I : Int) =
      (((start + t) * W + off * I : Nat) : Int) := by
    rw [hW]
    push_cast
    ring
  have e5 : (xs : Int) * (I : Int) = ((xs * I : Nat) : Int) := by push_cast; rfl
  have e6 : ((n : Int) * (I : Int)).toNat = n * I := by
    rw [show (n : Int) * (I : Int) = ((n * I : Nat) : Int) by push_cast; rfl, Int.toNat_natCast]
  have hrow : (start + t + 1) * W ≤ T * W := Nat.mul_le_mul_right W (by omega)
  have hrow2 : (start + t + 1) * W = (start + t) * W + W := by ring
  have hofI : (off + n) * I ≤ (2 * nW + 1) * I := Nat.mul_le_mul_right I hon
  have hofI2 : (off + n) * I = off * I + n * I := by ring
  have hxI : (xs + n) * I ≤ T * I := Nat.mul_le_mul_right I (by omega)
  have hxI2 : (xs + n) * I = xs * I + n * I := by ring
  rw [← hW] at hout hz hofI ⊢
  unfold seq2colRow
  simp only [e1, e2, e3, e4, e5, e6]
  rw [memcpy_spec _ _ _ _ _ (by omega) (by omega)]
  refine ⟨_, rfl, rfl, fun p hp => ?_, fun p hp => ?_, fun k hk i hi => ?_⟩
  · simp only
    rw [if_neg (by omega)]
  · simp only
    rw [if_neg (by omega), hz p (by omega)]
  · simp only
    have hw := window_iff I k i off (off + n) hi
    by_cases hc : nW ≤ t + k ∧ t + k - nW < len
    · have h1 := hw.2 (by omega)
      rw [if_pos (by omega), if_pos hc]
      congr 1
      have h2 : (start + t) * W + (k * I + i) - ((start + t) * W + off * I) = (k - off) * I + i := by
        have h3 : off * I ≤ k * I := Nat.mul_le_mul_right I (by omega)
        rw [Nat.sub_mul]
        omega
      rw [h2, show start + (t + k - nW) = xs + (k - off) by omega]
      ring
    · have h1 : ¬ (off * I ≤ k * I + i ∧ k * I + i < (off + n) * I) := by
        intro h
        have := hw.1 h
        omega
      rw [if_neg (by omega), if_neg hc, hz _ (by omega)]

/-- One sequence of the forward kernel. -/
theorem seq2col_seq [Zero K] (X out : Buf K) (nW I start len T : Nat)
    (hT : start + len ≤ T) (hX : X.size = T * I) (hout : out.size = T * ((2 * nW + 1) * I))
    (hz : ∀ p, start * ((2 * nW + 1) * I) ≤ p → out.val p = 0) :
    ∃ out', forN len out (fun out k =>
        seq2colRow X nW I (start : Int) ((start : Int) + (len : Int)) out ((start : Int) + (k : Nat))) = .ok out' ∧
      out'.size = out.size ∧
      (∀ p, p < start * ((2 * nW + 1) * I) → out'.val p = out.val p) ∧
      (∀ p, (start + len) * ((2 * nW + 1) * I) ≤ p → out'.val p = 0) ∧
      ∀ t < len, ∀ k < 2 * nW + 1, ∀ i < I,
        out'.val ((start + t) * ((2 * nW + 1) * I) + (k * I + i)) =
        if nW ≤ t + k ∧ t + k - nW < len then X.val ((start + (t + k - nW)) * I + i) else 0 := by
  obtain ⟨s, h1, h2, h3, h4, h5⟩ := forN_inv len (fun out k =>
        seq2colRow X nW I (start : Int) ((start : Int) + (len : Int)) out ((start : Int) + (k : Nat)))
    (fun m out' => out'.size = out.size ∧
      (∀ p, p < start * ((2 * nW + 1) * I) → out'.val p = out.val p) ∧
      (∀ p, (start + m) * ((2 * nW + 1) * I) ≤ p → out'.val p = 0) ∧
      ∀ t < m, ∀ k < 2 * nW + 1, ∀ i < I,
        out'.val ((start + t) * ((2 * nW + 1) * I) + (k * I + i)) =
        if nW ≤ t + k ∧ t + k - nW < len then X.val ((start + (t + k - nW)) * I + i) else 0) out
    ⟨rfl, fun _ _ => rfl, by simpa using hz, by omega⟩ (by
      intro m hm s hs
      obtain ⟨h1, h2, h3, h4⟩ := hs
      obtain ⟨s', g1, g2, g3, g4, g5⟩ := seq2colRow_spec X s nW I start len m T hm hT hX (by omega) h3
      have hmono : start * ((2 * nW + 1) * I) ≤ (start + m) * ((2 * nW + 1) * I) :=
        Nat.mul_le_mul_right _ (by omega)
      refine ⟨s', g1, by omega, fun p hp => ?_, fun p hp => ?_, fun t ht k hk i hi => ?_⟩
      · rw [g3 p (by omega), h2 p hp]
      · exact g4 p hp
      · by_cases htm : t = m
        · subst htm
          exact g5 k hk i hi
        · have hlt : (start + t) * ((2 * nW + 1) * I) + (k * I + i) < (start + m) * ((2 * nW + 1) * I) :=
            rowMajor_lt (by omega) (rowMajor_lt hk hi)
          rw [g3 _ hlt, h4 t (by omega) k hk i hi])
  exact ⟨s, h1, h2, h3, h4, h5⟩

/-- The forward kernel. -/
theorem cpuSeq2col_spec [Zero K] (X out : Buf K) (nW I : Nat) (ls : List Nat)
    (hX : X.size = ls.sum * I) (hout : out.size = ls.sum * ((2 * nW + 1) * I)) (hz : ∀ p, out.val p = 0) :
    ∃ out', cpuSeq2col out X (asInts ls) nW I = .ok out' ∧
      ∀ b < ls.length, ∀ t < seqLen ls b, ∀ k < 2 * nW + 1, ∀ i < I,
        out'.val ((seqStart ls b + t) * ((2 * nW + 1) * I) + (k * I + i)) =
        if nW ≤ t + k ∧ t + k - nW < seqLen ls b then X.val ((seqStart ls b + (t + k - nW)) * I + i) else 0 := by
  obtain ⟨s, h1, _, _, _, h5⟩ := forM'_inv (asInts ls) (fun (s : Buf K × Int) length => do
      let out ← forN length.toNat s.1 (fun out k => seq2colRow X nW I s.2 (s.2 + length) out (s.2 + (k : Nat)))
      return (out, s.2 + length))
    (fun m s => s.1.size = out.size ∧ s.2 = (seqStart ls m : Int) ∧
      (∀ p, seqStart ls m * ((2 * nW + 1) * I) ≤ p → s.1.val p = 0) ∧
      ∀ b < m, ∀ t < seqLen ls b, ∀ k < 2 * nW + 1, ∀ i < I,
        s.1.val ((seqStart ls b + t) * ((2 * nW + 1) * I) + (k * I + i)) =
        if nW ≤ t + k ∧ t + k - nW < seqLen ls b then X.val ((seqStart ls b + (t + k - nW)) * I + i) else 0)
    (out, 0) ⟨rfl, by simp [seqStart], fun p _ => hz p, by omega⟩ (by
      intro m hm s hs
      obtain ⟨hs1, hs2, hs3, hs4⟩ := hs
      have hm' : m < ls.length := by simpa [asInts] using hm
      have hend := seqEnd_le ls m hm'
      obtain ⟨s', g1, g2, g3, g4, g5⟩ := seq2col_seq X s.1 nW I (seqStart ls m) (seqLen ls m) ls.sum hend hX
        (by omega) hs3
      rw [asInts_get, hs2, Int.toNat_natCast, g1]
      simp only [bind, Except.bind, pure, Except.pure, Except.ok.injEq, exists_eq_left']
      refine ⟨by omega, by rw [seqStart_succ ls m hm']; push_cast; rfl, ?_, fun b hb t ht k hk i hi => ?_⟩
      · rw [seqStart_succ ls m hm']
        exact g4
      · by_cases hbm : b = m
        · subst hbm
          exact g5 t ht k hk i hi
        · have hmono := seqStart_mono ls b m (by omega) (by omega)
          have hlt : (seqStart ls b + t) * ((2 * nW + 1) * I) + (k * I + i) <
              seqStart ls m * ((2 * nW + 1) * I) := rowMajor_lt (by omega) (rowMajor_lt hk hi)
          rw [g3 _ hlt, hs4 b (by omega) t ht k hk i hi])
  refine ⟨s.1, ?_, fun b hb => h5 b (by rw [asInts_length]; exact hb)⟩
  unfold cpuSeq2col
  rw [h1]
  rfl

/-- One row of the backward kernel. -/
theorem backpropSeq2colRow_spec [Semiring K] (dY dX : Buf K) (nW I start len t T : Nat) (ht : t < len)
    (hT : start + len ≤ T) (hdX : dX.size = T * I) (hdY : T * ((2 * nW + 1) * I) ≤ dY.size) :
    ∃ dX', backpropSeq2colRow dY nW I (start : Int) ((start : Int) + (len : Int)) dX ((start : Int) + (t : Int)) =
        .ok dX' ∧ dX'.size = dX.size ∧
      (∀ p, (p < start * I ∨ (start + len) * I ≤ p) → dX'.val p = dX.val p) ∧
      ∀ s < len, ∀ i < I, dX'.val ((start + s) * I + i) = dX.val ((start + s) * I + i) +
        if t ≤ s + nW ∧ s ≤ t + nW then
          dY.val ((start + t) * ((2 * nW + 1) * I) + ((s + nW - t) * I + i)) else 0 := by
  obtain ⟨W, hW⟩ : ∃ W, W = (2 * nW + 1) * I := ⟨_, rfl⟩
  obtain ⟨off, hoff⟩ : ∃ off, off = nW - t := ⟨_, rfl⟩
  obtain ⟨xs, hxs⟩ : ∃ xs, xs = start + (t - nW) := ⟨_, rfl⟩
  obtain ⟨n, hn⟩ : ∃ n, n = min (start + len) (start + t + nW + 1) - xs := ⟨_, rfl⟩
  have hxn : xs + n ≤ start + len := by omega
  have hon : off + n ≤ 2 * nW + 1 := by omega
  have e1 : max (start : Int) ((start : Int) + (t : Int) - (nW : Int)) = (xs : Int) := by omega
  have e2 : min ((start : Int) + (len : Int)) ((start : Int) + (t : Int) + (nW : Int) + 1) - (xs : Int) = (n : Int) := by
    omega
  have e3 : (xs : Int) - ((start : Int) + (t : Int) - (nW : Int)) = (off : Int) := by omega
  have e4 : ((start : Int) + (t : Int)) * ((nW : Int) * 2 + 1) * (I : Int) + (off : Int) * (I : Int) =
      (((start + t) * W + off * I : Nat) : Int) := by
    rw [hW]
    push_cast
    ring
  have e5 : (xs : Int) * (I : Int) = ((xs * I : Nat) : Int) := by push_cast; rfl
  have e6 : ((n : Int) * (I : Int)).toNat = n * I := by
    rw [show (n : Int) * (I : Int) = ((n * I : Nat) : Int) by push_cast; rfl, Int.toNat_natCast]
  have hrow : (start + t + 1) * W ≤ T * W := Nat.mul_le_mul_right W (by omega)
  have hrow2 : (start + t + 1) * W = (start + t) * W + W := by ring
  have hofI : (off + n) * I ≤ (2 * nW + 1) * I := Nat.mul_le_mul_right I hon
  have hofI2 : (off + n) * I = off * I + n * I := by ring
  have hxI : (xs + n) * I ≤ (start + len) * I := Nat.mul_le_mul_right I (by omega)
  have hxI2 : (xs + n) * I = xs * I + n * I := by ring
  have hTI : (start + len) * I ≤ T * I := Nat.mul_le_mul_right I hT
  have hsI : start * I ≤ xs * I := Nat.mul_le_mul_right I (by omega)
  rw [← hW] at hdY hofI ⊢
  unfold backpropSeq2colRow
  simp only [e1, e2, e3, e4, e5, e6]
  rw [vecAdd_spec _ _ _ _ _ _ (by omega) (by omega)]
  refine ⟨_, rfl, rfl, fun p hp => ?_, fun s hs i hi => ?_⟩
  · simp only
    rw [if_neg (by omega)]
  · simp only
    have hw := window_iff I (start + s) i xs (xs + n) hi
    by_cases hc : t ≤ s + nW ∧ s ≤ t + nW
    · have h1 := hw.2 (by omega)
      rw [if_pos (by omega), if_pos hc, one_mul]
      congr 2
      have h2 : (start + s) * I + i - xs * I = (start + s - xs) * I + i := by
        have h3 : xs * I ≤ (start + s) * I := Nat.mul_le_mul_right I (by omega)
        rw [Nat.sub_mul]
        omega
      rw [h2, show s + nW - t = off + (start + s - xs) by omega]
      ring
    · have h1 : ¬ (xs * I ≤ (start + s) * I + i ∧ (start + s) * I + i < (xs + n) * I) := by
        intro h
        have := hw.1 h
        omega
      rw [if_neg (by omega), if_neg hc, add_zero]

/-- One sequence of the backward kernel. -/
theorem backpropSeq2col_seq [Semiring K] (dY dX : Buf K) (nW I start len T : Nat)
    (hT : start + len ≤ T) (hdX : dX.size = T * I) (hdY : T * ((2 * nW + 1) * I) ≤ dY.size)
    (hz : ∀ p, start * I ≤ p → dX.val p = 0) :
    ∃ dX', forN len dX (fun dX k => backpropSeq2colRow dY nW I (start : Int) ((start : Int) + (len : Int)) dX
        ((start : Int) + (k : Nat))) = .ok dX' ∧ dX'.size = dX.size ∧
      (∀ p, p < start * I → dX'.val p = dX.val p) ∧ (∀ p, (start + len) * I ≤ p → dX'.val p = 0) ∧
      ∀ s < len, ∀ i < I, dX'.val ((start + s) * I + i) =
        ∑ t ∈ range len, if t ≤ s + nW ∧ s ≤ t + nW then
          dY.val ((start + t) * ((2 * nW + 1) * I) + ((s + nW - t) * I + i)) else 0 := by
  have hmono : start * I ≤ (start + len) * I := Nat.mul_le_mul_right I (by omega)
  obtain ⟨s, h1, h2, h3, h4⟩ := forN_inv len (fun dX k => backpropSeq2colRow dY nW I (start : Int)
        ((start : Int) + (len : Int)) dX ((start : Int) + (k : Nat)))
    (fun m dX' => dX'.size = dX.size ∧
      (∀ p, (p < start * I ∨ (start + len) * I ≤ p) → dX'.val p = dX.val p) ∧
      ∀ s < len, ∀ i < I, dX'.val ((start + s) * I + i) =
        ∑ t ∈ range m, if t ≤ s + nW ∧ s ≤ t + nW then
          dY.val ((start + t) * ((2 * nW + 1) * I) + ((s + nW - t) * I + i)) else 0) dX
    ⟨rfl, fun _ _ => rfl, fun s hs i hi => by
      rw [hz _ (by
        have : start * I ≤ (start + s) * I := Nat.mul_le_mul_right I (by omega)
        omega)]
      simp⟩ (by
      intro m hm s hs
      obtain ⟨h1, h2, h3⟩ := hs
      obtain ⟨s', g1, g2, g3, g4⟩ := backpropSeq2colRow_spec dY s nW I start len m T hm hT (by omega) hdY
      refine ⟨s', g1, by omega, fun p hp => ?_, fun r hr i hi => ?_⟩
      · rw [g3 p hp, h2 p hp]
      · rw [g4 r hr i hi, h3 r hr i hi, Finset.sum_range_succ])
  exact ⟨s, h1, h2, fun p hp => h3 p (.inl hp), fun p hp => by rw [h3 p (.inr hp), hz p (by omega)], h4⟩

/-- The backward kernel. -/
theorem cpuBackpropSeq2col_spec [Semiring K] (dY dX : Buf K) (nW I : Nat) (ls : List Nat)
    (hdX : dX.size = ls.sum * I) (hdY : ls.sum * ((2 * nW + 1) * I) ≤ dY.size) (hz : ∀ p, dX.val p = 0) :
    ∃ dX', cpuBackpropSeq2col dX dY (asInts ls) nW I = .ok dX' ∧
      ∀ b < ls.length, ∀ s < seqLen ls b, ∀ i < I, dX'.val ((seqStart ls b + s) * I + i) =
        ∑ t ∈ range (seqLen ls b), if t ≤ s + nW ∧ s ≤ t + nW then
          dY.val ((seqStart ls b + t) * ((2 * nW + 1) * I) + ((s + nW - t) * I + i)) else 0 := by
  obtain ⟨s, h1, _, _, _, h5⟩ := forM'_inv (asInts ls) (fun (s : Buf K × Int) length => do
      let dX ← forN length.toNat s.1 (fun dX k => backpropSeq2colRow dY nW I s.2 (s.2 + length) dX (s.2 + (k : Nat)))
      return (dX, s.2 + length))
    (fun m s => s.1.size = dX.size ∧ s.2 = (seqStart ls m : Int) ∧
      (∀ p, seqStart ls m * I ≤ p → s.1.val p = 0) ∧
      ∀ b < m, ∀ r < seqLen ls b, ∀ i < I, s.1.val ((seqStart ls b + r) * I + i) =
        ∑ t ∈ range (seqLen ls b), if t ≤ r + nW ∧ r ≤ t + nW then
          dY.val ((seqStart ls b + t) * ((2 * nW + 1) * I) + ((r + nW - t) * I + i)) else 0)
    (dX, 0) ⟨rfl, by simp [seqStart], fun p _ => hz p, by omega⟩ (by
      intro m hm s hs
      obtain ⟨hs1, hs2, hs3, hs4⟩ := hs
      have hm' : m < ls.length := by simpa [asInts] using hm
      have hend := seqEnd_le ls m hm'
      obtain ⟨s', g1, g2, g3, g4, g5⟩ := backpropSeq2col_seq dY s.1 nW I (seqStart ls m) (seqLen ls m) ls.sum hend
        (by omega) hdY hs3
      rw [asInts_get, hs2, Int.toNat_natCast, g1]
      simp only [bind, Except.bind, pure, Except.pure, Except.ok.injEq, exists_eq_left']
      refine ⟨by omega, by rw [seqStart_succ ls m hm']; push_cast; rfl, ?_, fun b hb r hr i hi => ?_⟩
      · rw [seqStart_succ ls m hm']
        exact g4
      · by_cases hbm : b = m
        · subst hbm
          exact g5 r hr i hi
        · have hmono := seqStart_mono ls b m (by omega) (by omega)
          have hlt : (seqStart ls b + r) * I + i < seqStart ls m * I := rowMajor_lt (by omega) hi
          rw [g3 _ hlt, hs4 b (by omega) r hr i hi])
  refine ⟨s.1, ?_, fun b hb => h5 b (by rw [asInts_length]; exact hb)⟩
  unfold cpuBackpropSeq2col
  rw [h1]
  rfl

end Thinc
