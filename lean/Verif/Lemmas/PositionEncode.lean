import Verif.Model.PositionEncode
import Verif.Spec.PositionEncode
import Verif.Lemmas.CMem
import Mathlib.Analysis.SpecialFunctions.Trigonometric.Complex
import Mathlib.Analysis.Real.Pi.Irrational
import Mathlib.Data.List.GetD
/-!
# Lemmas for position encodings and n-grams
-/
namespace Thinc

theorem encodeAngle_eq (period : ℝ) (D i c : Nat) :
    encodeAngle period D (i : ℝ) (c : ℝ) = i * Spec.frequency period D c := by
  simp only [encodeAngle, Spec.frequency, div_eq_mul_inv, one_mul]

/-- The value of a column that has a partner. -/
noncomputable def pairValue (period : ℝ) (D i j : Nat) : ℝ :=
  if j % 2 = 0 then Real.sin (encodeAngle period D (i : ℝ) ((j - j % 2 : Nat) : ℝ))
  else Real.cos (encodeAngle period D (i : ℝ) ((j - j % 2 : Nat) : ℝ))

theorem encodePair_spec (period : ℝ) (D i base : Nat) (s : EncodeState) (hj : s.j % 2 = 0)
    (hs : base + (s.j + 1) < s.out.size) :
    encodePair period D (i : ℝ) base s = .ok ⟨s.j + 2, (s.j : ℝ), ⟨s.out.size, fun k =>
      if base + s.j ≤ k ∧ k < base + (s.j + 2) then pairValue period D i (k - base) else s.out.val k⟩⟩ := by
  have h1 := Buf.write_ok s.out (base + s.j) (Real.sin (encodeAngle period D (i : ℝ) (s.j : ℝ))) (by omega)
  simp only [encodePair, h1, bind, Except.bind]
  rw [Buf.write_ok _ _ _ (by exact hs)]
  simp only [Except.ok.injEq, EncodeState.mk.injEq, true_and, Buf.mk.injEq]
  funext k
  by_cases ha : k = base + (s.j + 1)
  · subst ha
    rw [if_pos rfl, if_pos (by omega)]
    have e1 : base + (s.j + 1) - base = s.j + 1 := by omega
    have e2 : (s.j + 1) % 2 = 1 := by omega
    have e3 : s.j + 1 - 1 = s.j := by omega
    simp only [pairValue, e1, e2, e3, one_ne_zero, if_false]
  · rw [if_neg ha]
    by_cases hb : k = base + s.j
    · subst hb
      rw [if_pos rfl, if_pos (by omega)]
      have e1 : base + s.j - base = s.j := by omega
      simp only [pairValue, e1, hj, if_true, Nat.sub_zero]
    · rw [if_neg hb, if_neg (by omega)]

theorem encodeWhile_spec (period : ℝ) (D i base : Nat) (fuel : Nat) (s : EncodeState)
    (hj : s.j % 2 = 0) (hD : s.j ≤ D) (hf : D - s.j ≤ fuel) (hd : s.d = ((s.j - 2 : Nat) : ℝ))
    (hs : base + D ≤ s.out.size) :
    ∃ s', encodeWhile period D (i : ℝ) base fuel s = .ok s' ∧ s'.j = D - D % 2 ∧
      s'.d = ((s'.j - 2 : Nat) : ℝ) ∧ s'.out.size = s.out.size ∧
      ∀ k, s'.out.val k =
        if base + s.j ≤ k ∧ k < base + s'.j then pairValue period D i (k - base) else s.out.val k := by
  induction fuel generalizing s with
  | zero =>
    refine ⟨s, rfl, by omega, hd, rfl, ?_⟩
    intro k
    rw [if_neg (by omega)]
  | succ fuel ih =>
    by_cases hc : s.j + 1 < D
    · obtain ⟨s', h1, h2, h3, h4, h5⟩ := ih ⟨s.j + 2, (s.j : ℝ), ⟨s.out.size, fun k =>
        if base + s.j ≤ k ∧ k < base + (s.j + 2) then pairValue period D i (k - base) else s.out.val k⟩⟩
        (by simp only; omega) (by simp only; omega) (by simp only; omega) (by simp) hs
      refine ⟨s', ?_, h2, h3, h4, ?_⟩
      · rw [encodeWhile, if_pos hc, encodePair_spec _ _ _ _ _ hj (by omega)]
        exact h1
      · intro k
        rw [h5]
        simp only
        by_cases ha : base + (s.j + 2) ≤ k ∧ k < base + s'.j
        · rw [if_pos ha, if_pos (by omega)]
        · rw [if_neg ha]
          by_cases hb : base + s.j ≤ k ∧ k < base + (s.j + 2)
          · rw [if_pos hb, if_pos (by omega)]
          · rw [if_neg hb, if_neg (by omega)]
    · refine ⟨s, by rw [encodeWhile, if_neg hc], by omega, hd, rfl, ?_⟩
      intro k
      rw [if_neg (by omega)]

theorem encodeRow_spec (period : ℝ) (D i : Nat) (out : Buf ℝ) (hs : i * D + D ≤ out.size) :
    ∃ out', encodeRow period D out i = .ok out' ∧ out'.size = out.size ∧
      ∀ k, out'.val k = if i * D ≤ k ∧ k < i * D + D then Spec.encoding period D i (k - i * D) else out.val k := by
  obtain ⟨s, h1, h2, h3, h4, h5⟩ := encodeWhile_spec period D i (i * D) D ⟨0, 0, out⟩ rfl (Nat.zero_le _)
    (Nat.sub_le _ _) (by simp) hs
  simp only [Nat.add_zero] at h5
  have hpair : ∀ j, j < D - D % 2 → pairValue period D i j = Spec.encoding period D i j := by
    intro j hj
    have hp : Spec.pairOf D j = j - j % 2 := by
      simp only [Spec.pairOf]
      rw [if_neg (by omega)]
    simp only [pairValue, Spec.encoding, hp, encodeAngle_eq]
  by_cases hodd : D % 2 = 1
  · have hj : s.j < D := by omega
    refine ⟨⟨s.out.size, fun k => if k = i * D + s.j then
      Real.sin (encodeAngle period D (i : ℝ) s.d) else s.out.val k⟩, ?_, h4, ?_⟩
    · simp only [encodeRow, h1, bind, Except.bind, encodeLast, if_pos hj]
      exact Buf.write_ok _ _ _ (by simp only at h4; omega)
    · intro k
      simp only
      by_cases hk : k = i * D + s.j
      · subst hk
        rw [if_pos rfl, if_pos (by omega), h3, encodeAngle_eq]
        have e1 : i * D + s.j - i * D = s.j := by omega
        have e2 : Spec.pairOf D s.j = s.j - 2 := by
          simp only [Spec.pairOf]
          rw [if_pos (by omega)]
        have e3 : s.j % 2 = 0 := by omega
        simp only [e1, Spec.encoding, e2, e3, if_true]
      · rw [if_neg hk, h5]
        by_cases ha : i * D ≤ k ∧ k < i * D + s.j
        · rw [if_pos ha, if_pos (by omega), hpair _ (by omega)]
        · rw [if_neg ha, if_neg (by omega)]
  · have hj : ¬ s.j < D := by omega
    refine ⟨s.out, ?_, h4, ?_⟩
    · simp only [encodeRow, h1, bind, Except.bind, encodeLast, if_neg hj]
    · intro k
      rw [h5]
      have e : s.j = D := by omega
      rw [e]
      by_cases ha : i * D ≤ k ∧ k < i * D + D
      · rw [if_pos ha, if_pos ha, hpair _ (by omega)]
      · rw [if_neg ha, if_neg ha]

theorem cpuPositionEncode_spec (period : ℝ) (N D : Nat) (out : Buf ℝ) (hs : N * D ≤ out.size) :
    ∃ out', cpuPositionEncode out period N D = .ok out' ∧ out'.size = out.size ∧
      (∀ i, i < N → ∀ j, j < D → out'.val (i * D + j) = Spec.encoding period D i j) ∧
      ∀ k, N * D ≤ k → out'.val k = out.val k := by
  obtain ⟨b, h1, h2, h3, h4⟩ := forN_inv N (encodeRow period D)
    (fun n (b : Buf ℝ) => b.size = out.size ∧
      (∀ i, i < n → ∀ j, j < D → b.val (i * D + j) = Spec.encoding period D i j) ∧
      ∀ k, n * D ≤ k → b.val k = out.val k) out
    ⟨rfl, fun i hi => absurd hi (Nat.not_lt_zero i), fun k _ => rfl⟩ (by
      intro n hn b hb
      obtain ⟨b1, b2, b3⟩ := hb
      have e : n * D + D = (n + 1) * D := by ring
      have hle : (n + 1) * D ≤ N * D := Nat.mul_le_mul_right D hn
      obtain ⟨b', c1, c2, c3⟩ := encodeRow_spec period D n b (by omega)
      refine ⟨b', c1, by omega, ?_, ?_⟩
      · intro i hi j hj
        rw [c3]
        by_cases hin : i = n
        · subst hin
          rw [if_pos (by omega), Nat.add_sub_cancel_left]
        · have hlt : i < n := by omega
          have := rowMajor_lt hlt hj
          rw [if_neg (by omega)]
          exact b2 i hlt j hj
      · intro k hk
        rw [c3, if_neg (by omega)]
        exact b3 k (by omega))
  exact ⟨b, h1, h2, h3, h4⟩

theorem sin_nat_injective (i i' : Nat) (h : Real.sin (i : ℝ) = Real.sin (i' : ℝ)) : i = i' := by
  rw [Real.sin_eq_sin_iff] at h
  obtain ⟨k, h | h⟩ := h
  · by_cases hk : k = 0
    · subst hk
      have : (i' : ℝ) = i := by simpa using h
      exact_mod_cast this.symm
    · exfalso
      have hirr : Irrational (((2 * k : ℤ) : ℝ) * Real.pi) := irrational_pi.intCast_mul (by omega)
      apply hirr
      refine ⟨((i' : ℚ) - (i : ℚ)), ?_⟩
      push_cast
      linarith
  · exfalso
    have hirr : Irrational (((2 * k + 1 : ℤ) : ℝ) * Real.pi) := irrational_pi.intCast_mul (by omega)
    apply hirr
    refine ⟨((i' : ℚ) + (i : ℚ)), ?_⟩
    push_cast
    linarith

theorem readKeys_spec {α : Type} (keys : List α) (pad : α) (i n : Nat) (h : i + n ≤ keys.length) :
    readKeys ⟨keys.length, fun i => keys.getD i pad⟩ i n = .ok ((keys.drop i).take n) := by
  induction n generalizing i with
  | zero => simp [readKeys]
  | succ n ih =>
    rw [readKeys, Buf.read_ok _ i (by simp only; omega)]
    simp only [bind, Except.bind]
    rw [ih (i + 1) (by omega)]
    simp only [Except.ok.injEq]
    have hi : i < keys.length := by omega
    rw [List.drop_eq_getElem_cons hi, List.take_succ_cons, List.getD_eq_getElem _ _ hi]

theorem windows_eq {α : Type} (n : Nat) (hn : 1 ≤ n) (keys : List α) :
    Spec.windows n keys = (List.range (keys.length + 1 - n)).map (fun i => (keys.drop i).take n) := by
  induction keys with
  | nil =>
    have : ([] : List α).length + 1 - n = 0 := by simp only [List.length_nil]; omega
    rw [this]
    rfl
  | cons x xs ih =>
    simp only [Spec.windows]
    by_cases h : n ≤ (x :: xs).length
    · rw [if_pos h, ih]
      simp only [List.length_cons] at h ⊢
      have : xs.length + 1 + 1 - n = (xs.length + 1 - n) + 1 := by omega
      rw [this, List.range_succ_eq_map, List.map_cons, List.map_map]
      rfl
    · rw [if_neg h]
      have : (x :: xs).length + 1 - n = 0 := by omega
      rw [this]
      rfl

theorem ngrams_loop {α β : Type} (hash64 : List α → β) (keys : List α) (pad : α) (n m : Nat) (zero : β)
    (h : ∀ i, i < m → i + n ≤ keys.length) :
    ∃ b : Buf β, forN m ⟨m, fun _ => zero⟩ (ngramAt hash64 ⟨keys.length, fun i => keys.getD i pad⟩ n) = .ok b ∧
      b.size = m ∧ ∀ i, i < m → b.val i = hash64 ((keys.drop i).take n) := by
  obtain ⟨b, h1, h2, h3⟩ := forN_inv m (ngramAt hash64 ⟨keys.length, fun i => keys.getD i pad⟩ n)
    (fun k (b : Buf β) => b.size = m ∧ ∀ i, i < k → b.val i = hash64 ((keys.drop i).take n))
    ⟨m, fun _ => zero⟩ ⟨rfl, fun i hi => absurd hi (Nat.not_lt_zero i)⟩ (by
      intro k hk b hb
      refine ⟨⟨b.size, fun l => if l = k then hash64 ((keys.drop k).take n) else b.val l⟩, ?_, hb.1, ?_⟩
      · simp only [ngramAt, readKeys_spec keys pad k n (h k hk), bind, Except.bind]
        exact Buf.write_ok _ _ _ (by omega)
      · intro i hi
        simp only
        by_cases hik : i = k
        · rw [if_pos hik, hik]
        · rw [if_neg hik]
          exact hb.2 i (by omega))
  exact ⟨b, h1, h2, h3⟩

end Thinc
