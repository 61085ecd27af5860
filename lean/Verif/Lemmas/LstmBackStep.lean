import Verif.Model.LstmBack
import Verif.Lemmas.LstmStep
/-!
# One pair of time steps of the backward pass
-/
namespace Thinc

/-- The gradient of gate `k` of entry `i`. -/
noncomputable def unitGrad (dc dy c3 c2 : ℝ) (G : ℕ → ℝ) (k : ℕ) : ℝ :=
  if k = 0 then cellGrad dy dc c3 (G 2) * c2 * dsigmoidY (G 0)
  else if k = 1 then cellGrad dy dc c3 (G 2) * G 3 * dsigmoidY (G 1)
  else if k = 2 then dy * Real.tanh c3 * dsigmoidY (G 2)
  else cellGrad dy dc c3 (G 2) * G 1 * dtanhY (G 3)

theorem Buf.write_ok' (b : Buf ℝ) (i : Int) (n : ℕ) (hi : i = n) (v : ℝ) (h : n < b.size) :
    b.write i v = .ok ⟨b.size, fun k => if k = n then v else b.val k⟩ := by
  subst hi
  exact Buf.write_ok b n v h

theorem Buf.read_ok' (b : Buf ℝ) (i : Int) (n : ℕ) (hi : i = n) (h : n < b.size) : b.read i = .ok (b.val n) := by
  subst hi
  exact Buf.read_ok b n h

/-- The buffers after `n` entries. -/
noncomputable def bwdC (p3 p2 : ℕ) (dY C G dC : Buf ℝ) (n : ℕ) : Buf ℝ :=
  ⟨dC.size, fun j => if p2 ≤ j ∧ j < p2 + n then
    cellGrad (dY.val (p3 + (j - p2))) (dC.val (p3 + (j - p2))) (C.val (p3 + (j - p2))) (G.val (4 * (p3 + (j - p2)) + 2)) *
      G.val (4 * (p3 + (j - p2)) + 0) else dC.val j⟩

noncomputable def bwdG (p3 p2 : ℕ) (dY C G dC dG : Buf ℝ) (n : ℕ) : Buf ℝ :=
  ⟨dG.size, fun j => if 4 * p3 ≤ j ∧ j < 4 * (p3 + n) then
    unitGrad (dC.val (j / 4)) (dY.val (j / 4)) (C.val (j / 4)) (C.val (p2 + (j / 4 - p3))) (fun k => G.val (4 * (j / 4) + k)) (j % 4)
    else dG.val j⟩

theorem gatesBwd_ok (p3 p2 : ℕ) (dY C G dC dG : Buf ℝ) (n : ℕ) (hdis : p2 + n ≤ p3 ∨ p3 + n ≤ p2) (hY : p3 + n ≤ dY.size)
    (hC3 : p3 + n ≤ C.size) (hC2 : p2 + n ≤ C.size) (hdC3 : p3 + n ≤ dC.size) (hdC2 : p2 + n ≤ dC.size) (hG : 4 * (p3 + n) ≤ G.size)
    (hdG : 4 * (p3 + n) ≤ dG.size) :
    forN n (dC, dG) (gatesBwdUnit p3 p2 dY C G) = .ok (bwdC p3 p2 dY C G dC n, bwdG p3 p2 dY C G dC dG n) := by
  have := forN_eq n (gatesBwdUnit p3 p2 dY C G) (fun u => (bwdC p3 p2 dY C G dC u, bwdG p3 p2 dY C G dC dG u)) (by
    intro u hu
    have r1 := Buf.read_ok' C ((p2 : ℤ) + u) (p2 + u) (by push_cast; rfl) (by omega)
    have r2 := Buf.read_ok' C ((p3 : ℤ) + u) (p3 + u) (by push_cast; rfl) (by omega)
    have r3 := Buf.read_ok' (bwdC p3 p2 dY C G dC u) ((p3 : ℤ) + u) (p3 + u) (by push_cast; rfl) (by show _ < dC.size; omega)
    have r4 := Buf.read_ok' dY ((p3 : ℤ) + u) (p3 + u) (by push_cast; rfl) (by omega)
    have g0 := Buf.read_ok' G (4 * (p3 : ℤ) + 4 * u + 0) (4 * (p3 + u) + 0) (by push_cast; ring) (by omega)
    have g1 := Buf.read_ok' G (4 * (p3 : ℤ) + 4 * u + 1) (4 * (p3 + u) + 1) (by push_cast; ring) (by omega)
    have g2 := Buf.read_ok' G (4 * (p3 : ℤ) + 4 * u + 2) (4 * (p3 + u) + 2) (by push_cast; ring) (by omega)
    have g3 := Buf.read_ok' G (4 * (p3 : ℤ) + 4 * u + 3) (4 * (p3 + u) + 3) (by push_cast; ring) (by omega)
    have v3 : (bwdC p3 p2 dY C G dC u).val (p3 + u) = dC.val (p3 + u) := by
      show (if _ then _ else _) = _
      rw [if_neg (by omega)]
    rw [v3] at r3
    unfold gatesBwdUnit
    simp only [r1, r2, r3, r4, g0, g1, g2, g3, bind, Except.bind, pure, Except.pure]
    rw [Buf.write_ok' _ ((p2 : ℤ) + u) (p2 + u) (by push_cast; rfl) _ (by show _ < dC.size; omega)]
    simp only []
    rw [Buf.write_ok' _ (4 * (p3 : ℤ) + 4 * u + 0) (4 * (p3 + u) + 0) (by push_cast; ring) _ (by show _ < dG.size; omega)]
    simp only []
    rw [Buf.write_ok' _ (4 * (p3 : ℤ) + 4 * u + 1) (4 * (p3 + u) + 1) (by push_cast; ring) _ (by show _ < dG.size; omega)]
    simp only []
    rw [Buf.write_ok' _ (4 * (p3 : ℤ) + 4 * u + 2) (4 * (p3 + u) + 2) (by push_cast; ring) _ (by show _ < dG.size; omega)]
    simp only []
    rw [Buf.write_ok' _ (4 * (p3 : ℤ) + 4 * u + 3) (4 * (p3 + u) + 3) (by push_cast; ring) _ (by show _ < dG.size; omega)]
    simp only [Except.ok.injEq, Prod.mk.injEq]
    refine ⟨?_, ?_⟩
    · simp only [bwdC, Buf.mk.injEq, true_and]
      funext j
      by_cases hj : j = p2 + u
      · subst hj
        rw [if_pos rfl, if_pos (by omega), Nat.add_sub_cancel_left]
      · rw [if_neg hj]
        by_cases h' : p2 ≤ j ∧ j < p2 + u
        · rw [if_pos h', if_pos (by omega)]
        · rw [if_neg h', if_neg (by omega)]
    · simp only [bwdG, Buf.mk.injEq, true_and]
      funext j
      by_cases hlt : 4 * p3 ≤ j ∧ j < 4 * (p3 + u)
      · rw [if_neg (by omega), if_neg (by omega), if_neg (by omega), if_neg (by omega), if_pos hlt, if_pos (by omega)]
      · by_cases hin : 4 * p3 ≤ j ∧ j < 4 * (p3 + (u + 1))
        · have hj4 : j / 4 = p3 + u := by omega
          rw [if_pos hin, hj4, Nat.add_sub_cancel_left]
          unfold unitGrad
          rcases (by omega : j % 4 = 0 ∨ j % 4 = 1 ∨ j % 4 = 2 ∨ j % 4 = 3) with h | h | h | h
          · rw [if_neg (by omega), if_neg (by omega), if_neg (by omega), if_pos (by omega), if_pos h]
          · rw [if_neg (by omega), if_neg (by omega), if_pos (by omega), if_neg (by omega), if_pos h]
          · rw [if_neg (by omega), if_pos (by omega), if_neg (by omega), if_neg (by omega), if_pos h]
          · rw [if_pos (by omega), if_neg (by omega), if_neg (by omega), if_neg (by omega)]
        · rw [if_neg (by omega), if_neg (by omega), if_neg (by omega), if_neg (by omega), if_neg hlt, if_neg hin])
  have h0 : (bwdC p3 p2 dY C G dC 0, bwdG p3 p2 dY C G dC dG 0) = (dC, dG) := by
    unfold bwdC bwdG
    cases dC
    cases dG
    simp only [Prod.mk.injEq, Buf.mk.injEq, true_and]
    refine ⟨?_, ?_⟩
    · funext j
      rw [if_neg (by omega)]
    · funext j
      rw [if_neg (by omega)]
  rw [h0] at this
  exact this

theorem sgemmNN_ok (M N K : ℕ) (A : Buf ℝ) (a : ℕ) (B C : Buf ℝ) (c : ℕ) (hA : a + M * K ≤ A.size) (hB : K * N ≤ B.size)
    (hC : c + M * N ≤ C.size) :
    ∃ C', sgemmNN M N K A a B C c = .ok C' ∧ C'.size = C.size ∧ ∀ j, C'.val j = if c ≤ j ∧ j < c + M * N then
      C.val j + ∑ k ∈ Finset.range K, A.val (a + (j - c) / N * K + k) * B.val (k * N + (j - c) % N) else C.val j := by
  unfold sgemmNN
  by_cases h0 : M = 0 ∨ N = 0
  · rw [if_pos h0]
    have : M * N = 0 := by rcases h0 with h | h <;> simp [h]
    exact ⟨C, rfl, rfl, fun j => by rw [this, if_neg (by omega)]⟩
  · rw [if_neg h0, if_pos ⟨by omega, by exact_mod_cast hA, hB, by omega, by exact_mod_cast hC⟩]
    exact ⟨_, rfl, rfl, fun j => by simp only [Int.toNat_natCast]⟩

theorem sgemmTN_ok (M N K : ℕ) (A B C : Buf ℝ) (hA : K * M ≤ A.size) (hB : K * N ≤ B.size) (hC : M * N ≤ C.size) :
    ∃ C', sgemmTN M N K A B C = .ok C' ∧ C'.size = C.size ∧ ∀ j, C'.val j = if j < M * N then
      C.val j + ∑ k ∈ Finset.range K, A.val (k * M + j / N) * B.val (k * N + j % N) else C.val j := by
  unfold sgemmTN
  by_cases h0 : M = 0 ∨ N = 0
  · rw [if_pos h0]
    have : M * N = 0 := by rcases h0 with h | h <;> simp [h]
    exact ⟨C, rfl, rfl, fun j => by rw [this, if_neg (by omega)]⟩
  · rw [if_neg h0, if_pos ⟨hA, hB, hC⟩]
    exact ⟨_, rfl, rfl, fun j => rfl⟩

/-- The gradient of gate `g` of unit `o` of row `b` at the later of the two time steps. -/
noncomputable def rowGrad (nO : ℕ) (C G : Buf ℝ) (s : BackState) (q2 b o g : ℕ) : ℝ :=
  unitGrad (s.dC.val ((s.seq3 + b) * nO + o)) (s.dY.val ((s.seq3 + b) * nO + o)) (C.val ((s.seq3 + b) * nO + o)) (C.val ((q2 + b) * nO + o))
    (fun k => G.val ((s.seq3 + b) * (nO * 4) + (4 * o + k))) g

/-- What one pair of time steps does to the buffers. -/
structure BackResult (nO : ℕ) (C G Wh : Buf ℝ) (s : BackState) (q2 n2 : ℕ) (s' : BackState) : Prop where
  sizeY : s'.dY.size = s.dY.size
  sizeC : s'.dC.size = s.dC.size
  sizeG : s'.dG.size = s.dG.size
  seq : s'.seq3 = q2
  size : s'.size3 = n2
  grad : ∀ b < min n2 s.size3, ∀ o < nO, ∀ g < 4, s'.dG.val ((s.seq3 + b) * (nO * 4) + (4 * o + g)) = rowGrad nO C G s q2 b o g
  grad_other : ∀ j, j < s.seq3 * (nO * 4) ∨ (s.seq3 + min n2 s.size3) * (nO * 4) ≤ j → s'.dG.val j = s.dG.val j
  cell : ∀ b < min n2 s.size3, ∀ o < nO, s'.dC.val ((q2 + b) * nO + o) =
    cellGrad (s.dY.val ((s.seq3 + b) * nO + o)) (s.dC.val ((s.seq3 + b) * nO + o)) (C.val ((s.seq3 + b) * nO + o))
      (G.val ((s.seq3 + b) * (nO * 4) + (4 * o + 2))) * G.val ((s.seq3 + b) * (nO * 4) + (4 * o + 0))
  cell_other : ∀ j, j < q2 * nO ∨ (q2 + min n2 s.size3) * nO ≤ j → s'.dC.val j = s.dC.val j
  hidden : ∀ b < min n2 s.size3, ∀ o < nO, s'.dY.val ((q2 + b) * nO + o) = s.dY.val ((q2 + b) * nO + o) +
    ∑ m ∈ Finset.range (nO * 4), s'.dG.val ((s.seq3 + b) * (nO * 4) + m) * Wh.val (m * nO + o)
  hidden_other : ∀ j, j < q2 * nO ∨ (q2 + min n2 s.size3) * nO ≤ j → s'.dY.val j = s.dY.val j

theorem lstmBackStep_ok (nO N : ℕ) (C G Wh : Buf ℝ) (s : BackState) (q2 n2 : ℕ) (hdis : q2 + min n2 s.size3 ≤ s.seq3 ∨ s.seq3 + min n2 s.size3 ≤ q2)
    (h3 : s.seq3 + s.size3 ≤ N) (h2 : q2 + n2 ≤ N) (hY : s.dY.size = N * nO) (hdC : s.dC.size = N * nO) (hdG : s.dG.size = N * (nO * 4))
    (hC : C.size = N * nO) (hG : G.size = N * (nO * 4)) (hWh : Wh.size = nO * 4 * nO) :
    ∃ s', lstmBackStep nO C G Wh s (q2, n2) = .ok s' ∧ BackResult nO C G Wh s q2 n2 s' := by
  set B := min n2 s.size3 with hB
  have m3 : s.seq3 * nO + B * nO ≤ N * nO := by rw [← Nat.add_mul]; exact Nat.mul_le_mul_right _ (by omega)
  have m2 : q2 * nO + B * nO ≤ N * nO := by rw [← Nat.add_mul]; exact Nat.mul_le_mul_right _ (by omega)
  have hd' : q2 * nO + B * nO ≤ s.seq3 * nO ∨ s.seq3 * nO + B * nO ≤ q2 * nO := by
    rcases hdis with h | h
    · left; rw [← Nat.add_mul]; exact Nat.mul_le_mul_right _ h
    · right; rw [← Nat.add_mul]; exact Nat.mul_le_mul_right _ h
  have h4 : N * (nO * 4) = 4 * (N * nO) := by ring
  have e1 := gatesBwd_ok (s.seq3 * nO) (q2 * nO) s.dY C G s.dC s.dG (B * nO) hd' (by omega) (by omega) (by omega) (by omega) (by omega)
    (by rw [hG, h4]; omega) (by rw [hdG, h4]; omega)
  have m34 : s.seq3 * (nO * 4) + B * (nO * 4) ≤ N * (nO * 4) := by rw [← Nat.add_mul]; exact Nat.mul_le_mul_right _ (by omega)
  obtain ⟨dY', e2, z2, v2⟩ := sgemmNN_ok B nO (nO * 4) (bwdG (s.seq3 * nO) (q2 * nO) s.dY C G s.dC s.dG (B * nO)) (s.seq3 * (nO * 4)) Wh s.dY
    (q2 * nO) (by show _ ≤ s.dG.size; omega) (by omega) (by omega)
  refine ⟨⟨dY', bwdC (s.seq3 * nO) (q2 * nO) s.dY C G s.dC (B * nO), bwdG (s.seq3 * nO) (q2 * nO) s.dY C G s.dC s.dG (B * nO), q2, n2⟩, ?_, ?_⟩
  · unfold lstmBackStep
    simp only [← hB, bind, Except.bind, pure, Except.pure, e1, e2]
  · have hrow : ∀ b o, (s.seq3 + b) * nO + o = s.seq3 * nO + (b * nO + o) := fun b o => by ring
    have hrow2 : ∀ b o, (q2 + b) * nO + o = q2 * nO + (b * nO + o) := fun b o => by ring
    have hlt : ∀ b < B, ∀ o < nO, b * nO + o < B * nO := fun b hb o ho => rowMajor_lt hb ho
    refine ⟨z2, rfl, rfl, rfl, rfl, ?_, ?_, ?_, ?_, ?_, ?_⟩
    · intro b hb o ho g hg
      have hl := hlt b hb o ho
      have e : (s.seq3 + b) * (nO * 4) + (4 * o + g) = 4 * ((s.seq3 + b) * nO + o) + g := by ring
      show (if _ then _ else _) = _
      have hd4 : ((s.seq3 + b) * (nO * 4) + (4 * o + g)) / 4 = (s.seq3 + b) * nO + o := by omega
      have hm4 : ((s.seq3 + b) * (nO * 4) + (4 * o + g)) % 4 = g := by omega
      have hr := hrow b o
      rw [if_pos (by omega), hd4, hm4]
      unfold rowGrad
      rw [show q2 * nO + ((s.seq3 + b) * nO + o - s.seq3 * nO) = (q2 + b) * nO + o by rw [hrow2]; omega]
      congr 1
      funext k
      congr 1
      ring
    · intro j hj
      rw [← hB] at hj
      show (if _ then _ else _) = _
      have e1 : s.seq3 * (nO * 4) = 4 * (s.seq3 * nO) := by ring
      have e2 : (s.seq3 + B) * (nO * 4) = 4 * (s.seq3 * nO + B * nO) := by ring
      rw [if_neg (by omega)]
    · intro b hb o ho
      have hl := hlt b hb o ho
      have hr := hrow2 b o
      show (if _ then _ else _) = _
      rw [if_pos (by omega), show s.seq3 * nO + ((q2 + b) * nO + o - q2 * nO) = (s.seq3 + b) * nO + o by rw [hrow]; omega]
      rw [show (s.seq3 + b) * (nO * 4) + (4 * o + 2) = 4 * ((s.seq3 + b) * nO + o) + 2 by ring,
        show (s.seq3 + b) * (nO * 4) + (4 * o + 0) = 4 * ((s.seq3 + b) * nO + o) + 0 by ring]
    · intro j hj
      rw [← hB] at hj
      show (if _ then _ else _) = _
      have e1 : (q2 + B) * nO = q2 * nO + B * nO := by ring
      rw [if_neg (by omega)]
    · intro b hb o ho
      have hl := hlt b hb o ho
      have hr := hrow2 b o
      rw [v2, if_pos (by omega), show (q2 + b) * nO + o - q2 * nO = b * nO + o by omega, rowMajor_div _ _ _ ho, rowMajor_mod _ _ _ ho]
      congr 1
      refine Finset.sum_congr rfl fun m _ => ?_
      rw [show s.seq3 * (nO * 4) + b * (nO * 4) + m = (s.seq3 + b) * (nO * 4) + m by ring]
    · intro j hj
      rw [← hB] at hj
      have e1 : (q2 + B) * nO = q2 * nO + B * nO := by ring
      rw [v2, if_neg (by omega)]

end Thinc
