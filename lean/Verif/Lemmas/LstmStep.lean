import Verif.Model.Lstm
import Verif.Lemmas.CMem
import Mathlib.Tactic.Linarith
/-!
# One time step of the LSTM
-/
namespace Thinc

theorem modify_ok (b : Buf ℝ) (i : Int) (n : ℕ) (hi : i = n) (f : ℝ → ℝ) (h : n < b.size) :
    b.modify i f = .ok ⟨b.size, fun k => if k = n then f (b.val n) else b.val k⟩ := by
  subst hi
  simp only [Buf.modify, Buf.read_ok b n h, Buf.write_ok b n _ h, bind, Except.bind]

/-- A loop that changes the entries from `g` on, one after the other. -/
theorem forN_modify (b : Buf ℝ) (g : ℕ) (f : ℕ → ℝ → ℝ) (n : ℕ) (h : g + n ≤ b.size) :
    forN n b (fun (b : Buf ℝ) (u : ℕ) => b.modify ((g : ℤ) + u) (f u)) =
      .ok ⟨b.size, fun j => if g ≤ j ∧ j < g + n then f (j - g) (b.val j) else b.val j⟩ := by
  have := forN_eq n (fun (b : Buf ℝ) (u : ℕ) => b.modify ((g : ℤ) + u) (f u))
    (fun u => ⟨b.size, fun j => if g ≤ j ∧ j < g + u then f (j - g) (b.val j) else b.val j⟩) (by
    intro u hu
    rw [modify_ok _ _ (g + u) (by push_cast; rfl) _ (by show g + u < b.size; omega)]
    simp only [Except.ok.injEq, Buf.mk.injEq, true_and]
    funext j
    by_cases hj : j = g + u
    · subst hj
      rw [if_pos rfl, if_neg (by omega), if_pos (by omega), Nat.add_sub_cancel_left]
    · rw [if_neg hj]
      by_cases h' : g ≤ j ∧ j < g + u
      · rw [if_pos h', if_pos (by omega)]
      · rw [if_neg h', if_neg (by omega)])
  have h0 : (⟨b.size, fun j => if g ≤ j ∧ j < g + 0 then f (j - g) (b.val j) else b.val j⟩ : Buf ℝ) = b := by
    cases b
    simp only [Buf.mk.injEq, true_and]
    funext j
    rw [if_neg (by omega)]
  rw [h0] at this
  exact this

theorem addBiasRows_ok (G : Buf ℝ) (g batch w : ℕ) (bias : Mat ℝ) (h : g + batch * w ≤ G.size) :
    addBiasRows G g batch w bias =
      .ok ⟨G.size, fun j => if g ≤ j ∧ j < g + batch * w then G.val j + bias.at 0 ((j - g) % w) else G.val j⟩ :=
  forN_modify G g (fun u x => x + bias.at 0 (u % w)) (batch * w) h

/-- The activation of the gate with number `k` of each unit. -/
noncomputable def gateAct (k : ℕ) : ℝ → ℝ := if k = 3 then Real.tanh else cSigmoid

theorem activateUnit_ok (G : Buf ℝ) (g u : ℕ) (h : g + 4 * u + 4 ≤ G.size) :
    activateUnit g G u =
      .ok ⟨G.size, fun j => if g + 4 * u ≤ j ∧ j < g + 4 * u + 4 then gateAct (j - (g + 4 * u)) (G.val j) else G.val j⟩ := by
  unfold activateUnit
  rw [modify_ok G _ (g + 4 * u) (by push_cast; ring) _ (by omega)]
  simp only [bind, Except.bind]
  rw [modify_ok _ _ (g + 4 * u + 1) (by push_cast; ring) _ (by show _ < G.size; omega)]
  simp only
  rw [modify_ok _ _ (g + 4 * u + 2) (by push_cast; ring) _ (by show _ < G.size; omega)]
  simp only
  rw [modify_ok _ _ (g + 4 * u + 3) (by push_cast; ring) _ (by show _ < G.size; omega)]
  simp only [Except.ok.injEq, Buf.mk.injEq, true_and]
  funext j
  by_cases hj : g + 4 * u ≤ j ∧ j < g + 4 * u + 4
  · rw [if_pos hj]
    have : j = g + 4 * u ∨ j = g + 4 * u + 1 ∨ j = g + 4 * u + 2 ∨ j = g + 4 * u + 3 := by omega
    rcases this with rfl | rfl | rfl | rfl
    · simp [gateAct]
    · simp [gateAct]
    · simp [gateAct]
    · simp [gateAct]
  · rw [if_neg hj, if_neg (by omega), if_neg (by omega), if_neg (by omega), if_neg (by omega)]

theorem lstmActivate_ok (G : Buf ℝ) (g B N : ℕ) (h : g + 4 * (B * N) ≤ G.size) :
    lstmActivate G g B N =
      .ok ⟨G.size, fun j => if g ≤ j ∧ j < g + 4 * (B * N) then gateAct ((j - g) % 4) (G.val j) else G.val j⟩ := by
  have := forN_eq (B * N) (activateUnit (g : ℤ))
    (fun u => ⟨G.size, fun j => if g ≤ j ∧ j < g + 4 * u then gateAct ((j - g) % 4) (G.val j) else G.val j⟩) (by
    intro u hu
    rw [activateUnit_ok _ g u (by show _ ≤ G.size; omega)]
    simp only [Except.ok.injEq, Buf.mk.injEq, true_and]
    funext j
    by_cases hj : g + 4 * u ≤ j ∧ j < g + 4 * u + 4
    · rw [if_pos hj, if_neg (by omega), if_pos (by omega)]
      congr 1
      omega
    · rw [if_neg hj]
      by_cases h' : g ≤ j ∧ j < g + 4 * u
      · rw [if_pos h', if_pos (by omega)]
      · rw [if_neg h', if_neg (by omega)])
  have h0 : (⟨G.size, fun j => if g ≤ j ∧ j < g + 4 * 0 then gateAct ((j - g) % 4) (G.val j) else G.val j⟩ : Buf ℝ) = G := by
    cases G
    simp only [Buf.mk.injEq, true_and]
    funext j
    rw [if_neg (by omega)]
  rw [h0] at this
  exact this

/-- The new cell state of unit `u`. -/
noncomputable def newCell (G : Buf ℝ) (g : ℕ) (prev : Buf ℝ) (u : ℕ) : ℝ :=
  G.val (g + 4 * u) * prev.val u + G.val (g + 4 * u + 1) * G.val (g + 4 * u + 3)

theorem lstmGatesFwd_ok (Y C : Buf ℝ) (h : ℕ) (G : Buf ℝ) (g : ℕ) (prev : Buf ℝ) (B N : ℕ) (hY : h + B * N ≤ Y.size)
    (hC : h + B * N ≤ C.size) (hG : g + 4 * (B * N) ≤ G.size) (hp : B * N ≤ prev.size) :
    lstmGatesFwd Y C h G g prev B N = .ok
      (⟨Y.size, fun j => if h ≤ j ∧ j < h + B * N then Real.tanh (newCell G g prev (j - h)) * G.val (g + 4 * (j - h) + 2) else Y.val j⟩,
       ⟨C.size, fun j => if h ≤ j ∧ j < h + B * N then newCell G g prev (j - h) else C.val j⟩) := by
  have := forN_eq (B * N) (gatesFwdUnit (h : ℤ) G (g : ℤ) prev)
    (fun n => ((⟨Y.size, fun j => if h ≤ j ∧ j < h + n then Real.tanh (newCell G g prev (j - h)) * G.val (g + 4 * (j - h) + 2) else Y.val j⟩ : Buf ℝ),
       (⟨C.size, fun j => if h ≤ j ∧ j < h + n then newCell G g prev (j - h) else C.val j⟩ : Buf ℝ))) (by
    intro u hu
    unfold gatesFwdUnit
    have e0 : G.read ((g : ℤ) + 4 * (u : ℕ) + 0) = .ok (G.val (g + 4 * u)) := by
      rw [← G.read_ok (g + 4 * u) (by omega)]; congr 1
    have e1 : G.read ((g : ℤ) + 4 * (u : ℕ) + 1) = .ok (G.val (g + 4 * u + 1)) := by
      rw [← G.read_ok (g + 4 * u + 1) (by omega)]; congr 1
    have e2 : G.read ((g : ℤ) + 4 * (u : ℕ) + 2) = .ok (G.val (g + 4 * u + 2)) := by
      rw [← G.read_ok (g + 4 * u + 2) (by omega)]; congr 1
    have e3 : G.read ((g : ℤ) + 4 * (u : ℕ) + 3) = .ok (G.val (g + 4 * u + 3)) := by
      rw [← G.read_ok (g + 4 * u + 3) (by omega)]; congr 1
    simp only [e0, e1, e2, e3, prev.read_ok u (by omega), bind, Except.bind, pure, Except.pure]
    rw [show ((h : ℤ) + (u : ℕ)) = ((h + u : ℕ) : ℤ) by push_cast; ring, Buf.write_ok _ _ _ (by show _ < Y.size; omega)]
    simp only
    rw [Buf.write_ok _ _ _ (by show _ < C.size; omega)]
    simp only [Except.ok.injEq, Prod.mk.injEq, Buf.mk.injEq, true_and]
    constructor
    · funext j
      by_cases hj : j = h + u
      · subst hj
        rw [if_pos rfl, if_pos (by omega), Nat.add_sub_cancel_left]
        rfl
      · rw [if_neg hj]
        by_cases h' : h ≤ j ∧ j < h + u
        · rw [if_pos h', if_pos (by omega)]
        · rw [if_neg h', if_neg (by omega)]
    · funext j
      by_cases hj : j = h + u
      · subst hj
        rw [if_pos rfl, if_pos (by omega), Nat.add_sub_cancel_left]
        rfl
      · rw [if_neg hj]
        by_cases h' : h ≤ j ∧ j < h + u
        · rw [if_pos h', if_pos (by omega)]
        · rw [if_neg h', if_neg (by omega)])
  have h0 : ((⟨Y.size, fun j => if h ≤ j ∧ j < h + 0 then Real.tanh (newCell G g prev (j - h)) * G.val (g + 4 * (j - h) + 2) else Y.val j⟩ : Buf ℝ),
       (⟨C.size, fun j => if h ≤ j ∧ j < h + 0 then newCell G g prev (j - h) else C.val j⟩ : Buf ℝ)) = (Y, C) := by
    cases Y
    cases C
    simp only [Prod.mk.injEq, Buf.mk.injEq, true_and]
    constructor <;> (funext j; rw [if_neg (by omega)])
  rw [h0] at this
  exact this

theorem memcpy_ok (dst src : Buf ℝ) (s n : ℕ) (hd : n ≤ dst.size) (hs : s + n ≤ src.size) :
    memcpy dst 0 src s n = .ok ⟨dst.size, fun j => if j < n then src.val (s + j) else dst.val j⟩ := by
  have := forN_eq n (fun (dst : Buf ℝ) (i : ℕ) => do
      let x ← src.read ((s : ℤ) + (i : ℕ))
      dst.write (0 + (i : ℕ)) x)
    (fun k => ⟨dst.size, fun j => if j < k then src.val (s + j) else dst.val j⟩) (by
    intro k hk
    rw [show ((s : ℤ) + (k : ℕ)) = ((s + k : ℕ) : ℤ) by push_cast; ring, src.read_ok _ (by omega), zero_add]
    simp only [bind, Except.bind]
    rw [Buf.write_ok _ _ _ (by show _ < dst.size; omega)]
    simp only [Except.ok.injEq, Buf.mk.injEq, true_and]
    funext j
    by_cases hj : j = k
    · subst hj
      simp
    · rw [if_neg hj]
      by_cases h' : j < k
      · rw [if_pos h', if_pos (by omega)]
      · rw [if_neg h', if_neg (by omega)])
  have h0 : (⟨dst.size, fun j => if j < 0 then src.val (s + j) else dst.val j⟩ : Buf ℝ) = dst := by
    cases dst; simp
  rw [h0] at this
  exact this

theorem sgemmNT_ok (M N K : ℕ) (A : Buf ℝ) (a : ℕ) (B C : Buf ℝ) (c : ℕ) (hA : a + M * K ≤ A.size) (hB : N * K ≤ B.size)
    (hC : c + M * N ≤ C.size) :
    ∃ C', sgemmNT M N K A a B C c = .ok C' ∧ C'.size = C.size ∧ ∀ j, C'.val j = if c ≤ j ∧ j < c + M * N then
      C.val j + ∑ k ∈ Finset.range K, A.val (a + (j - c) / N * K + k) * B.val ((j - c) % N * K + k) else C.val j := by
  unfold sgemmNT
  by_cases h0 : M = 0 ∨ N = 0
  · rw [if_pos h0]
    have : M * N = 0 := by rcases h0 with h | h <;> simp [h]
    exact ⟨C, rfl, rfl, fun j => by rw [this, if_neg (by omega)]⟩
  · rw [if_neg h0, if_pos ⟨by omega, by exact_mod_cast hA, hB, by omega, by exact_mod_cast hC⟩]
    exact ⟨_, rfl, rfl, fun j => by simp only [Int.toNat_natCast]⟩

/-- The activation of gate `k` of unit `o` of row `b` before the nonlinearity. -/
noncomputable def preAct (nO : ℕ) (Wh : Buf ℝ) (bias : Mat ℝ) (G Yt2 : Buf ℝ) (q b o k : ℕ) : ℝ :=
  G.val ((q + b) * (nO * 4) + (4 * o + k)) + ∑ j ∈ Finset.range nO, Yt2.val (b * nO + j) * Wh.val ((4 * o + k) * nO + j) +
    bias.at 0 (4 * o + k)

/-- The new cell state of unit `o` of row `b`. -/
noncomputable def stepCell (nO : ℕ) (Wh : Buf ℝ) (bias : Mat ℝ) (s : LstmState) (q b o : ℕ) : ℝ :=
  cSigmoid (preAct nO Wh bias s.G s.Yt2 q b o 0) * s.Ct2.val (b * nO + o) +
    cSigmoid (preAct nO Wh bias s.G s.Yt2 q b o 1) * Real.tanh (preAct nO Wh bias s.G s.Yt2 q b o 3)

/-- The new hidden state of unit `o` of row `b`. -/
noncomputable def stepHidden (nO : ℕ) (Wh : Buf ℝ) (bias : Mat ℝ) (s : LstmState) (q b o : ℕ) : ℝ :=
  Real.tanh (stepCell nO Wh bias s q b o) * cSigmoid (preAct nO Wh bias s.G s.Yt2 q b o 2)

/-- What a time step does to the buffers. -/
structure StepResult (rev : Bool) (nO : ℕ) (Wh : Buf ℝ) (bias : Mat ℝ) (s : LstmState) (q batch : ℕ) (s' : LstmState) : Prop where
  sizeG : s'.G.size = s.G.size
  sizeY : s'.Y.size = s.Y.size
  sizeC : s'.C.size = s.C.size
  sizeYt : s'.Yt2.size = s.Yt2.size
  sizeCt : s'.Ct2.size = s.Ct2.size
  seq : s'.seq = if rev then (q : ℤ) else (q : ℤ) + batch
  gate : ∀ b < batch, ∀ o < nO, ∀ k < 4, s'.G.val ((q + b) * (nO * 4) + (4 * o + k)) = gateAct k (preAct nO Wh bias s.G s.Yt2 q b o k)
  gate_other : ∀ j, j < q * (nO * 4) ∨ (q + batch) * (nO * 4) ≤ j → s'.G.val j = s.G.val j
  cell : ∀ b < batch, ∀ o < nO, s'.C.val ((q + b) * nO + o) = stepCell nO Wh bias s q b o
  cell_other : ∀ j, j < q * nO ∨ (q + batch) * nO ≤ j → s'.C.val j = s.C.val j
  hidden : ∀ b < batch, ∀ o < nO, s'.Y.val ((q + b) * nO + o) = stepHidden nO Wh bias s q b o
  hidden_other : ∀ j, j < q * nO ∨ (q + batch) * nO ≤ j → s'.Y.val j = s.Y.val j
  lastY : ∀ b < batch, ∀ o < nO, s'.Yt2.val (b * nO + o) = stepHidden nO Wh bias s q b o
  lastY_other : ∀ j, batch * nO ≤ j → s'.Yt2.val j = s.Yt2.val j
  lastC : ∀ b < batch, ∀ o < nO, s'.Ct2.val (b * nO + o) = stepCell nO Wh bias s q b o
  lastC_other : ∀ j, batch * nO ≤ j → s'.Ct2.val j = s.Ct2.val j

theorem lstmStep_ok (rev : Bool) (nO : ℕ) (Wh : Buf ℝ) (bias : Mat ℝ) (s : LstmState) (q batch N : ℕ)
    (hseq : (if rev then s.seq - batch else s.seq) = (q : ℤ)) (hq : q + batch ≤ N) (hG : s.G.size = N * (nO * 4))
    (hY : s.Y.size = N * nO) (hC : s.C.size = N * nO) (hYt : batch * nO ≤ s.Yt2.size) (hCt : batch * nO ≤ s.Ct2.size)
    (hWh : nO * 4 * nO ≤ Wh.size) :
    ∃ s', lstmStep rev nO Wh bias s batch = .ok s' ∧ StepResult rev nO Wh bias s q batch s' := by
  have hb4 : q * (nO * 4) + batch * (nO * 4) ≤ s.G.size := by
    rw [hG, ← Nat.add_mul]; exact Nat.mul_le_mul_right _ hq
  have hb1 : q * nO + batch * nO ≤ N * nO := by
    rw [← Nat.add_mul]; exact Nat.mul_le_mul_right _ hq
  have h4 : 4 * (batch * nO) = batch * (nO * 4) := by ring
  obtain ⟨G1, e1, z1, v1⟩ := sgemmNT_ok batch (nO * 4) nO s.Yt2 0 Wh s.G (q * (nO * 4)) (by omega) hWh (by omega)
  have e2 := addBiasRows_ok G1 (q * (nO * 4)) batch (nO * 4) bias (by omega)
  set G2 : Buf ℝ := ⟨G1.size, fun j => if q * (nO * 4) ≤ j ∧ j < q * (nO * 4) + batch * (nO * 4) then
    G1.val j + bias.at 0 ((j - q * (nO * 4)) % (nO * 4)) else G1.val j⟩ with hG2
  have e3 := lstmActivate_ok G2 (q * (nO * 4)) batch nO (by show _ ≤ G1.size; omega)
  set G3 : Buf ℝ := ⟨G2.size, fun j => if q * (nO * 4) ≤ j ∧ j < q * (nO * 4) + 4 * (batch * nO) then
    gateAct ((j - q * (nO * 4)) % 4) (G2.val j) else G2.val j⟩ with hG3
  have e4 := lstmGatesFwd_ok s.Y s.C (q * nO) G3 (q * (nO * 4)) s.Ct2 batch nO (by omega) (by omega) (by show _ ≤ G1.size; omega) hCt
  set Y' : Buf ℝ := ⟨s.Y.size, fun j => if q * nO ≤ j ∧ j < q * nO + batch * nO then
    Real.tanh (newCell G3 (q * (nO * 4)) s.Ct2 (j - q * nO)) * G3.val (q * (nO * 4) + 4 * (j - q * nO) + 2) else s.Y.val j⟩ with hY'
  set C' : Buf ℝ := ⟨s.C.size, fun j => if q * nO ≤ j ∧ j < q * nO + batch * nO then
    newCell G3 (q * (nO * 4)) s.Ct2 (j - q * nO) else s.C.val j⟩ with hC'
  have e5 := memcpy_ok s.Yt2 Y' (q * nO) (batch * nO) hYt (by show _ ≤ s.Y.size; omega)
  have e6 := memcpy_ok s.Ct2 C' (q * nO) (batch * nO) hCt (by show _ ≤ s.C.size; omega)
  -- the gates
  have hgate : ∀ b < batch, ∀ o < nO, ∀ k < 4,
      G3.val ((q + b) * (nO * 4) + (4 * o + k)) = gateAct k (preAct nO Wh bias s.G s.Yt2 q b o k) := by
    intro b hb o ho k hk
    have hw : 4 * o + k < nO * 4 := by omega
    have hlt : b * (nO * 4) + (4 * o + k) < batch * (nO * 4) := rowMajor_lt hb hw
    have ej : (q + b) * (nO * 4) + (4 * o + k) = q * (nO * 4) + (b * (nO * 4) + (4 * o + k)) := by ring
    have hsub : (q + b) * (nO * 4) + (4 * o + k) - q * (nO * 4) = b * (nO * 4) + (4 * o + k) := by omega
    have hin : q * (nO * 4) ≤ (q + b) * (nO * 4) + (4 * o + k) ∧
      (q + b) * (nO * 4) + (4 * o + k) < q * (nO * 4) + batch * (nO * 4) := by omega
    have hmod4 : (b * (nO * 4) + (4 * o + k)) % 4 = k := by
      rw [show b * (nO * 4) + (4 * o + k) = k + 4 * (b * nO + o) by ring, Nat.add_mul_mod_self_left, Nat.mod_eq_of_lt hk]
    rw [hG3]
    simp only
    rw [if_pos (by rw [h4]; exact hin), hsub, hmod4]
    congr 1
    rw [hG2]
    simp only
    rw [if_pos hin, v1, if_pos hin, hsub, rowMajor_div _ _ _ hw, rowMajor_mod _ _ _ hw]
    unfold preAct
    simp only [zero_add]
  have hunit : ∀ b o k, q * (nO * 4) + 4 * (b * nO + o) + k = (q + b) * (nO * 4) + (4 * o + k) := by intro b o k; ring
  have hcell : ∀ b < batch, ∀ o < nO, newCell G3 (q * (nO * 4)) s.Ct2 (b * nO + o) = stepCell nO Wh bias s q b o := by
    intro b hb o ho
    unfold newCell stepCell
    rw [show q * (nO * 4) + 4 * (b * nO + o) = (q + b) * (nO * 4) + (4 * o + 0) by ring, hgate b hb o ho 0 (by omega)]
    rw [show (q + b) * (nO * 4) + (4 * o + 0) + 1 = (q + b) * (nO * 4) + (4 * o + 1) by ring, hgate b hb o ho 1 (by omega)]
    rw [show (q + b) * (nO * 4) + (4 * o + 0) + 3 = (q + b) * (nO * 4) + (4 * o + 3) by ring, hgate b hb o ho 3 (by omega)]
    simp [gateAct]
  have hlt1 : ∀ b < batch, ∀ o < nO, b * nO + o < batch * nO := fun b hb o ho => rowMajor_lt hb ho
  have eqo : ∀ b o, (q + b) * nO + o = q * nO + (b * nO + o) := by intro b o; ring
  have hCv : ∀ b < batch, ∀ o < nO, C'.val ((q + b) * nO + o) = stepCell nO Wh bias s q b o := by
    intro b hb o ho
    have := hlt1 b hb o ho
    rw [hC', ← hcell b hb o ho]
    simp only
    rw [eqo, if_pos (by omega), Nat.add_sub_cancel_left]
  have hYv : ∀ b < batch, ∀ o < nO, Y'.val ((q + b) * nO + o) = stepHidden nO Wh bias s q b o := by
    intro b hb o ho
    have := hlt1 b hb o ho
    rw [hY']
    unfold stepHidden
    simp only
    rw [eqo, if_pos (by omega), Nat.add_sub_cancel_left, hcell b hb o ho, hunit, hgate b hb o ho 2 (by omega)]
    simp [gateAct]
  refine ⟨⟨G3, Y', C', ⟨s.Yt2.size, fun j => if j < batch * nO then Y'.val (q * nO + j) else s.Yt2.val j⟩,
    ⟨s.Ct2.size, fun j => if j < batch * nO then C'.val (q * nO + j) else s.Ct2.val j⟩, if rev then (q : ℤ) else (q : ℤ) + batch⟩, ?_, ?_⟩
  · unfold lstmStep
    simp only [hseq]
    rw [show ((q : ℤ) * ((nO * 4 : ℕ) : ℤ)) = ((q * (nO * 4) : ℕ) : ℤ) by push_cast; ring,
      show ((q : ℤ) * (nO : ℤ)) = ((q * nO : ℕ) : ℤ) by push_cast; ring]
    simp only [Nat.cast_zero] at e1
    simp only [e1, e2, e3, e4, e5, e6, bind, Except.bind, pure, Except.pure]
  · constructor
    · show G1.size = _; exact z1
    · rfl
    · rfl
    · rfl
    · rfl
    · rfl
    · exact hgate
    · intro j hj
      have hj' : ¬(q * (nO * 4) ≤ j ∧ j < q * (nO * 4) + batch * (nO * 4)) := by
        rw [Nat.add_mul] at hj; omega
      show G3.val j = _
      rw [hG3]
      simp only
      rw [if_neg (by rw [h4]; exact hj'), hG2]
      simp only
      rw [if_neg hj', v1, if_neg hj']
    · exact hCv
    · intro j hj
      rw [Nat.add_mul] at hj
      show C'.val j = _
      rw [hC']
      simp only
      rw [if_neg (by omega)]
    · exact hYv
    · intro j hj
      rw [Nat.add_mul] at hj
      show Y'.val j = _
      rw [hY']
      simp only
      rw [if_neg (by omega)]
    · intro b hb o ho
      show (if b * nO + o < batch * nO then Y'.val (q * nO + (b * nO + o)) else _) = _
      rw [if_pos (hlt1 b hb o ho), ← eqo, hYv b hb o ho]
    · intro j hj
      show (if j < batch * nO then _ else _) = _
      rw [if_neg (by omega)]
    · intro b hb o ho
      show (if b * nO + o < batch * nO then C'.val (q * nO + (b * nO + o)) else _) = _
      rw [if_pos (hlt1 b hb o ho), ← eqo, hCv b hb o ho]
    · intro j hj
      show (if j < batch * nO then _ else _) = _
      rw [if_neg (by omega)]

end Thinc
