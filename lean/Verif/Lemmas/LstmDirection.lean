import Verif.Lemmas.LstmStep
import Verif.Spec.Lstm
import Verif.Props.Packing
/-!
# One direction of one layer of the LSTM
-/
namespace Thinc
open Spec

/-- The transposed weights hold the weights of the cell. -/
structure GatesOf (w : GateWeights) (cw : CellWeights) (nI nO : ℕ) : Prop where
  sizeX : w.Wx.buf.size = nO * 4 * nI
  sizeH : w.Wh.buf.size = nO * 4 * nO
  Wx : ∀ g < 4, ∀ o < nO, ∀ k < nI, w.Wx.buf.val ((4 * o + g) * nI + k) = cw.Wx g o k
  Wh : ∀ g < 4, ∀ o < nO, ∀ k < nO, w.Wh.buf.val ((4 * o + g) * nO + k) = cw.Wh g o k
  bias : ∀ g < 4, ∀ o < nO, w.bias.at 0 (4 * o + g) = cw.bx g o + cw.bh g o

theorem cSigmoid_eq (x : ℝ) : cSigmoid x = logit x := by unfold cSigmoid logit; rw [add_comm]

variable {nI nO : ℕ} {w : GateWeights} {cw : CellWeights}

theorem preAct_eq (hw : GatesOf w cw nI nO) (X : Mat ℝ) (G Yt2 : Buf ℝ) (q b : ℕ) (h : ℕ → ℝ)
    (hG : ∀ j < nO * 4, G.val ((q + b) * (nO * 4) + j) = ∑ k ∈ Finset.range nI, X.at (q + b) k * w.Wx.buf.val (j * nI + k))
    (hY : ∀ o < nO, Yt2.val (b * nO + o) = h o) (g : ℕ) (hg : g < 4) (o : ℕ) (ho : o < nO) :
    preAct nO w.Wh.buf w.bias G Yt2 q b o g = gate cw nI nO h (X.at (q + b)) g o := by
  unfold preAct gate
  rw [hG _ (by omega), hw.bias g hg o ho]
  have e1 : ∑ k ∈ Finset.range nI, X.at (q + b) k * w.Wx.buf.val ((4 * o + g) * nI + k) =
      ∑ k ∈ Finset.range nI, cw.Wx g o k * X.at (q + b) k :=
    Finset.sum_congr rfl fun k hk => by rw [hw.Wx g hg o ho k (Finset.mem_range.1 hk), mul_comm]
  have e2 : ∑ j ∈ Finset.range nO, Yt2.val (b * nO + j) * w.Wh.buf.val ((4 * o + g) * nO + j) =
      ∑ k ∈ Finset.range nO, cw.Wh g o k * h k :=
    Finset.sum_congr rfl fun k hk => by
      rw [hw.Wh g hg o ho k (Finset.mem_range.1 hk), hY k (Finset.mem_range.1 hk), mul_comm]
  rw [e1, e2]
  ring

theorem stepCell_eq (hw : GatesOf w cw nI nO) (X : Mat ℝ) (s : LstmState) (q b : ℕ) (st : (ℕ → ℝ) × (ℕ → ℝ))
    (hG : ∀ j < nO * 4, s.G.val ((q + b) * (nO * 4) + j) = ∑ k ∈ Finset.range nI, X.at (q + b) k * w.Wx.buf.val (j * nI + k))
    (hY : ∀ o < nO, s.Yt2.val (b * nO + o) = st.1 o) (hC : ∀ o < nO, s.Ct2.val (b * nO + o) = st.2 o) (o : ℕ) (ho : o < nO) :
    stepCell nO w.Wh.buf w.bias s q b o = (lstmCell cw nI nO st (X.at (q + b))).2 o := by
  unfold stepCell lstmCell
  rw [preAct_eq hw X s.G s.Yt2 q b st.1 hG hY 0 (by omega) o ho, preAct_eq hw X s.G s.Yt2 q b st.1 hG hY 1 (by omega) o ho,
    preAct_eq hw X s.G s.Yt2 q b st.1 hG hY 3 (by omega) o ho, hC o ho, cSigmoid_eq, cSigmoid_eq]

theorem stepHidden_eq (hw : GatesOf w cw nI nO) (X : Mat ℝ) (s : LstmState) (q b : ℕ) (st : (ℕ → ℝ) × (ℕ → ℝ))
    (hG : ∀ j < nO * 4, s.G.val ((q + b) * (nO * 4) + j) = ∑ k ∈ Finset.range nI, X.at (q + b) k * w.Wx.buf.val (j * nI + k))
    (hY : ∀ o < nO, s.Yt2.val (b * nO + o) = st.1 o) (hC : ∀ o < nO, s.Ct2.val (b * nO + o) = st.2 o) (o : ℕ) (ho : o < nO) :
    stepHidden nO w.Wh.buf w.bias s q b o = (lstmCell cw nI nO st (X.at (q + b))).1 o := by
  unfold stepHidden
  rw [stepCell_eq hw X s q b st hG hY hC o ho, preAct_eq hw X s.G s.Yt2 q b st.1 hG hY 2 (by omega) o ho, cSigmoid_eq, mul_comm]
  rfl

/-! ### The order of the time steps -/

/-- The time step handled in round `k`. -/
def timeOf (rev : Bool) (nT k : ℕ) : ℕ := if rev then nT - (k + 1) else k

/-- What has been read of a sequence after `k` rounds. -/
def partOf {β : Type} (rev : Bool) (nT k : ℕ) (xs : List β) : List β := if rev then (xs.drop (nT - k)).reverse else xs.take k

/-- Has time step `t` been handled before round `k`? -/
def DoneAt (rev : Bool) (nT k t : ℕ) : Prop := if rev then nT - k ≤ t else t < k

theorem partOf_zero {β : Type} (rev : Bool) (nT : ℕ) (xs : List β) (h : xs.length ≤ nT) : partOf rev nT 0 xs = [] := by
  cases rev
  · simp [partOf]
  · simp [partOf, List.drop_eq_nil_of_le h]

theorem partOf_succ {β : Type} (rev : Bool) (nT k : ℕ) (xs : List β) (hk : k < nT) (ht : timeOf rev nT k < xs.length) :
    partOf rev nT (k + 1) xs = partOf rev nT k xs ++ [xs[timeOf rev nT k]] := by
  cases rev
  · simp only [partOf, timeOf, Bool.false_eq_true, if_false] at ht ⊢
    rw [List.take_add_one]
    simp [ht]
  · simp only [partOf, timeOf, if_true] at ht ⊢
    rw [List.drop_eq_getElem_cons ht, List.reverse_cons, show nT - (k + 1) + 1 = nT - k by omega]

theorem partOf_succ_none {β : Type} (rev : Bool) (nT k : ℕ) (xs : List β) (hk : k < nT) (ht : xs.length ≤ timeOf rev nT k) :
    partOf rev nT (k + 1) xs = partOf rev nT k xs := by
  cases rev
  · simp only [partOf, timeOf, Bool.false_eq_true, if_false] at ht ⊢
    rw [List.take_of_length_le ht, List.take_of_length_le (by omega)]
  · simp only [partOf, timeOf, if_true] at ht ⊢
    rw [List.drop_eq_nil_of_le ht, List.drop_eq_nil_of_le (by omega)]

theorem partOf_output {β : Type} (rev : Bool) (nT k : ℕ) (xs : List β) :
    partOf rev nT (k + 1) xs = if rev then (xs.drop (timeOf rev nT k)).reverse else xs.take (timeOf rev nT k + 1) := by
  cases rev <;> simp [partOf, timeOf]

theorem doneAt_succ (rev : Bool) (nT k t : ℕ) (hk : k < nT) : DoneAt rev nT (k + 1) t ↔ DoneAt rev nT k t ∨ t = timeOf rev nT k := by
  cases rev
  · simp only [DoneAt, timeOf, Bool.false_eq_true, if_false]; omega
  · simp only [DoneAt, timeOf, if_true]; omega

theorem not_doneAt_timeOf (rev : Bool) (nT k : ℕ) (hk : k < nT) : ¬ DoneAt rev nT k (timeOf rev nT k) := by
  cases rev
  · simp only [DoneAt, timeOf, Bool.false_eq_true, if_false]; omega
  · simp only [DoneAt, timeOf, if_true]; omega

/-! ### Packed rows -/

theorem packedLength_iff (ls : List ℕ) (h : ls.Pairwise (· ≥ ·)) (t b : ℕ) : t < packedLength ls b ↔ b < ls.getD t 0 :=
  lt_countP_iff ls h b t

theorem packedSeq_length (ls : List ℕ) (X : ℕ → ℕ → ℝ) (b : ℕ) : (packedSeq ls X b).length = packedLength ls b := by
  simp [packedSeq]

theorem packedSeq_getElem (ls : List ℕ) (X : ℕ → ℕ → ℝ) (b t : ℕ) (h : t < (packedSeq ls X b).length) :
    (packedSeq ls X b)[t] = X (packedRow ls t b) := by
  simp [packedSeq]

theorem take_sum_succ (ls : List ℕ) (t : ℕ) : (ls.take (t + 1)).sum = (ls.take t).sum + ls.getD t 0 := by
  rw [List.take_add_one, List.sum_append]
  by_cases ht : t < ls.length
  · simp [ht, List.getD_eq_getElem?_getD]
  · simp [List.getD_eq_getElem?_getD, List.getElem?_eq_none (Nat.le_of_not_lt ht)]

theorem take_sum_mono (ls : List ℕ) {t u : ℕ} (h : t ≤ u) : (ls.take t).sum ≤ (ls.take u).sum := by
  induction u with
  | zero => have : t = 0 := by omega
            subst this; exact le_rfl
  | succ u ih =>
    rcases Nat.lt_or_ge t (u + 1) with h' | h'
    · rw [take_sum_succ]
      have := ih (by omega)
      omega
    · have : t = u + 1 := by omega
      subst this; exact le_rfl

theorem packedRow_lt (ls : List ℕ) {t b : ℕ} (hb : b < ls.getD t 0) : packedRow ls t b < ls.sum := by
  have h1 := take_sum_succ ls t
  have h2 := take_sum_mono ls (t := t + 1) (u := max (t + 1) ls.length) (by omega)
  rw [List.take_of_length_le (l := ls) (i := max (t + 1) ls.length) (by omega)] at h2
  unfold packedRow
  omega

/-- Rows of other time steps are outside the rows of time step `u`. -/
theorem packedRow_outside (ls : List ℕ) {t u b : ℕ} (hb : b < ls.getD t 0) (hne : t ≠ u) :
    packedRow ls t b < (ls.take u).sum ∨ (ls.take u).sum + ls.getD u 0 ≤ packedRow ls t b := by
  unfold packedRow
  rcases Nat.lt_or_ge t u with h | h
  · left
    have h1 := take_sum_succ ls t
    have h2 := take_sum_mono ls (t := t + 1) (u := u) h
    omega
  · right
    have h1 := take_sum_succ ls u
    have h2 := take_sum_mono ls (t := u + 1) (u := t) (by omega)
    omega

/-! ### The loop over time -/

/-- The hidden and cell state at position `t`. -/
noncomputable def stateAt (rev : Bool) (cw : CellWeights) (nI nO : ℕ) (s0 : (ℕ → ℝ) × (ℕ → ℝ)) (xs : List (ℕ → ℝ)) (t : ℕ) :
    (ℕ → ℝ) × (ℕ → ℝ) :=
  lstmRead cw nI nO s0 (if rev then (xs.drop t).reverse else xs.take (t + 1))

/-- The state before position `t`. -/
noncomputable def stateBefore (rev : Bool) (cw : CellWeights) (nI nO : ℕ) (s0 : (ℕ → ℝ) × (ℕ → ℝ)) (xs : List (ℕ → ℝ)) (t : ℕ) :
    (ℕ → ℝ) × (ℕ → ℝ) :=
  lstmRead cw nI nO s0 (if rev then (xs.drop (t + 1)).reverse else xs.take t)

structure LstmInv (rev : Bool) (cw : CellWeights) (w : GateWeights) (nI nO : ℕ) (s0 : (ℕ → ℝ) × (ℕ → ℝ)) (X : Mat ℝ) (ls : List ℕ) (k : ℕ)
    (s : LstmState) : Prop where
  sizeG : s.G.size = X.rows * (nO * 4)
  sizeY : s.Y.size = X.rows * nO
  sizeC : s.C.size = X.rows * nO
  sizeYt : s.Yt2.size = ls.getD 0 0 * nO
  sizeCt : s.Ct2.size = ls.getD 0 0 * nO
  seq : s.seq = ((ls.take (if rev then ls.length - k else k)).sum : ℕ)
  lastY : ∀ b < ls.getD 0 0, ∀ o < nO, s.Yt2.val (b * nO + o) =
    (lstmRead cw nI nO s0 (partOf rev ls.length k (packedSeq ls X.at b))).1 o
  lastC : ∀ b < ls.getD 0 0, ∀ o < nO, s.Ct2.val (b * nO + o) =
    (lstmRead cw nI nO s0 (partOf rev ls.length k (packedSeq ls X.at b))).2 o
  todo : ∀ t b, b < ls.getD t 0 → ¬ DoneAt rev ls.length k t → ∀ j < nO * 4, s.G.val (packedRow ls t b * (nO * 4) + j) =
    ∑ i ∈ Finset.range nI, X.at (packedRow ls t b) i * w.Wx.buf.val (j * nI + i)
  doneY : ∀ t b, b < ls.getD t 0 → DoneAt rev ls.length k t → ∀ o < nO, s.Y.val (packedRow ls t b * nO + o) =
    (stateAt rev cw nI nO s0 (packedSeq ls X.at b) t).1 o
  doneC : ∀ t b, b < ls.getD t 0 → DoneAt rev ls.length k t → ∀ o < nO, s.C.val (packedRow ls t b * nO + o) =
    (stateAt rev cw nI nO s0 (packedSeq ls X.at b) t).2 o
  doneG : ∀ t b, b < ls.getD t 0 → DoneAt rev ls.length k t → ∀ o < nO, ∀ g < 4, s.G.val (packedRow ls t b * (nO * 4) + (4 * o + g)) =
    gateAct g (gate cw nI nO (stateBefore rev cw nI nO s0 (packedSeq ls X.at b) t).1 (X.at (packedRow ls t b)) g o)

theorem getD_le_head (ls : List ℕ) (h : ls.Pairwise (· ≥ ·)) (t : ℕ) : ls.getD t 0 ≤ ls.getD 0 0 := by
  by_contra hc
  have h1 := (packedLength_iff ls h t (ls.getD 0 0)).2 (by omega)
  have h2 := (packedLength_iff ls h 0 (ls.getD 0 0)).1 (by omega)
  omega

theorem LstmInv.step {rev : Bool} (hw : GatesOf w cw nI nO) {s0 : (ℕ → ℝ) × (ℕ → ℝ)} {X : Mat ℝ} {ls : List ℕ}
    (hls : ls.Pairwise (· ≥ ·)) (hsum : ls.sum = X.rows) {k : ℕ} (hk : k < ls.length) {s : LstmState}
    (hs : LstmInv rev cw w nI nO s0 X ls k s) :
    ∃ s', lstmStep rev nO w.Wh.buf w.bias s (ls.getD (timeOf rev ls.length k) 0) = .ok s' ∧ LstmInv rev cw w nI nO s0 X ls (k + 1) s' := by
  set t := timeOf rev ls.length k with ht
  set q := (ls.take t).sum with hq
  have hle0 := getD_le_head ls hls t
  have hsucc := take_sum_succ ls t
  have hq' : q + ls.getD t 0 ≤ X.rows := by
    have h2 := take_sum_mono ls (t := t + 1) (u := max (t + 1) ls.length) (by omega)
    rw [List.take_of_length_le (l := ls) (i := max (t + 1) ls.length) (by omega)] at h2
    omega
  have hseq : (if rev then s.seq - (ls.getD t 0 : ℕ) else s.seq) = (q : ℤ) := by
    rw [hs.seq]
    cases rev
    · simp only [Bool.false_eq_true, if_false]
      rw [hq, ht]
      rfl
    · simp only [if_true]
      have ht' : t = ls.length - (k + 1) := ht
      rw [show ls.length - k = t + 1 by omega, hsucc, Nat.cast_add]
      exact add_sub_cancel_right _ _
  obtain ⟨s', e, r⟩ := lstmStep_ok rev nO w.Wh.buf w.bias s q (ls.getD t 0) X.rows hseq hq' hs.sizeG hs.sizeY hs.sizeC
    (by rw [hs.sizeYt]; exact Nat.mul_le_mul_right _ hle0) (by rw [hs.sizeCt]; exact Nat.mul_le_mul_right _ hle0) (le_of_eq hw.sizeH.symm)
  refine ⟨s', e, ?_⟩
  have hnd := not_doneAt_timeOf rev ls.length k hk
  rw [← ht] at hnd
  -- the sequences active at time t
  have hGrow : ∀ b < ls.getD t 0, ∀ j < nO * 4, s.G.val ((q + b) * (nO * 4) + j) =
      ∑ i ∈ Finset.range nI, X.at (q + b) i * w.Wx.buf.val (j * nI + i) := fun b hb j hj => hs.todo t b hb hnd j hj
  have hY1 : ∀ b < ls.getD t 0, ∀ o < nO, s.Yt2.val (b * nO + o) =
      (lstmRead cw nI nO s0 (partOf rev ls.length k (packedSeq ls X.at b))).1 o := fun b hb => hs.lastY b (by omega)
  have hC1 : ∀ b < ls.getD t 0, ∀ o < nO, s.Ct2.val (b * nO + o) =
      (lstmRead cw nI nO s0 (partOf rev ls.length k (packedSeq ls X.at b))).2 o := fun b hb => hs.lastC b (by omega)
  have hnew : ∀ b < ls.getD t 0, lstmRead cw nI nO s0 (partOf rev ls.length (k + 1) (packedSeq ls X.at b)) =
      lstmCell cw nI nO (lstmRead cw nI nO s0 (partOf rev ls.length k (packedSeq ls X.at b))) (X.at (q + b)) := by
    intro b hb
    have hlen : t < (packedSeq ls X.at b).length := by rw [packedSeq_length, packedLength_iff ls hls]; exact hb
    rw [partOf_succ rev ls.length k _ hk hlen]
    unfold lstmRead
    rw [List.foldl_append, packedSeq_getElem ls X.at b _ hlen]
    rfl
  have hhid : ∀ b < ls.getD t 0, ∀ o < nO, stepHidden nO w.Wh.buf w.bias s q b o =
      (lstmRead cw nI nO s0 (partOf rev ls.length (k + 1) (packedSeq ls X.at b))).1 o := by
    intro b hb o ho
    rw [hnew b hb, stepHidden_eq hw X s q b _ (hGrow b hb) (hY1 b hb) (hC1 b hb) o ho]
  have hcel : ∀ b < ls.getD t 0, ∀ o < nO, stepCell nO w.Wh.buf w.bias s q b o =
      (lstmRead cw nI nO s0 (partOf rev ls.length (k + 1) (packedSeq ls X.at b))).2 o := by
    intro b hb o ho
    rw [hnew b hb, stepCell_eq hw X s q b _ (hGrow b hb) (hY1 b hb) (hC1 b hb) o ho]
  have hsame : ∀ b, ls.getD t 0 ≤ b → partOf rev ls.length (k + 1) (packedSeq ls X.at b) = partOf rev ls.length k (packedSeq ls X.at b) := by
    intro b hb
    refine partOf_succ_none rev ls.length k _ hk ?_
    rw [packedSeq_length, ← ht]
    by_contra hc
    have := (packedLength_iff ls hls t b).1 (by omega)
    omega
  have hout : ∀ b, partOf rev ls.length (k + 1) (packedSeq ls X.at b) =
      if rev then ((packedSeq ls X.at b).drop t).reverse else (packedSeq ls X.at b).take (t + 1) := fun b => partOf_output _ _ _ _
  have hbefore : ∀ b, lstmRead cw nI nO s0 (partOf rev ls.length k (packedSeq ls X.at b)) =
      stateBefore rev cw nI nO s0 (packedSeq ls X.at b) t := by
    intro b
    unfold stateBefore partOf
    cases rev
    · simp only [Bool.false_eq_true, if_false]; rw [ht]; rfl
    · simp only [if_true]
      have ht' : t = ls.length - (k + 1) := ht
      rw [show ls.length - k = t + 1 by omega]
  have hother : ∀ t' b, b < ls.getD t' 0 → t' ≠ t → ∀ m o, o < m →
      (packedRow ls t' b * m + o < q * m ∨ (q + ls.getD t 0) * m ≤ packedRow ls t' b * m + o) := by
    intro t' b hb hne m o ho
    rcases packedRow_outside ls hb hne with h | h
    · left
      exact rowMajor_lt h ho
    · right
      exact (Nat.mul_le_mul_right m h).trans (Nat.le_add_right _ _)
  constructor
  · rw [r.sizeG, hs.sizeG]
  · rw [r.sizeY, hs.sizeY]
  · rw [r.sizeC, hs.sizeC]
  · rw [r.sizeYt, hs.sizeYt]
  · rw [r.sizeCt, hs.sizeCt]
  · rw [r.seq]
    cases rev
    · simp only [Bool.false_eq_true, if_false]
      have ht' : t = k := ht
      rw [← ht', hsucc, Nat.cast_add]
    · simp only [if_true]
      have ht' : t = ls.length - (k + 1) := ht
      rw [← ht']
  · intro b hb o ho
    by_cases hbt : b < ls.getD t 0
    · rw [r.lastY b hbt o ho, hhid b hbt o ho]
    · rw [r.lastY_other _ ((Nat.mul_le_mul_right nO (Nat.le_of_not_lt hbt)).trans (Nat.le_add_right _ _)), hsame b (by omega),
        hs.lastY b hb o ho]
  · intro b hb o ho
    by_cases hbt : b < ls.getD t 0
    · rw [r.lastC b hbt o ho, hcel b hbt o ho]
    · rw [r.lastC_other _ ((Nat.mul_le_mul_right nO (Nat.le_of_not_lt hbt)).trans (Nat.le_add_right _ _)), hsame b (by omega),
        hs.lastC b hb o ho]
  · intro t' b hb hd j hj
    rw [doneAt_succ rev ls.length k t' hk, not_or] at hd
    rw [r.gate_other _ (hother t' b hb hd.2 (nO * 4) j hj)]
    exact hs.todo t' b hb hd.1 j hj
  · intro t' b hb hd o ho
    by_cases hne : t' = t
    · subst hne
      rw [show packedRow ls t b = q + b from rfl, r.hidden b hb o ho, hhid b hb o ho, hout b]
      rfl
    · have hd' : DoneAt rev ls.length k t' := by
        rcases (doneAt_succ rev ls.length k t' hk).1 hd with h | h
        · exact h
        · exact absurd h hne
      rw [r.hidden_other _ (hother t' b hb hne nO o ho)]
      exact hs.doneY t' b hb hd' o ho
  · intro t' b hb hd o ho
    by_cases hne : t' = t
    · subst hne
      rw [show packedRow ls t b = q + b from rfl, r.cell b hb o ho, hcel b hb o ho, hout b]
      rfl
    · have hd' : DoneAt rev ls.length k t' := by
        rcases (doneAt_succ rev ls.length k t' hk).1 hd with h | h
        · exact h
        · exact absurd h hne
      rw [r.cell_other _ (hother t' b hb hne nO o ho)]
      exact hs.doneC t' b hb hd' o ho
  · intro t' b hb hd o ho g hg
    by_cases hne : t' = t
    · subst hne
      rw [show packedRow ls t b = q + b from rfl, r.gate b hb o ho g hg,
        preAct_eq hw X s.G s.Yt2 q b _ (hGrow b hb) (hY1 b hb) g hg o ho, hbefore b]
    · have hd' : DoneAt rev ls.length k t' := by
        rcases (doneAt_succ rev ls.length k t' hk).1 hd with h | h
        · exact h
        · exact absurd h hne
      rw [r.gate_other _ (hother t' b hb hne (nO * 4) _ (by omega))]
      exact hs.doneG t' b hb hd' o ho g hg

/-- What one direction leaves behind. -/
structure LstmDone (rev : Bool) (cw : CellWeights) (nI nO : ℕ) (s0 : (ℕ → ℝ) × (ℕ → ℝ)) (X : Mat ℝ) (ls : List ℕ) (T : LstmTrace) : Prop where
  sizeG : T.G.size = X.rows * (nO * 4)
  sizeY : T.Y.size = X.rows * nO
  sizeC : T.C.size = X.rows * nO
  Y : ∀ t b, b < ls.getD t 0 → ∀ o < nO, T.Y.val (packedRow ls t b * nO + o) =
    (stateAt rev cw nI nO s0 (packedSeq ls X.at b) t).1 o
  C : ∀ t b, b < ls.getD t 0 → ∀ o < nO, T.C.val (packedRow ls t b * nO + o) =
    (stateAt rev cw nI nO s0 (packedSeq ls X.at b) t).2 o
  G : ∀ t b, b < ls.getD t 0 → ∀ o < nO, ∀ g < 4, T.G.val (packedRow ls t b * (nO * 4) + (4 * o + g)) =
    gateAct g (gate cw nI nO (stateBefore rev cw nI nO s0 (packedSeq ls X.at b) t).1 (X.at (packedRow ls t b)) g o)

theorem lstmDirection_ok (rev : Bool) (hw : GatesOf w cw nI nO) (hInit cInit : ℕ → ℝ) (X : Mat ℝ) (hX : X.cols = nI) (ls : List ℕ)
    (hne : ls ≠ []) (hls : ls.Pairwise (· ≥ ·)) (hsum : ls.sum = X.rows) :
    ∃ T, lstmDirection rev nO X w hInit cInit ls = .ok T ∧ LstmDone rev cw nI nO (hInit, cInit) X ls T := by
  obtain ⟨n0, rest, rfl⟩ := List.exists_cons_of_ne_nil hne
  set ls := n0 :: rest with hlsdef
  obtain ⟨G0, e0, z0, v0⟩ := sgemmNT_ok X.rows (nO * 4) X.cols X.buf 0 w.Wx.buf ⟨X.rows * (nO * 4), fun _ => 0⟩ 0
    (by show 0 + X.rows * X.cols ≤ X.rows * X.cols; omega) (by rw [hX]; exact le_of_eq hw.sizeX.symm)
    (by show 0 + _ ≤ X.rows * (nO * 4); omega)
  have hrowlt : ∀ t b, b < ls.getD t 0 → packedRow ls t b < X.rows := fun t b hb => by rw [← hsum]; exact packedRow_lt ls hb
  have hlen : ∀ b, packedLength ls b ≤ ls.length := fun b => List.countP_le_length
  have hread0 : ∀ b, lstmRead cw nI nO (hInit, cInit) (partOf rev ls.length 0 (packedSeq ls X.at b)) = (hInit, cInit) := by
    intro b
    rw [partOf_zero rev ls.length _ (by rw [packedSeq_length]; exact hlen b)]
    rfl
  have hnd0 : ∀ t b, b < ls.getD t 0 → ¬ DoneAt rev ls.length 0 t := by
    intro t b hb
    have : t < ls.length := by
      by_contra hc
      rw [List.getD_eq_getElem?_getD, List.getElem?_eq_none (Nat.le_of_not_lt hc)] at hb
      simp at hb
    cases rev
    · simp [DoneAt]
    · simp only [DoneAt, if_true]; omega
  have hinit : LstmInv rev cw w nI nO (hInit, cInit) X ls 0
      ⟨G0, ⟨X.rows * nO, fun _ => 0⟩, ⟨X.rows * nO, fun _ => 0⟩, ⟨n0 * nO, fun j => hInit (j % nO)⟩, ⟨n0 * nO, fun j => cInit (j % nO)⟩,
        if rev then (X.rows : ℤ) else 0⟩ := by
    constructor
    · exact z0
    · rfl
    · rfl
    · rfl
    · rfl
    · cases rev
      · simp
      · simp only [if_true, Nat.sub_zero, List.take_length, hsum]
    · intro b hb o ho
      rw [hread0]
      show hInit ((b * nO + o) % nO) = _
      rw [rowMajor_mod _ _ _ ho]
    · intro b hb o ho
      rw [hread0]
      show cInit ((b * nO + o) % nO) = _
      rw [rowMajor_mod _ _ _ ho]
    · intro t b hb _ j hj
      show G0.val _ = _
      have hlt := rowMajor_lt (hrowlt t b hb) hj
      rw [v0, if_pos (by omega), Nat.sub_zero, rowMajor_div _ _ _ hj, rowMajor_mod _ _ _ hj, zero_add, hX]
      refine Finset.sum_congr rfl fun i _ => ?_
      simp only [Mat.buf, Mat.at, hX, zero_add]
    · intro t b hb hd
      exact absurd hd (hnd0 t b hb)
    · intro t b hb hd
      exact absurd hd (hnd0 t b hb)
    · intro t b hb hd
      exact absurd hd (hnd0 t b hb)
  obtain ⟨s, es, hs⟩ := forM'_inv (if rev then ls.reverse else ls) (lstmStep rev nO w.Wh.buf w.bias)
    (fun k s => LstmInv rev cw w nI nO (hInit, cInit) X ls k s) _ hinit (by
      intro k hk s hs
      have hk' : k < ls.length := by
        cases rev
        · simpa using hk
        · simpa using hk
      have := hs.step hw hls hsum hk'
      have ex : (if rev then ls.reverse else ls)[k] = ls.getD (timeOf rev ls.length k) 0 := by
        cases rev
        · simp [timeOf, List.getD_eq_getElem?_getD, hk']
        · simp only [timeOf, if_true, List.getElem_reverse]
          rw [List.getD_eq_getElem?_getD, List.getElem?_eq_getElem (by omega)]
          simp only [Option.getD_some]
          congr 1
          omega
      rw [ex]
      exact this)
  have hfin : (if rev then ls.reverse else ls).length = ls.length := by cases rev <;> simp
  rw [hfin] at hs
  have hdone : ∀ t b, b < ls.getD t 0 → DoneAt rev ls.length ls.length t := by
    intro t b hb
    have : t < ls.length := by
      by_contra hc
      rw [List.getD_eq_getElem?_getD, List.getElem?_eq_none (Nat.le_of_not_lt hc)] at hb
      simp at hb
    cases rev
    · simpa [DoneAt] using this
    · simp [DoneAt]
  refine ⟨⟨s.Y, s.G, s.C⟩, ?_, hs.sizeG, hs.sizeY, hs.sizeC, fun t b hb => hs.doneY t b hb (hdone t b hb),
    fun t b hb => hs.doneC t b hb (hdone t b hb), fun t b hb => hs.doneG t b hb (hdone t b hb)⟩
  simp only [Nat.cast_zero] at e0
  have eh : ls.head? = some n0 := rfl
  unfold lstmDirection
  simp only [eh, Option.elim_some, bind, Except.bind, pure, Except.pure, e0]
  rw [es]

end Thinc
