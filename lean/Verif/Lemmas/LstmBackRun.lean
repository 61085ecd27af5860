import Verif.Lemmas.LstmBackStep
import Verif.Lemmas.LstmAdjoint
import Verif.Lemmas.LstmStack
/-!
# The loop of the backward pass over the time steps
-/
namespace Thinc
open Spec

/-! ### Reading order -/

/-- The number of the position `t` in reading order, and the other way round. -/
def readPos (rev : Bool) (len t : ℕ) : ℕ := if rev then len - 1 - t else t

/-- The sequence in reading order. -/
def readSeq {β : Type} (rev : Bool) (xs : List β) : List β := if rev then xs.reverse else xs

theorem readSeq_length {β : Type} (rev : Bool) (xs : List β) : (readSeq rev xs).length = xs.length := by cases rev <;> simp [readSeq]

theorem readPos_lt {rev : Bool} {len t : ℕ} (h : t < len) : readPos rev len t < len := by
  cases rev
  · simpa [readPos] using h
  · simp only [readPos, if_true]; omega

theorem readPos_readPos {rev : Bool} {len t : ℕ} (h : t < len) : readPos rev len (readPos rev len t) = t := by
  cases rev
  · rfl
  · simp only [readPos, if_true]; omega

theorem readSeq_getD (rev : Bool) (xs : List (ℕ → ℝ)) (t : ℕ) (h : t < xs.length) : (readSeq rev xs).getD (readPos rev xs.length t) 0 = xs.getD t 0 := by
  cases rev
  · rfl
  · simp only [readSeq, readPos, if_true]
    rw [List.getD_eq_getElem?_getD, List.getElem?_reverse (by omega), List.getD_eq_getElem?_getD, show xs.length - 1 - (xs.length - 1 - t) = t by omega]

theorem stateAt_read (rev : Bool) (cw : CellWeights) (nI nO : ℕ) (s0 : (ℕ → ℝ) × (ℕ → ℝ)) (xs : List (ℕ → ℝ)) (t : ℕ) (h : t < xs.length) :
    stateAt rev cw nI nO s0 xs t = lstmRead cw nI nO s0 ((readSeq rev xs).take (readPos rev xs.length t + 1)) := by
  cases rev
  · rfl
  · simp only [stateAt, readSeq, readPos, if_true]
    rw [List.take_reverse, show xs.length - (xs.length - 1 - t + 1) = t by omega]

theorem stateBefore_read (rev : Bool) (cw : CellWeights) (nI nO : ℕ) (s0 : (ℕ → ℝ) × (ℕ → ℝ)) (xs : List (ℕ → ℝ)) (t : ℕ) (h : t < xs.length) :
    stateBefore rev cw nI nO s0 xs t = lstmRead cw nI nO s0 ((readSeq rev xs).take (readPos rev xs.length t)) := by
  cases rev
  · rfl
  · simp only [stateBefore, readSeq, readPos, if_true]
    rw [List.take_reverse, show xs.length - (xs.length - 1 - t) = t + 1 by omega]

/-! ### What the loop computes -/

/-- The gradients of the outputs of sequence `b`, in reading order. -/
def lstmReadGrads (rev : Bool) (ls : List ℕ) (nO : ℕ) (dY : ℕ → ℝ) (b p o : ℕ) : ℝ :=
  dY (packedRow ls (readPos rev (packedLength ls b) p) b * nO + o)

/-- The derivatives of the state of sequence `b` after the `p`-th input. -/
noncomputable def adjAt (rev : Bool) (cw : CellWeights) (nI nO : ℕ) (s0 : (ℕ → ℝ) × (ℕ → ℝ)) (X : Mat ℝ) (ls : List ℕ) (dY : ℕ → ℝ) (b p : ℕ) :
    (ℕ → ℝ) × (ℕ → ℝ) :=
  adj cw nI nO (lstmRead cw nI nO s0 ((readSeq rev (packedSeq ls X.at b)).take (p + 1))) (lstmReadGrads rev ls nO dY b p)
    (after (readSeq rev (packedSeq ls X.at b)) (lstmReadGrads rev ls nO dY b) p)

/-- The derivatives of the gates, but 0 at the first input. -/
noncomputable def gateGradAt (rev : Bool) (cw : CellWeights) (nI nO : ℕ) (s0 : (ℕ → ℝ) × (ℕ → ℝ)) (X : Mat ℝ) (ls : List ℕ) (dY : ℕ → ℝ) (b p g o : ℕ) : ℝ :=
  if p = 0 then 0 else adjGate cw nI nO (lstmRead cw nI nO s0 ((readSeq rev (packedSeq ls X.at b)).take p))
    ((readSeq rev (packedSeq ls X.at b)).getD p 0) (adjAt rev cw nI nO s0 X ls dY b p) g o

/-- The invariant of the loop: in round `k` the later one of the two time steps is `timeOf (!rev) nT k`. -/
structure BackInv (rev : Bool) (cw : CellWeights) (nI nO : ℕ) (s0 : (ℕ → ℝ) × (ℕ → ℝ)) (X : Mat ℝ) (ls : List ℕ) (dY : ℕ → ℝ) (k : ℕ)
    (s : BackState) : Prop where
  sizeY : s.dY.size = X.rows * nO
  sizeC : s.dC.size = X.rows * nO
  sizeG : s.dG.size = X.rows * (nO * 4)
  seq : s.seq3 = (ls.take (timeOf (!rev) ls.length k)).sum
  size : s.size3 = ls.getD (timeOf (!rev) ls.length k) 0
  curY : ∀ b < ls.getD (timeOf (!rev) ls.length k) 0, ∀ o < nO, s.dY.val (packedRow ls (timeOf (!rev) ls.length k) b * nO + o) =
    (adjAt rev cw nI nO s0 X ls dY b (readPos rev (packedLength ls b) (timeOf (!rev) ls.length k))).1 o
  curC : ∀ b < ls.getD (timeOf (!rev) ls.length k) 0, ∀ o < nO, s.dC.val (packedRow ls (timeOf (!rev) ls.length k) b * nO + o) =
    (adjAt rev cw nI nO s0 X ls dY b (readPos rev (packedLength ls b) (timeOf (!rev) ls.length k))).2 o
  todoY : ∀ t b, b < ls.getD t 0 → ¬ DoneAt (!rev) ls.length (k + 1) t → ∀ o < nO, s.dY.val (packedRow ls t b * nO + o) = dY (packedRow ls t b * nO + o)
  todoC : ∀ t b, b < ls.getD t 0 → ¬ DoneAt (!rev) ls.length (k + 1) t → ∀ o < nO, s.dC.val (packedRow ls t b * nO + o) = 0
  doneG : ∀ t b, b < ls.getD t 0 → DoneAt (!rev) ls.length k t → ∀ o < nO, ∀ g < 4, s.dG.val (packedRow ls t b * (nO * 4) + (4 * o + g)) =
    gateGradAt rev cw nI nO s0 X ls dY b (readPos rev (packedLength ls b) t) g o
  todoG : ∀ t b, b < ls.getD t 0 → ¬ DoneAt (!rev) ls.length k t → ∀ j < nO * 4, s.dG.val (packedRow ls t b * (nO * 4) + j) = 0

/-- How the two time steps of a round are related. -/
theorem cur_succ (rev : Bool) (nT k : ℕ) (hk : k + 1 < nT) :
    (rev = false ∧ timeOf (!rev) nT k = timeOf (!rev) nT (k + 1) + 1) ∨ (rev = true ∧ timeOf (!rev) nT (k + 1) = timeOf (!rev) nT k + 1) := by
  cases rev
  · left
    refine ⟨rfl, ?_⟩
    simp only [timeOf, Bool.not_false, if_true]
    omega
  · right
    exact ⟨rfl, rfl⟩

theorem sum_four (n : ℕ) (f : ℕ → ℝ) : ∑ m ∈ Finset.range (n * 4), f m = ∑ o ∈ Finset.range n, ∑ g ∈ Finset.range 4, f (4 * o + g) := by
  induction n with
  | zero => simp
  | succ n ih =>
    rw [Finset.sum_range_succ, ← ih, show (n + 1) * 4 = n * 4 + 4 by ring, Finset.sum_range_add]
    congr 1
    exact Finset.sum_congr rfl fun g _ => by rw [mul_comm n 4]

variable {nI nO : ℕ} {w : GateWeights} {cw : CellWeights}

theorem BackInv.step {rev : Bool} (hw : GatesOf w cw nI nO) {s0 : (ℕ → ℝ) × (ℕ → ℝ)} {X : Mat ℝ} {ls : List ℕ} (hls : ls.Pairwise (· ≥ ·))
    (hsum : ls.sum = X.rows) {T : LstmTrace} (hT : LstmDone rev cw nI nO s0 X ls T) {dY : ℕ → ℝ} {k : ℕ} (hk : k + 1 < ls.length) {s : BackState}
    (hs : BackInv rev cw nI nO s0 X ls dY k s) :
    ∃ s', lstmBackStep nO T.C T.G w.Wh.buf s ((ls.take (timeOf (!rev) ls.length (k + 1))).sum, ls.getD (timeOf (!rev) ls.length (k + 1)) 0) = .ok s' ∧
      BackInv rev cw nI nO s0 X ls dY (k + 1) s' := by
  set t3 := timeOf (!rev) ls.length k with ht3
  set t2 := timeOf (!rev) ls.length (k + 1) with ht2
  have hcur := cur_succ rev ls.length k hk
  rw [← ht3, ← ht2] at hcur
  have hlen : ∀ t b, t < packedLength ls b ↔ b < ls.getD t 0 := packedLength_iff ls hls
  have hrow : ∀ t, (ls.take t).sum + ls.getD t 0 ≤ X.rows := by
    intro t
    have h1 := take_sum_succ ls t
    have h2 := take_sum_mono ls (t := t + 1) (u := max (t + 1) ls.length) (by omega)
    rw [List.take_of_length_le (l := ls) (i := max (t + 1) ls.length) (by omega)] at h2
    omega
  have hmono : ∀ t, ls.getD (t + 1) 0 ≤ ls.getD t 0 := by
    intro t
    by_contra hc
    have h1 := (hlen (t + 1) (ls.getD t 0)).2 (by omega)
    have h2 := (hlen t (ls.getD t 0)).1 (by omega)
    omega
  have hseqv : s.seq3 = (ls.take t3).sum := hs.seq
  have hsizev : s.size3 = ls.getD t3 0 := hs.size
  have hdis : (ls.take t2).sum + min (ls.getD t2 0) s.size3 ≤ s.seq3 ∨ s.seq3 + min (ls.getD t2 0) s.size3 ≤ (ls.take t2).sum := by
    rw [hseqv, hsizev]
    rcases hcur with ⟨_, h⟩ | ⟨_, h⟩
    · left
      rw [h, take_sum_succ]
      omega
    · right
      rw [h, take_sum_succ]
      omega
  obtain ⟨s', e, r⟩ := lstmBackStep_ok nO X.rows T.C T.G w.Wh.buf s (ls.take t2).sum (ls.getD t2 0) hdis (by rw [hseqv, hsizev]; exact hrow t3) (hrow t2)
    hs.sizeY hs.sizeC hs.sizeG hT.sizeC hT.sizeG hw.sizeH
  refine ⟨s', e, ?_⟩
  have hnd3 := not_doneAt_timeOf (!rev) ls.length k (by omega)
  have hnd2 := not_doneAt_timeOf (!rev) ls.length (k + 1) hk
  rw [← ht3] at hnd3
  rw [← ht2] at hnd2
  have hseq3 : ∀ b, s.seq3 + b = packedRow ls t3 b := fun b => by rw [hseqv]; rfl
  have hsz : min (ls.getD t2 0) s.size3 = min (ls.getD t2 0) (ls.getD t3 0) := by rw [hsizev]
  -- the two positions of a sequence that is active at both times
  have hpos : ∀ b, b < ls.getD t2 0 → b < ls.getD t3 0 → readPos rev (packedLength ls b) t3 = readPos rev (packedLength ls b) t2 + 1 := by
    intro b h2 h3
    have l2 := (hlen t2 b).2 h2
    have l3 := (hlen t3 b).2 h3
    rcases hcur with ⟨hr, h⟩ | ⟨hr, h⟩
    · subst hr
      exact h
    · subst hr
      simp only [readPos, if_true]
      omega
  -- the gradients of the gates
  have hgrad : ∀ b, b < ls.getD t2 0 → b < ls.getD t3 0 → ∀ o < nO, ∀ g < 4, rowGrad nO T.C T.G s (ls.take t2).sum b o g =
      adjGate cw nI nO (lstmRead cw nI nO s0 ((readSeq rev (packedSeq ls X.at b)).take (readPos rev (packedLength ls b) t3)))
        ((readSeq rev (packedSeq ls X.at b)).getD (readPos rev (packedLength ls b) t3) 0)
        (adjAt rev cw nI nO s0 X ls dY b (readPos rev (packedLength ls b) t3)) g o := by
    intro b h2 h3 o ho g hg
    have l2 : t2 < (packedSeq ls X.at b).length := by rw [packedSeq_length]; exact (hlen t2 b).2 h2
    have l3 : t3 < (packedSeq ls X.at b).length := by rw [packedSeq_length]; exact (hlen t3 b).2 h3
    have hC2 := hT.C t2 b h2 o ho
    have hC3 := hT.C t3 b h3 o ho
    have hG := hT.G t3 b h3 o ho
    rw [stateAt_read _ _ _ _ _ _ _ l2, packedSeq_length] at hC2
    rw [stateAt_read _ _ _ _ _ _ _ l3, packedSeq_length] at hC3
    rw [← hpos b h2 h3] at hC2
    have hx : X.at (packedRow ls t3 b) = (readSeq rev (packedSeq ls X.at b)).getD (readPos rev (packedLength ls b) t3) 0 := by
      have := readSeq_getD rev (packedSeq ls X.at b) t3 l3
      rw [packedSeq_length] at this
      rw [this, List.getD_eq_getElem?_getD, List.getElem?_eq_getElem l3, packedSeq_getElem]
      rfl
    rw [stateBefore_read _ _ _ _ _ _ _ l3, packedSeq_length, hx] at hG
    have hlt : readPos rev (packedLength ls b) t3 < (readSeq rev (packedSeq ls X.at b)).length := by
      rw [readSeq_length, packedSeq_length]
      exact readPos_lt ((hlen t3 b).2 h3)
    rw [lstmRead_succ _ _ _ _ _ _ hlt] at hC3
    have hcY := hs.curY b h3 o ho
    have hcC := hs.curC b h3 o ho
    rw [← ht3] at hcY hcC
    unfold rowGrad
    rw [hseq3, hcY, hcC, hC3, show (ls.take t2).sum + b = packedRow ls t2 b from rfl, hC2]
    unfold unitGrad adjGate adjCell cellGrad dsigmoidY dtanhY
    simp only [hG 0 (by omega), hG 1 (by omega), hG 2 (by omega), hG 3 (by omega), gateAct, if_true, OfNat.zero_ne_ofNat, OfNat.one_ne_ofNat,
      if_false, Nat.reduceEqDiff, cSigmoid_eq]
  -- the derivatives at the earlier time step
  have hadj : ∀ b, b < ls.getD t2 0 → b < ls.getD t3 0 → adjAt rev cw nI nO s0 X ls dY b (readPos rev (packedLength ls b) t2) =
      (fun j => lstmReadGrads rev ls nO dY b (readPos rev (packedLength ls b) t2) j + ∑ o ∈ Finset.range nO, ∑ g ∈ Finset.range 4,
          adjGate cw nI nO (lstmRead cw nI nO s0 ((readSeq rev (packedSeq ls X.at b)).take (readPos rev (packedLength ls b) t3)))
            ((readSeq rev (packedSeq ls X.at b)).getD (readPos rev (packedLength ls b) t3) 0)
            (adjAt rev cw nI nO s0 X ls dY b (readPos rev (packedLength ls b) t3)) g o * cw.Wh g o j,
        fun o => adjCell cw nI nO (lstmRead cw nI nO s0 ((readSeq rev (packedSeq ls X.at b)).take (readPos rev (packedLength ls b) t3)))
          ((readSeq rev (packedSeq ls X.at b)).getD (readPos rev (packedLength ls b) t3) 0)
          (adjAt rev cw nI nO s0 X ls dY b (readPos rev (packedLength ls b) t3)) o *
          logit (gate cw nI nO (lstmRead cw nI nO s0 ((readSeq rev (packedSeq ls X.at b)).take (readPos rev (packedLength ls b) t3))).1
            ((readSeq rev (packedSeq ls X.at b)).getD (readPos rev (packedLength ls b) t3) 0) 0 o)) := by
    intro b h2 h3
    have hlt : readPos rev (packedLength ls b) t3 < (readSeq rev (packedSeq ls X.at b)).length := by
      rw [readSeq_length, packedSeq_length]
      exact readPos_lt ((hlen t3 b).2 h3)
    have hp := hpos b h2 h3
    rw [hp] at hlt ⊢
    conv_lhs => unfold adjAt
    rw [after_cons _ _ _ hlt, adj, ← lstmRead_succ _ _ _ _ _ _ hlt]
    rfl
  -- sequences that end at the earlier time step
  have hlast : ∀ b, b < ls.getD t2 0 → ¬ b < ls.getD t3 0 → adjAt rev cw nI nO s0 X ls dY b (readPos rev (packedLength ls b) t2) =
      (lstmReadGrads rev ls nO dY b (readPos rev (packedLength ls b) t2), fun _ => 0) := by
    intro b h2 h3
    have l2 := (hlen t2 b).2 h2
    have l3 := mt (hlen t3 b).1 h3
    unfold adjAt
    rw [after_last]
    · rfl
    · rw [readSeq_length, packedSeq_length]
      rcases hcur with ⟨hr, h⟩ | ⟨hr, h⟩
      · subst hr
        simp only [readPos, Bool.false_eq_true, if_false]
        omega
      · have := hmono t3
        rw [h] at h2
        omega
  have hgr : ∀ b, b < ls.getD t2 0 → ∀ j, lstmReadGrads rev ls nO dY b (readPos rev (packedLength ls b) t2) j = dY (packedRow ls t2 b * nO + j) := by
    intro b h2 j
    unfold lstmReadGrads
    rw [readPos_readPos ((hlen t2 b).2 h2)]
  have houtside : ∀ t b m o, o < m → b < ls.getD t 0 → t ≠ t2 → ∀ n ≤ ls.getD t2 0,
      (packedRow ls t b * m + o < (ls.take t2).sum * m ∨ ((ls.take t2).sum + n) * m ≤ packedRow ls t b * m + o) := by
    intro t b m o ho hb hne n hn
    rcases packedRow_outside ls hb hne with h | h
    · left
      exact rowMajor_lt h ho
    · right
      exact (Nat.mul_le_mul_right m (show _ ≤ packedRow ls t b by omega)).trans (Nat.le_add_right _ _)
  have houtside3 : ∀ t b m o, o < m → b < ls.getD t 0 → t ≠ t3 → ∀ n ≤ ls.getD t3 0,
      (packedRow ls t b * m + o < (ls.take t3).sum * m ∨ ((ls.take t3).sum + n) * m ≤ packedRow ls t b * m + o) := by
    intro t b m o ho hb hne n hn
    rcases packedRow_outside ls hb hne with h | h
    · left
      exact rowMajor_lt h ho
    · right
      exact (Nat.mul_le_mul_right m (show _ ≤ packedRow ls t b by omega)).trans (Nat.le_add_right _ _)
  have hsame : ∀ b m o, min (ls.getD t2 0) (ls.getD t3 0) ≤ b → ((ls.take t2).sum + min (ls.getD t2 0) (ls.getD t3 0)) * m ≤ packedRow ls t2 b * m + o := by
    intro b m o hb
    refine (Nat.mul_le_mul_right m (show _ ≤ packedRow ls t2 b from ?_)).trans (Nat.le_add_right _ _)
    unfold packedRow
    omega
  have hsame3 : ∀ b m o, min (ls.getD t2 0) (ls.getD t3 0) ≤ b → ((ls.take t3).sum + min (ls.getD t2 0) (ls.getD t3 0)) * m ≤ packedRow ls t3 b * m + o := by
    intro b m o hb
    refine (Nat.mul_le_mul_right m (show _ ≤ packedRow ls t3 b from ?_)).trans (Nat.le_add_right _ _)
    unfold packedRow
    omega
  have hne32 : t3 ≠ t2 := by rcases hcur with ⟨_, h⟩ | ⟨_, h⟩ <;> omega
  constructor
  · rw [r.sizeY, hs.sizeY]
  · rw [r.sizeC, hs.sizeC]
  · rw [r.sizeG, hs.sizeG]
  · rw [r.seq]
  · rw [r.size]
  · intro b hb o ho
    rw [← ht2] at hb ⊢
    by_cases h3 : b < ls.getD t3 0
    · have hB : b < min (ls.getD t2 0) s.size3 := by rw [hsz]; omega
      rw [show packedRow ls t2 b = (ls.take t2).sum + b from rfl, r.hidden b hB o ho, hadj b hb h3]
      simp only
      rw [hgr b hb, show (ls.take t2).sum + b = packedRow ls t2 b from rfl, hs.todoY t2 b hb hnd2 o ho, sum_four]
      congr 1
      refine Finset.sum_congr rfl fun o' ho' => Finset.sum_congr rfl fun g hg => ?_
      rw [r.grad b hB o' (Finset.mem_range.1 ho') g (Finset.mem_range.1 hg), hgrad b hb h3 o' (Finset.mem_range.1 ho') g (Finset.mem_range.1 hg),
        hw.Wh g (Finset.mem_range.1 hg) o' (Finset.mem_range.1 ho') o ho]
    · rw [r.hidden_other _ (Or.inr (by rw [hsz]; exact hsame b nO o (by omega))), hs.todoY t2 b hb hnd2 o ho, hlast b hb h3]
      exact (hgr b hb o).symm
  · intro b hb o ho
    rw [← ht2] at hb ⊢
    by_cases h3 : b < ls.getD t3 0
    · have hB : b < min (ls.getD t2 0) s.size3 := by rw [hsz]; omega
      have l3 : t3 < (packedSeq ls X.at b).length := by rw [packedSeq_length]; exact (hlen t3 b).2 h3
      have hC3 := hT.C t3 b h3 o ho
      have hG := hT.G t3 b h3 o ho
      rw [stateAt_read _ _ _ _ _ _ _ l3, packedSeq_length] at hC3
      have hx : X.at (packedRow ls t3 b) = (readSeq rev (packedSeq ls X.at b)).getD (readPos rev (packedLength ls b) t3) 0 := by
        have := readSeq_getD rev (packedSeq ls X.at b) t3 l3
        rw [packedSeq_length] at this
        rw [this, List.getD_eq_getElem?_getD, List.getElem?_eq_getElem l3, packedSeq_getElem]
        rfl
      rw [stateBefore_read _ _ _ _ _ _ _ l3, packedSeq_length, hx] at hG
      have hlt : readPos rev (packedLength ls b) t3 < (readSeq rev (packedSeq ls X.at b)).length := by
        rw [readSeq_length, packedSeq_length]
        exact readPos_lt ((hlen t3 b).2 h3)
      rw [lstmRead_succ _ _ _ _ _ _ hlt] at hC3
      have hcY := hs.curY b h3 o ho
      have hcC := hs.curC b h3 o ho
      rw [← ht3] at hcY hcC
      rw [show packedRow ls t2 b = (ls.take t2).sum + b from rfl, r.cell b hB o ho, hadj b hb h3]
      simp only
      rw [hseq3, hcY, hcC, hC3, hG 0 (by omega), hG 2 (by omega)]
      unfold adjCell cellGrad dtanhY
      simp only [gateAct, OfNat.zero_ne_ofNat, if_false, Nat.reduceEqDiff, cSigmoid_eq]
    · rw [r.cell_other _ (Or.inr (by rw [hsz]; exact hsame b nO o (by omega))), hs.todoC t2 b hb hnd2 o ho, hlast b hb h3]
  · intro t b hb hd o ho
    rw [doneAt_succ _ _ _ _ hk, not_or] at hd
    rw [r.hidden_other _ (houtside t b nO o ho hb hd.2 _ (by omega))]
    exact hs.todoY t b hb hd.1 o ho
  · intro t b hb hd o ho
    rw [doneAt_succ _ _ _ _ hk, not_or] at hd
    rw [r.cell_other _ (houtside t b nO o ho hb hd.2 _ (by omega))]
    exact hs.todoC t b hb hd.1 o ho
  · intro t b hb hd o ho g hg
    rw [doneAt_succ _ _ _ _ (by omega : k < ls.length)] at hd
    by_cases hte : t = t3
    · subst hte
      by_cases h2 : b < ls.getD t2 0
      · have hB : b < min (ls.getD t2 0) s.size3 := by rw [hsz]; omega
        rw [← hseq3, r.grad b hB o ho g hg, hgrad b h2 hb o ho g hg]
        unfold gateGradAt
        rw [if_neg (by rw [hpos b h2 hb]; omega)]
      · rw [r.grad_other _ (Or.inr (by rw [hsz, hseqv]; exact hsame3 b (nO * 4) (4 * o + g) (by omega))), hs.todoG t3 b hb hnd3 _ (by omega)]
        unfold gateGradAt
        have l3 := (hlen t3 b).2 hb
        have l2 := mt (hlen t2 b).1 h2
        rw [if_pos]
        rcases hcur with ⟨hr, h⟩ | ⟨hr, h⟩
        · omega
        · subst hr
          simp only [readPos, if_true]
          omega
    · have hd' : DoneAt (!rev) ls.length k t := hd.resolve_right hte
      rw [r.grad_other _ (by rw [hseqv]; exact houtside3 t b (nO * 4) (4 * o + g) (by omega) hb hte _ (by rw [hsz]; omega)), hs.doneG t b hb hd' o ho g hg]
  · intro t b hb hd j hj
    rw [doneAt_succ _ _ _ _ (by omega : k < ls.length), not_or] at hd
    rw [r.grad_other _ (by rw [hseqv]; exact houtside3 t b (nO * 4) j hj hb hd.2 _ (by rw [hsz]; omega)), hs.todoG t b hb hd.1 j hj]

/-! ### The whole loop -/

theorem lstmIndices_getElem (ls : List ℕ) (start t : ℕ) (h : t < (lstmIndices start ls).length) :
    (lstmIndices start ls)[t] = (start + (ls.take t).sum, ls.getD t 0) := by
  induction ls generalizing start t with
  | nil => simp [lstmIndices] at h
  | cons n ls ih =>
    cases t with
    | zero => simp [lstmIndices]
    | succ t =>
      simp only [lstmIndices, List.length_cons] at h
      have := ih (start + n) t (by omega)
      simp only [lstmIndices, List.getElem_cons_succ, this, List.take_succ_cons, List.sum_cons, List.getD_cons_succ, Nat.add_assoc]

theorem lstmIndices_length (ls : List ℕ) (start : ℕ) : (lstmIndices start ls).length = ls.length := by
  induction ls generalizing start with
  | nil => rfl
  | cons n ls ih => simp [lstmIndices, ih]

theorem lstmBackOrder_length (rev : Bool) (ls : List ℕ) : (lstmBackOrder rev ls).length = ls.length := by
  cases rev <;> simp [lstmBackOrder, lstmIndices_length]

theorem lstmBackOrder_getElem (rev : Bool) (ls : List ℕ) (k : ℕ) (h : k < (lstmBackOrder rev ls).length) :
    (lstmBackOrder rev ls)[k] = ((ls.take (timeOf (!rev) ls.length k)).sum, ls.getD (timeOf (!rev) ls.length k) 0) := by
  rw [lstmBackOrder_length] at h
  cases rev
  · simp only [lstmBackOrder, timeOf, Bool.not_false, if_true, Bool.false_eq_true, if_false, List.getElem_reverse]
    rw [lstmIndices_getElem]
    simp only [lstmIndices_length, Nat.zero_add]
    rw [show ls.length - 1 - k = ls.length - (k + 1) by omega]
  · simp only [lstmBackOrder, timeOf, Bool.not_true, Bool.false_eq_true, if_true, if_false]
    rw [lstmIndices_getElem]
    simp only [Nat.zero_add]

/-- The gradients of the gates: exact, except that those of the first input of every sequence are 0. -/
theorem lstmBackLoop_ok (rev : Bool) (hw : GatesOf w cw nI nO) (s0 : (ℕ → ℝ) × (ℕ → ℝ)) (X : Mat ℝ) (ls : List ℕ) (hne : ls ≠ [])
    (hls : ls.Pairwise (· ≥ ·)) (hsum : ls.sum = X.rows) (T : LstmTrace) (hT : LstmDone rev cw nI nO s0 X ls T) (dY : Buf ℝ)
    (hdY : dY.size = X.rows * nO) :
    ∃ s, lstmBackLoop rev X.rows nO dY T w.Wh.buf ls = .ok s ∧ s.dG.size = X.rows * (nO * 4) ∧
      ∀ t b, b < ls.getD t 0 → ∀ o < nO, ∀ g < 4, s.dG.val (packedRow ls t b * (nO * 4) + (4 * o + g)) =
        gateGradAt rev cw nI nO s0 X ls dY.val b (readPos rev (packedLength ls b) t) g o := by
  have hpos : 0 < ls.length := List.length_pos_iff.2 hne
  have hlen : ∀ t b, t < packedLength ls b ↔ b < ls.getD t 0 := packedLength_iff ls hls
  have hlenle : ∀ b, packedLength ls b ≤ ls.length := fun b => List.countP_le_length
  have ho := lstmBackOrder_length rev ls
  have hfirst := lstmBackOrder_getElem rev ls 0 (by omega)
  have hcons : lstmBackOrder rev ls = (lstmBackOrder rev ls)[0] :: (lstmBackOrder rev ls).tail := by
    rw [List.getElem_zero, List.cons_head_tail]
  have htail : (lstmBackOrder rev ls).tail.length = ls.length - 1 := by rw [List.length_tail, ho]
  have hlast : ∀ b, b < ls.getD (timeOf (!rev) ls.length 0) 0 →
      adjAt rev cw nI nO s0 X ls dY.val b (readPos rev (packedLength ls b) (timeOf (!rev) ls.length 0)) =
        (fun o => dY.val (packedRow ls (timeOf (!rev) ls.length 0) b * nO + o), fun _ => 0) := by
    intro b hb
    have l := (hlen _ b).2 hb
    have hg : lstmReadGrads rev ls nO dY.val b (readPos rev (packedLength ls b) (timeOf (!rev) ls.length 0)) =
        fun o => dY.val (packedRow ls (timeOf (!rev) ls.length 0) b * nO + o) := by
      funext o
      unfold lstmReadGrads
      rw [readPos_readPos l]
    unfold adjAt
    rw [after_last, hg]
    · rfl
    · rw [readSeq_length, packedSeq_length]
      have := hlenle b
      cases rev
      · simp only [readPos, timeOf, Bool.not_false, if_true, Bool.false_eq_true, if_false] at l ⊢
        omega
      · simp only [readPos, timeOf, Bool.not_true, if_true, Bool.false_eq_true, if_false] at l ⊢
        omega
  obtain ⟨s, es, hs⟩ := forM'_inv (lstmBackOrder rev ls).tail (lstmBackStep nO T.C T.G w.Wh.buf) (fun k s => BackInv rev cw nI nO s0 X ls dY.val k s)
    ⟨dY, ⟨X.rows * nO, fun _ => 0⟩, ⟨X.rows * (nO * 4), fun _ => 0⟩, (ls.take (timeOf (!rev) ls.length 0)).sum, ls.getD (timeOf (!rev) ls.length 0) 0⟩ (by
      refine ⟨hdY, rfl, rfl, rfl, rfl, ?_, ?_, fun t b hb _ o ho => rfl, fun t b hb _ o ho => rfl, ?_, fun t b hb _ j hj => rfl⟩
      · intro b hb o ho
        rw [hlast b hb]
      · intro b hb o ho
        rw [hlast b hb]
      · intro t b hb hd
        exfalso
        have := (hlen t b).2 hb
        have := hlenle b
        cases rev
        · simp only [DoneAt, Bool.not_false, if_true] at hd
          omega
        · simp only [DoneAt, Bool.not_true, Bool.false_eq_true, if_false] at hd
          omega) (by
      intro k hk s hs
      rw [htail] at hk
      rw [List.getElem_tail, lstmBackOrder_getElem]
      exact BackInv.step hw hls hsum hT (by omega) hs)
  rw [htail] at hs
  refine ⟨s, ?_, hs.sizeG, ?_⟩
  · unfold lstmBackLoop
    rw [hcons, hfirst]
    simp only [List.head?_cons, Option.elim_some, List.tail_cons, bind, Except.bind]
    exact es
  · intro t b hb o ho g hg
    by_cases hd : DoneAt (!rev) ls.length (ls.length - 1) t
    · exact hs.doneG t b hb hd o ho g hg
    · rw [hs.todoG t b hb hd _ (by omega)]
      unfold gateGradAt
      rw [if_pos]
      have l := (hlen t b).2 hb
      have l2 := hlenle b
      cases rev
      · simp only [DoneAt, readPos, Bool.not_false, if_true, Bool.false_eq_true, if_false] at hd ⊢
        omega
      · simp only [DoneAt, readPos, Bool.not_true, Bool.false_eq_true, if_false, if_true] at hd ⊢
        omega

end Thinc
