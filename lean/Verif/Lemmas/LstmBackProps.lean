import Verif.Lemmas.LstmBackStack
import Verif.Spec.LstmBack
/-!
# Consequences for the backward pass
-/
namespace Thinc
open Spec

/-! ### The weighted sum of outputs of one layer -/

theorem sum_blocks (n m : ℕ) (f : ℕ → ℝ) : ∑ k ∈ Finset.range (n * m), f k = ∑ d ∈ Finset.range n, ∑ o ∈ Finset.range m, f (d * m + o) := by
  induction n with
  | zero => simp
  | succ n ih => rw [Finset.sum_range_succ, ← ih, show (n + 1) * m = n * m + m by ring, Finset.sum_range_add]

theorem readSeq_set (rev : Bool) (xs : List (ℕ → ℝ)) (t : ℕ) (v : ℕ → ℝ) (h : t < xs.length) :
    readSeq rev (xs.set t v) = (readSeq rev xs).set (readPos rev xs.length t) v := by
  cases rev
  · rfl
  · simp only [readSeq, readPos, if_true]
    apply List.ext_getElem?
    intro j
    by_cases hj : j < xs.length
    · rw [List.getElem?_reverse (by rw [List.length_set]; exact hj), List.length_set, List.getElem?_set, List.getElem?_set, List.length_reverse,
        List.getElem?_reverse hj]
      by_cases ht : t = xs.length - 1 - j
      · rw [if_pos ht, if_pos (by omega), if_pos (by omega), if_pos (by omega)]
      · rw [if_neg ht, if_neg (by omega)]
    · rw [List.getElem?_eq_none (by simp; omega), List.getElem?_eq_none (by simp; omega)]

/-- The sum over the positions of one direction, in reading order. -/
theorem readLoss_output (rev : Bool) (cw : CellWeights) (nI nO : ℕ) (s0 : (ℕ → ℝ) × (ℕ → ℝ)) (xs : List (ℕ → ℝ)) (dys : ℕ → ℕ → ℝ) :
    ∑ t ∈ Finset.range xs.length, ∑ o ∈ Finset.range nO, dys t o * lstmOutput rev cw nI nO s0 xs t o =
      readLoss cw nI nO s0 (readSeq rev xs) fun p o => dys (readPos rev xs.length p) o := by
  unfold readLoss
  rw [readSeq_length]
  cases rev
  · rfl
  · rw [← Finset.sum_range_reflect]
    refine Finset.sum_congr rfl fun t ht => Finset.sum_congr rfl fun o _ => ?_
    have ht' := Finset.mem_range.1 ht
    have h1 : lstmOutput true cw nI nO s0 xs (xs.length - 1 - t) = (stateAt true cw nI nO s0 xs (xs.length - 1 - t)).1 := rfl
    rw [h1, stateAt_read _ _ _ _ _ _ _ (by omega)]
    simp only [readPos, if_true]
    rw [show xs.length - 1 - (xs.length - 1 - t) = t by omega]

theorem seqLoss_one (params h c : ℕ → ℝ) (nI nO dirs : ℕ) (dys : ℕ → ℕ → ℝ) (xs : List (ℕ → ℝ)) :
    seqLoss params h c nI nO dirs 1 dys xs = ∑ d ∈ Finset.range dirs, readLoss (stackWeights params nI nO dirs 0 d) nI nO (initStates h c dirs nO 0 d)
      (readSeq (d ≠ 0) xs) fun p o => dys (readPos (d ≠ 0) xs.length p) (d * nO + o) := by
  unfold seqLoss
  simp only [sum_blocks]
  rw [Finset.sum_comm]
  refine Finset.sum_congr rfl fun d hd => ?_
  rw [← readLoss_output (d ≠ 0) _ nI nO _ xs fun t o => dys t (d * nO + o)]
  refine Finset.sum_congr rfl fun t ht => Finset.sum_congr rfl fun o ho => ?_
  have ht' := Finset.mem_range.1 ht
  have ho' := Finset.mem_range.1 ho
  have hl : t < (lstmLayer (stackWeights params nI nO dirs 0) (initStates h c dirs nO 0) nI nO xs).length := by rw [lstmLayer_length]; exact ht'
  have hg := congrFun (lstmLayer_getElem (stackWeights params nI nO dirs 0) (initStates h c dirs nO 0) nI nO xs t hl) (d * nO + o)
  rw [rowMajor_div _ _ _ ho', rowMajor_mod _ _ _ ho'] at hg
  congr 1
  rw [← hg, List.getD_eq_getElem?_getD]
  show ((lstmLayer (stackWeights params nI nO dirs 0) (initStates h c dirs nO 0) nI nO xs)[t]?.getD 0) _ = _
  rw [List.getElem?_eq_getElem hl]
  rfl

/-! ### Rows -/

theorem exists_packedRow (ls : List ℕ) (r : ℕ) (hr : r < ls.sum) : ∃ t b, b < ls.getD t 0 ∧ r = packedRow ls t b := by
  induction ls generalizing r with
  | nil => simp at hr
  | cons n ls ih =>
    rcases Nat.lt_or_ge r n with h | h
    · exact ⟨0, r, by simpa using h, by simp [packedRow]⟩
    · rw [List.sum_cons] at hr
      obtain ⟨t, b, hb, e⟩ := ih (r - n) (by omega)
      refine ⟨t + 1, b, by simpa using hb, ?_⟩
      unfold packedRow at e ⊢
      rw [List.take_succ_cons, List.sum_cons]
      omega

/-! ### No gradient -/

theorem adjGate_zero (w : CellWeights) (nI nO : ℕ) (st : (ℕ → ℝ) × (ℕ → ℝ)) (x : ℕ → ℝ) (a : (ℕ → ℝ) × (ℕ → ℝ)) (g o : ℕ) (h1 : a.1 o = 0) (h2 : a.2 o = 0) :
    adjGate w nI nO st x a g o = 0 := by
  have hc : adjCell w nI nO st x a o = 0 := by unfold adjCell; rw [h1, h2]; ring
  unfold adjGate
  rw [hc, h1]
  split
  · ring
  split
  · ring
  split
  · ring
  · ring

theorem adj_zero (w : CellWeights) (nI nO : ℕ) (rest : List ((ℕ → ℝ) × (ℕ → ℝ))) (st : (ℕ → ℝ) × (ℕ → ℝ)) (dy : ℕ → ℝ) (hdy : ∀ o < nO, dy o = 0)
    (hrest : ∀ p ∈ rest, ∀ o < nO, p.2 o = 0) : ∀ o < nO, (adj w nI nO st dy rest).1 o = 0 ∧ (adj w nI nO st dy rest).2 o = 0 := by
  induction rest generalizing st dy with
  | nil => exact fun o ho => ⟨hdy o ho, rfl⟩
  | cons q rest ih =>
    obtain ⟨x, dy'⟩ := q
    have h := ih (lstmCell w nI nO st x) dy' (hrest (x, dy') (by simp)) (fun p hp => hrest p (by simp [hp]))
    intro o ho
    simp only [adj]
    refine ⟨?_, ?_⟩
    · rw [hdy o ho, zero_add]
      refine Finset.sum_eq_zero fun o' ho' => Finset.sum_eq_zero fun g _ => ?_
      rw [adjGate_zero _ _ _ _ _ _ _ _ (h o' (Finset.mem_range.1 ho')).1 (h o' (Finset.mem_range.1 ho')).2, zero_mul]
    · unfold adjCell
      rw [(h o ho).1, (h o ho).2]
      ring

/-- The gradients of the gates vanish if nothing arrives, or if every sequence has length 1. -/
theorem layerGrad_zero (params h c : ℕ → ℝ) (nI nO dirs i : ℕ) (X : Mat ℝ) (ls : List ℕ) (hls : ls.Pairwise (· ≥ ·)) (hsum : ls.sum = X.rows) (dY : Mat ℝ)
    (hYc : dY.cols = dirs * nO) (hz : ls.length = 1 ∨ ∀ r < X.rows, ∀ k < dirs * nO, dY.at r k = 0) (d : ℕ) (hd : d < dirs) (t b : ℕ)
    (hb : b < ls.getD t 0) (o : ℕ) (ho : o < nO) (g : ℕ) : layerGrad params h c nI nO dirs i X ls dY d t b g o = 0 := by
  have hlen := packedLength_iff ls hls
  have l := (hlen t b).2 hb
  have hle : packedLength ls b ≤ ls.length := List.countP_le_length
  unfold layerGrad gateGradAt
  rcases hz with hz | hz
  · rw [if_pos]
    unfold readPos
    split <;> omega
  · split
    · rfl
    have hgr : ∀ p < packedLength ls b, ∀ o < nO, lstmReadGrads (d ≠ 0) ls nO (dirGrad X.rows dirs nO d dY).val b p o = 0 := by
      intro p hp o ho
      unfold lstmReadGrads
      rw [dirGrad_val _ _ _ _ _ _ _ hYc ho]
      refine hz _ ?_ _ ?_
      · rw [← hsum]
        exact packedRow_lt ls ((hlen _ b).1 (readPos_lt hp))
      · exact rowMajor_lt hd ho
    have hadj := adj_zero (stackWeights params nI nO dirs i d) (layerWidth nI nO dirs i) nO
      (after (readSeq (d ≠ 0) (packedSeq ls X.at b)) (lstmReadGrads (d ≠ 0) ls nO (dirGrad X.rows dirs nO d dY).val b) (readPos (d ≠ 0) (packedLength ls b) t))
      (lstmRead (stackWeights params nI nO dirs i d) (layerWidth nI nO dirs i) nO (initStates h c dirs nO i d)
        ((readSeq (d ≠ 0) (packedSeq ls X.at b)).take (readPos (d ≠ 0) (packedLength ls b) t + 1)))
      (lstmReadGrads (d ≠ 0) ls nO (dirGrad X.rows dirs nO d dY).val b (readPos (d ≠ 0) (packedLength ls b) t)) (hgr _ (readPos_lt l)) (by
        intro p hp o ho
        unfold after at hp
        obtain ⟨j, hj, rfl⟩ := List.mem_map.1 hp
        rw [List.mem_range, readSeq_length, packedSeq_length] at hj
        exact hgr _ (by omega) o ho)
    exact adjGate_zero _ _ _ _ _ _ _ _ (hadj o ho).1 (hadj o ho).2

/-! ### The weights written back -/

theorem unGate_eq (W : Mat ℝ) (nI nO : ℕ) (hr : W.rows = 4 * nO) (hc : W.cols = nI) (f : ℕ → ℝ)
    (h : ∀ g < 4, ∀ o < nO, ∀ k < nI, W.at (4 * o + g) k = f ((g * nO + o) * nI + k)) : unGate W = (List.range (4 * nO * nI)).map f := by
  unfold unGate
  rw [hr, hc]
  refine List.map_congr_left fun j hj => ?_
  rw [List.mem_range] at hj
  rcases Nat.eq_zero_or_pos nI with h0 | hI
  · subst h0; simp at hj
  rcases Nat.eq_zero_or_pos nO with h0 | hO
  · subst h0; simp at hj
  have hq : j / nI < 4 * nO := Nat.div_lt_of_lt_mul (by rwa [mul_comm])
  have hg : j / nI / nO < 4 := Nat.div_lt_of_lt_mul (by rw [mul_comm]; exact hq)
  rw [show 4 * nO / 4 = nO by omega, show j / nI % nO * 4 + j / nI / nO = 4 * (j / nI % nO) + j / nI / nO by ring,
    h _ hg _ (Nat.mod_lt _ hO) _ (Nat.mod_lt _ hI)]
  congr 1
  rw [Nat.div_add_mod' (j / nI) nO, Nat.div_add_mod' j nI]

theorem unGateBias_eq (b : Mat ℝ) (nO : ℕ) (hc : b.cols = 4 * nO) (f : ℕ → ℝ)
    (h : ∀ g < 4, ∀ o < nO, b.at 0 (4 * o + g) = f (g * nO + o)) : unGateBias b = (List.range (4 * nO)).map f := by
  unfold unGateBias
  rw [hc]
  refine List.map_congr_left fun j hj => ?_
  rw [List.mem_range] at hj
  rcases Nat.eq_zero_or_pos nO with h0 | hO
  · subst h0; simp at hj
  have hg : j / nO < 4 := Nat.div_lt_of_lt_mul (by rw [mul_comm]; exact hj)
  rw [show 4 * nO / 4 = nO by omega, show j % nO * 4 + j / nO = 4 * (j % nO) + j / nO by ring, h _ hg _ (Nat.mod_lt _ hO)]
  congr 1
  exact Nat.div_add_mod' j nO

theorem untranspose_length (w : GateWeights) (nI nO : ℕ) (h : WeightShape w nI nO) : (untranspose w).length = cellSize nI nO := by
  unfold untranspose unGate unGateBias cellSize
  simp only [List.length_append, List.length_map, List.length_range, List.length_replicate, h.xr, h.xc, h.hr, h.hc, h.bc]
  ring

/-- The gradients of the weights if the gradients of the gates are 0. -/
theorem untranspose_zero (params : ℕ → ℝ) (start nI nO : ℕ) (w g : GateWeights) (hw : GatesOf w (cellWeights params start nI nO) nI nO)
    (hws : WeightShape w nI nO) (hg : WeightShape g nI nO) (hx : ∀ m < nO * 4, ∀ k < nI, g.Wx.at m k = w.Wx.at m k)
    (hh : ∀ m < nO * 4, ∀ k < nO, g.Wh.at m k = w.Wh.at m k) (hb : ∀ m < nO * 4, g.bias.at 0 m = w.bias.at 0 m) :
    untranspose g = mergedCell params start nI nO := by
  unfold untranspose mergedCell
  rw [hg.bc, unGate_eq g.Wx nI nO hg.xr hg.xc (fun j => params (start + j)), unGate_eq g.Wh nO nO hg.hr hg.hc (fun j => params (start + 4 * nO * nI + 4 * nO + j)),
    unGateBias_eq g.bias nO hg.bc (fun j => params (start + 4 * nO * nI + j) + params (start + 4 * nO * nI + 4 * nO + 4 * nO * nO + j))]
  · intro k hk o ho
    rw [hb _ (by omega), hw.bias k hk o ho]
    rfl
  · intro k hk o ho j hj
    rw [hh _ (by omega) j hj]
    have := hw.Wh k hk o ho j hj
    rw [show w.Wh.at (4 * o + k) j = w.Wh.buf.val ((4 * o + k) * nO + j) by unfold Mat.at; rw [hws.hc]; rfl, this]
    rfl
  · intro k hk o ho j hj
    rw [hx _ (by omega) j hj]
    have := hw.Wx k hk o ho j hj
    rw [show w.Wx.at (4 * o + k) j = w.Wx.buf.val ((4 * o + k) * nI + j) by unfold Mat.at; rw [hws.xc]; rfl, this]
    rfl

theorem BackRel.zero {params h c : ℕ → ℝ} {nI nO dirs : ℕ} {ls : List ℕ} (hls : ls.Pairwise (· ≥ ·)) {i : ℕ} {X : Mat ℝ} (hsum : ls.sum = X.rows)
    {Ts : List LstmTrace} {dY dX : Mat ℝ} {G : ℕ → GateWeights} (hYc : dY.cols = dirs * nO)
    (hz : ls.length = 1 ∨ ∀ r < X.rows, ∀ k < dirs * nO, dY.at r k = 0) (hB : BackRel params h c nI nO dirs ls i X Ts dY dX G) :
    (∀ r < X.rows, ∀ k < layerWidth nI nO dirs i, dX.at r k = 0) ∧
      ∀ d < dirs, untranspose (G d) = mergedCell params (cellStart nI nO dirs i d) (layerWidth nI nO dirs i) nO := by
  obtain ⟨Y, W, dG, hr, hc, hY, hW, hL, hG⟩ := hB
  have hdG : ∀ d < dirs, ∀ r < X.rows, ∀ m < nO * 4, dG d r m = 0 := by
    intro d hd r hr m hm
    obtain ⟨t, b, hb, rfl⟩ := exists_packedRow ls r (by omega)
    have := hG d hd t b hb (m / 4) (by omega) (m % 4) (by omega)
    rw [show 4 * (m / 4) + m % 4 = m by omega] at this
    rw [this]
    exact layerGrad_zero params h c nI nO dirs i X ls hls hsum dY hYc hz d hd t b hb (m / 4) (by omega) _
  refine ⟨fun r hr' k hk => ?_, fun d hd => ?_⟩
  · have := hL.input r hr' k hk
    rw [show dX.at r k = dX.buf.val (r * layerWidth nI nO dirs i + k) by unfold Mat.at; rw [hc]; rfl, this]
    refine Finset.sum_eq_zero fun d hd => Finset.sum_eq_zero fun m hm => ?_
    rw [hdG d (Finset.mem_range.1 hd) r hr' m (Finset.mem_range.1 hm), zero_mul]
  · have hs : ∀ m < nO * 4, ∀ f : ℕ → ℝ, ∑ r ∈ Finset.range X.rows, dG d r m * f r = 0 := fun m hm f =>
      Finset.sum_eq_zero fun r hr' => by rw [hdG d hd r (Finset.mem_range.1 hr') m hm, zero_mul]
    refine untranspose_zero params _ _ nO (W d) (G d) (hW d hd).1 (hW d hd).2 (hL.shape d hd) (fun m hm k hk => ?_) (fun m hm k hk => ?_) (fun m hm => ?_)
    · rw [hL.Wx d hd m hm k hk, hs m hm, add_zero]
    · rw [hL.Wh d hd m hm k hk, hs m hm (fun r => (Y d).val (r * nO + k)), add_zero]
    · have := hs m hm fun _ => 1
      simp only [mul_one] at this
      rw [hL.bias d hd m hm, this, add_zero]

end Thinc
