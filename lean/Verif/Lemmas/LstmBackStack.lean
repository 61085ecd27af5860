import Verif.Lemmas.LstmBackRun
/-!
# The backward pass through all layers
-/
namespace Thinc
open Spec

/-! ### One direction -/

/-- The shapes of the transposed weights. -/
structure WeightShape (w : GateWeights) (nI nO : ℕ) : Prop where
  xr : w.Wx.rows = 4 * nO
  xc : w.Wx.cols = nI
  hr : w.Wh.rows = 4 * nO
  hc : w.Wh.cols = nO
  br : w.bias.rows = 1
  bc : w.bias.cols = 4 * nO

/-- What one direction computes from the gradients `dG` of the gates. -/
structure BackDone (N nI nO : ℕ) (X : Mat ℝ) (Y : Buf ℝ) (w : GateWeights) (dX : Buf ℝ) (dG : ℕ → ℕ → ℝ) (dX' : Buf ℝ) (g : GateWeights) : Prop where
  size : dX'.size = dX.size
  shape : WeightShape g nI nO
  Wx : ∀ m < nO * 4, ∀ k < nI, g.Wx.at m k = w.Wx.at m k + ∑ n ∈ Finset.range N, dG n m * X.at n k
  Wh : ∀ m < nO * 4, ∀ k < nO, g.Wh.at m k = w.Wh.at m k + ∑ n ∈ Finset.range N, dG n m * Y.val (n * nO + k)
  bias : ∀ m < nO * 4, g.bias.at 0 m = w.bias.at 0 m + ∑ n ∈ Finset.range N, dG n m
  input : ∀ n < N, ∀ i < nI, dX'.val (n * nI + i) = dX.val (n * nI + i) + ∑ m ∈ Finset.range (nO * 4), dG n m * (if nO = 1 then g else w).Wx.at m i

variable {nI nO : ℕ} {w : GateWeights} {cw : CellWeights}

theorem lstmBackDirection_ok (rev : Bool) (hw : GatesOf w cw nI nO) (hsh : WeightShape w nI nO) (s0 : (ℕ → ℝ) × (ℕ → ℝ)) (X : Mat ℝ)
    (ls : List ℕ) (hne : ls ≠ []) (hls : ls.Pairwise (· ≥ ·)) (hsum : ls.sum = X.rows) (T : LstmTrace) (hT : LstmDone rev cw nI nO s0 X ls T)
    (dY : Buf ℝ) (hdY : dY.size = X.rows * nO) (X' : Mat ℝ) (hXr : X'.rows = X.rows) (hXc : X'.cols = nI) (dX : Buf ℝ)
    (hdX : dX.size = X.rows * nI) :
    ∃ dX' g dG, lstmBackDirection rev X.rows nO nI dX dY T X' w w ls = .ok (dX', g) ∧ BackDone X.rows nI nO X' T.Y w dX dG dX' g ∧
      ∀ t b, b < ls.getD t 0 → ∀ o < nO, ∀ g < 4, dG (packedRow ls t b) (4 * o + g) =
        gateGradAt rev cw nI nO s0 X ls dY.val b (readPos rev (packedLength ls b) t) g o := by
  obtain ⟨s, e1, z1, v1⟩ := lstmBackLoop_ok rev hw s0 X ls hne hls hsum T hT dY hdY
  have hWx : w.Wx.buf.size = nO * 4 * nI := hw.sizeX
  have hWh : w.Wh.buf.size = nO * 4 * nO := hw.sizeH
  obtain ⟨dWx, e2, z2, v2⟩ := sgemmTN_ok (nO * 4) nI X.rows s.dG X'.buf w.Wx.buf (by omega) (by show _ ≤ X'.rows * X'.cols; rw [hXr, hXc]) (by omega)
  obtain ⟨dWh, e3, z3, v3⟩ := sgemmTN_ok (nO * 4) nO X.rows s.dG T.Y w.Wh.buf (by omega) (by rw [hT.sizeY]) (by omega)
  obtain ⟨dX', e4, z4, v4⟩ := sgemmNN_ok X.rows nI (nO * 4) s.dG 0 (if nO = 1 then dWx else w.Wx.buf) dX 0 (by omega) (by split <;> omega) (by omega)
  have hgx : ∀ m < nO * 4, ∀ k < nI, (dWx.toMat w.Wx.rows w.Wx.cols).at m k = w.Wx.at m k + ∑ n ∈ Finset.range X.rows, s.dG.val (n * (nO * 4) + m) * X'.at n k := by
    intro m hm k hk
    show dWx.val (m * w.Wx.cols + k) = _
    rw [hsh.xc, v2, if_pos (rowMajor_lt hm hk), rowMajor_div _ _ _ hk, rowMajor_mod _ _ _ hk]
    unfold Mat.at
    rw [hsh.xc, hXc]
    rfl
  refine ⟨dX', ⟨dWx.toMat w.Wx.rows w.Wx.cols, dWh.toMat w.Wh.rows w.Wh.cols, addRowSums X.rows (nO * 4) s.dG w.bias⟩,
    fun n m => s.dG.val (n * (nO * 4) + m), ?_, ⟨z4, ⟨hsh.xr, hsh.xc, hsh.hr, hsh.hc, hsh.br, hsh.bc⟩, hgx, ?_, ?_, ?_⟩, v1⟩
  · unfold lstmBackDirection
    simp only [bind, Except.bind, pure, Except.pure, e1, e2, e3]
    have e4' : sgemmNN X.rows nI (nO * 4) s.dG 0 (if nO = 1 then dWx else w.Wx.buf) dX 0 = .ok dX' := e4
    rw [e4']
  · intro m hm k hk
    show dWh.val (m * w.Wh.cols + k) = _
    rw [hsh.hc, v3, if_pos (rowMajor_lt hm hk), rowMajor_div _ _ _ hk, rowMajor_mod _ _ _ hk]
    unfold Mat.at
    rw [hsh.hc]
    rfl
  · intro m hm
    show (if 0 * w.bias.cols + m < nO * 4 then w.bias.val (0 * w.bias.cols + m) + ∑ n ∈ Finset.range X.rows, s.dG.val (n * (nO * 4) + (0 * w.bias.cols + m))
      else w.bias.val (0 * w.bias.cols + m)) = w.bias.val (0 * w.bias.cols + m) + _
    rw [zero_mul, zero_add, if_pos hm]
  · intro n hn i hi
    rw [v4, if_pos ⟨Nat.zero_le _, by rw [zero_add]; exact rowMajor_lt hn hi⟩, Nat.sub_zero, rowMajor_div _ _ _ hi, rowMajor_mod _ _ _ hi]
    congr 1
    refine Finset.sum_congr rfl fun m _ => ?_
    rw [zero_add]
    congr 1
    by_cases h1 : nO = 1
    · rw [if_pos h1, if_pos h1]
      show _ = dWx.val (m * w.Wx.cols + i)
      rw [hsh.xc]
    · rw [if_neg h1, if_neg h1]
      unfold Mat.at
      rw [hsh.xc]
      rfl

/-! ### The weights of all cells -/

theorem weights_shape (params : Buf ℝ) (nI nO start : ℕ) (hI : 0 < nI) (hO : 0 < nO) (h : start + cellSize nI nO ≤ params.size) :
    ∃ sw w, splitWeights params nO nI start = .ok (sw, start + cellSize nI nO) ∧ transposeWeights sw = .ok w ∧
      GatesOf w (cellWeights params.val start nI nO) nI nO ∧ WeightShape w nI nO := by
  obtain ⟨sw, w, e1, e2, hw⟩ := weights_ok params nI nO start hI hO h
  refine ⟨sw, w, e1, e2, hw, ?_⟩
  have h' : start + (4 * nO * nI + 4 * nO + (4 * nO * nO + 4 * nO)) ≤ params.size := h
  have s1 := slice2_ok params start (4 * nO) nI (by omega)
  have s2 := slice2_ok params (start + 4 * nO * nI) 1 (4 * nO) (by omega)
  have s3 := slice2_ok params (start + 4 * nO * nI + 4 * nO) (4 * nO) nO (by omega)
  have s4 := slice2_ok params (start + 4 * nO * nI + 4 * nO + 4 * nO * nO) 1 (4 * nO) (by omega)
  simp only [splitWeights, s1, s2, s3, s4, bind, Except.bind, pure, Except.pure, Except.ok.injEq, Prod.mk.injEq] at e1
  obtain ⟨rfl, _⟩ := e1
  have r2 : broadcastDim (4 * nO) (4 * nO) = .ok (4 * nO) := by unfold broadcastDim; simp
  have r1 : broadcastDim 1 1 = .ok 1 := rfl
  simp only [transposeWeights, gatesLast, Nat.pos_iff_ne_zero.1 hI, Nat.pos_iff_ne_zero.1 hO, if_false, bind, Except.bind, npBinary, biasGatesLast,
    Mat.ofFn, r1, r2, pure, Except.pure, Except.ok.injEq] at e2
  subst e2
  exact ⟨rfl, rfl, rfl, rfl, rfl, rfl⟩

/-- The weights of all cells of the first `n` layers. -/
def WeightsAre (params : ℕ → ℝ) (nI nO dirs n : ℕ) (ws : List (List GateWeights)) : Prop :=
  ws.length = n ∧ ∀ i (hi : i < ws.length), ws[i].length = dirs ∧ ∀ d (hd : d < ws[i].length),
    GatesOf ws[i][d] (stackWeights params nI nO dirs i d) (layerWidth nI nO dirs i) nO ∧ WeightShape ws[i][d] (layerWidth nI nO dirs i) nO

theorem collectLayer_ok (params : Buf ℝ) (nI nO dirs depth i : ℕ) (hi : i < depth) (hI : 0 < nI) (hO : 0 < nO) (hd : 0 < dirs)
    (hsize : cellStart nI nO dirs depth 0 ≤ params.size) (all : List (List GateWeights)) :
    ∃ ws, collectLayer params nO nI dirs (cellStart nI nO dirs i 0, all) i = .ok (cellStart nI nO dirs (i + 1) 0, all ++ [ws]) ∧ ws.length = dirs ∧
      ∀ d (hd : d < ws.length), GatesOf ws[d] (stackWeights params.val nI nO dirs i d) (layerWidth nI nO dirs i) nO ∧
        WeightShape ws[d] (layerWidth nI nO dirs i) nO := by
  have hwidth : (if i = 0 then nI else nO * dirs) = layerWidth nI nO dirs i := by
    unfold layerWidth
    split
    · rfl
    · exact mul_comm _ _
  obtain ⟨s, es, hs1, hs2, hs3⟩ := forM'_inv (List.range dirs) (collectDir params nO (layerWidth nI nO dirs i))
    (fun d s => s.1 = cellStart nI nO dirs i d ∧ s.2.length = d ∧ ∀ e (he : e < s.2.length),
      GatesOf s.2[e] (stackWeights params.val nI nO dirs i e) (layerWidth nI nO dirs i) nO ∧ WeightShape s.2[e] (layerWidth nI nO dirs i) nO)
    (cellStart nI nO dirs i 0, []) ⟨rfl, rfl, fun e he => absurd he (Nat.not_lt_zero e)⟩ (by
      rintro d hd' ⟨p, ws⟩ ⟨hp, hl, hW⟩
      rw [List.length_range] at hd'
      simp only at hp hl hW
      subst hp
      obtain ⟨sw, w, e1, e2, hw, hsh⟩ := weights_shape params (layerWidth nI nO dirs i) nO (cellStart nI nO dirs i d) (layerWidth_pos hI hO hd i) hO
        ((cellStart_le nI nO dirs hi hd').trans hsize)
      refine ⟨(cellStart nI nO dirs i (d + 1), ws ++ [w]), ?_, rfl, by simp [hl], ?_⟩
      · unfold collectDir
        simp only [e1, e2, bind, Except.bind, pure, Except.pure]
        rw [cellStart_succ]
      · intro e he
        simp only [List.length_append, List.length_singleton, hl] at he
        rcases Nat.lt_or_ge e d with hed | hed
        · simp only [List.getElem_append_left (show e < ws.length by omega)]
          exact hW e (by omega)
        · have : e = d := by omega
          subst this
          simp only [List.getElem_append_right (show ws.length ≤ e by omega), hl, Nat.sub_self, List.getElem_cons_zero]
          exact ⟨hw, hsh⟩)
  rw [List.length_range] at hs1 hs2
  refine ⟨s.2, ?_, hs2, hs3⟩
  unfold collectLayer
  rw [hwidth]
  simp only [bind, Except.bind, pure, Except.pure, es]
  rw [cellStart_next, ← hs1]

theorem collectWeights_ok (params : Buf ℝ) (nI nO dirs depth : ℕ) (hI : 0 < nI) (hO : 0 < nO) (hd : 0 < dirs)
    (hsize : cellStart nI nO dirs depth 0 ≤ params.size) :
    ∃ ws, collectWeights params depth dirs nO nI = .ok ws ∧ WeightsAre params.val nI nO dirs depth ws := by
  obtain ⟨s, es, _, hs2, hs3⟩ := forM'_inv (List.range depth) (collectLayer params nO nI dirs)
    (fun i s => s.1 = cellStart nI nO dirs i 0 ∧ WeightsAre params.val nI nO dirs i s.2) (0, [])
    ⟨by simp [cellStart], rfl, fun e he => absurd he (Nat.not_lt_zero e)⟩ (by
      rintro i hi ⟨p, all⟩ ⟨hp, hl, hW⟩
      rw [List.length_range] at hi
      rw [List.getElem_range]
      simp only at hp hl hW
      subst hp
      obtain ⟨ws, e, hwl, hws⟩ := collectLayer_ok params nI nO dirs depth i hi hI hO hd hsize all
      refine ⟨_, e, rfl, by simp [hl], ?_⟩
      intro j hj
      simp only [List.length_append, List.length_singleton, hl] at hj
      rcases Nat.lt_or_ge j i with hji | hji
      · simp only [List.getElem_append_left (show j < all.length by omega)]
        exact hW j (by omega)
      · have : j = i := by omega
        subst this
        simp only [List.getElem_append_right (show all.length ≤ j by omega), hl, Nat.sub_self, List.getElem_cons_zero]
        exact ⟨hwl, hws⟩)
  rw [List.length_range] at hs2
  refine ⟨s.2, ?_, hs2, hs3⟩
  unfold collectWeights
  simp only [bind, Except.bind, pure, Except.pure, es]

/-! ### One layer -/

theorem dirGrad_size (N dirs nO d : ℕ) (dY : Mat ℝ) : (dirGrad N dirs nO d dY).size = N * nO := rfl

theorem dirGrad_val (N dirs nO d n o : ℕ) (dY : Mat ℝ) (hc : dY.cols = dirs * nO) (ho : o < nO) :
    (dirGrad N dirs nO d dY).val (n * nO + o) = dY.at n (d * nO + o) := by
  show dY.val (((n * nO + o) / nO * dirs + d) * nO + (n * nO + o) % nO) = dY.val (n * dY.cols + (d * nO + o))
  rw [rowMajor_div _ _ _ ho, rowMajor_mod _ _ _ ho, hc]
  congr 1
  ring

/-- The result of one layer after `n` directions: the gradients of the weights, and that of the input as a sum over the directions. -/
structure LayerBack (N nIn nO : ℕ) (X : Mat ℝ) (Y : ℕ → Buf ℝ) (W G : ℕ → GateWeights) (n : ℕ) (dX : Buf ℝ) (dG : ℕ → ℕ → ℕ → ℝ) : Prop where
  size : dX.size = N * nIn
  shape : ∀ d < n, WeightShape (G d) nIn nO
  Wx : ∀ d < n, ∀ m < nO * 4, ∀ k < nIn, (G d).Wx.at m k = (W d).Wx.at m k + ∑ r ∈ Finset.range N, dG d r m * X.at r k
  Wh : ∀ d < n, ∀ m < nO * 4, ∀ k < nO, (G d).Wh.at m k = (W d).Wh.at m k + ∑ r ∈ Finset.range N, dG d r m * (Y d).val (r * nO + k)
  bias : ∀ d < n, ∀ m < nO * 4, (G d).bias.at 0 m = (W d).bias.at 0 m + ∑ r ∈ Finset.range N, dG d r m
  input : ∀ r < N, ∀ i < nIn, dX.val (r * nIn + i) = ∑ d ∈ Finset.range n, ∑ m ∈ Finset.range (nO * 4),
    dG d r m * (if nO = 1 then G d else W d).Wx.at m i

/-- The exact gradients of the gates of direction `d`, except at the first input. -/
noncomputable def layerGrad (params h c : ℕ → ℝ) (nI nO dirs i : ℕ) (X : Mat ℝ) (ls : List ℕ) (dY : Mat ℝ) (d t b g o : ℕ) : ℝ :=
  gateGradAt (d ≠ 0) (stackWeights params nI nO dirs i d) (layerWidth nI nO dirs i) nO (initStates h c dirs nO i d) X ls
    (dirGrad X.rows dirs nO d dY).val b (readPos (d ≠ 0) (packedLength ls b) t) g o

theorem lstmBackDirs_ok (params h c : ℕ → ℝ) (nI nO dirs i : ℕ) (ls : List ℕ) (hne : ls ≠ []) (hls : ls.Pairwise (· ≥ ·))
    (X X' : Mat ℝ) (hsum : ls.sum = X.rows) (hXr : X'.rows = X.rows) (hXc : X'.cols = layerWidth nI nO dirs i) (Ts : List LstmTrace)
    (hTs : LayerDone params h c nI nO dirs i X ls dirs Ts) (ws : List GateWeights) (hwl : ws.length = dirs)
    (hws : ∀ d (hd : d < ws.length), GatesOf ws[d] (stackWeights params nI nO dirs i d) (layerWidth nI nO dirs i) nO ∧
      WeightShape ws[d] (layerWidth nI nO dirs i) nO) (dY : Mat ℝ) (W : ℕ → GateWeights) (hW : ∀ d (hd : d < ws.length), W d = ws[d])
    (Y : ℕ → Buf ℝ) (hY : ∀ d (hd : d < Ts.length), Y d = Ts[d].Y) :
    ∃ dX G dG, forM' (List.range dirs) (⟨X.rows * layerWidth nI nO dirs i, fun _ => 0⟩, []) (lstmBackDir X.rows dirs nO dY Ts X' ws ls) =
        .ok (dX, (List.range dirs).map G) ∧
      LayerBack X.rows (layerWidth nI nO dirs i) nO X' Y W G dirs dX dG ∧
      ∀ d < dirs, ∀ t b, b < ls.getD t 0 → ∀ o < nO, ∀ g < 4, dG d (packedRow ls t b) (4 * o + g) = layerGrad params h c nI nO dirs i X ls dY d t b g o := by
  obtain ⟨s, es, G, dG, hs1, hs2, hs3⟩ := forM'_inv (List.range dirs) (lstmBackDir X.rows dirs nO dY Ts X' ws ls)
    (fun n s => ∃ (G : ℕ → GateWeights) (dG : ℕ → ℕ → ℕ → ℝ), s.2 = (List.range n).map G ∧
      LayerBack X.rows (layerWidth nI nO dirs i) nO X' Y W G n s.1 dG ∧
      ∀ d < n, ∀ t b, b < ls.getD t 0 → ∀ o < nO, ∀ g < 4, dG d (packedRow ls t b) (4 * o + g) = layerGrad params h c nI nO dirs i X ls dY d t b g o)
    (⟨X.rows * layerWidth nI nO dirs i, fun _ => 0⟩, [])
    ⟨fun _ => ⟨X, X, X⟩, fun _ _ _ => 0, rfl, ⟨rfl, fun d hd => absurd hd (Nat.not_lt_zero d), fun d hd => absurd hd (Nat.not_lt_zero d),
      fun d hd => absurd hd (Nat.not_lt_zero d), fun d hd => absurd hd (Nat.not_lt_zero d), fun r _ i _ => by simp⟩,
      fun d hd => absurd hd (Nat.not_lt_zero d)⟩ (by
      rintro d hd ⟨dX, gs⟩ ⟨G, dG, hg, hL, hgr⟩
      rw [List.length_range] at hd
      rw [List.getElem_range]
      simp only at hg hL
      have hdw : d < ws.length := by omega
      have hdT : d < Ts.length := by rw [hTs.1]; exact hd
      obtain ⟨hw, hsh⟩ := hws d hdw
      obtain ⟨dX', g, dGd, e, hB, hv⟩ := lstmBackDirection_ok (decide (d ≠ 0)) hw hsh (initStates h c dirs nO i d) X ls hne hls hsum Ts[d] (hTs.2 d hdT)
        (dirGrad X.rows dirs nO d dY) (dirGrad_size _ _ _ _ _) X' hXr hXc dX hL.size
      have hWd := hW d hdw
      have hYd := hY d hdT
      have up : ∀ {γ : Type} (f : ℕ → γ) (v : γ) (e : ℕ), e < d → Function.update f d v e = f e := fun f v e he =>
        Function.update_of_ne (by omega) _ _
      refine ⟨(dX', gs ++ [g]), ?_, Function.update G d g, Function.update dG d dGd, ?_, ⟨?_, ?_, ?_, ?_, ?_, ?_⟩, ?_⟩
      · unfold lstmBackDir
        simp only [List.getElem?_eq_getElem hdw, List.getElem?_eq_getElem hdT, Option.elim_some, bind, Except.bind, pure, Except.pure, hXc, e]
      · simp only
        rw [List.range_succ, List.map_append, hg]
        simp only [List.map_cons, List.map_nil, Function.update_self]
        congr 1
        refine List.map_congr_left fun e he => ?_
        rw [up G g e (List.mem_range.1 he)]
      · simp only
        rw [hB.size, hL.size]
      · intro e he
        rcases Nat.lt_or_ge e d with hed | hed
        · rw [up G g e hed]; exact hL.shape e hed
        · obtain rfl : e = d := by omega
          rw [Function.update_self]; exact hB.shape
      · intro e he
        rcases Nat.lt_or_ge e d with hed | hed
        · rw [up G g e hed, up dG dGd e hed]; exact hL.Wx e hed
        · obtain rfl : e = d := by omega
          rw [Function.update_self, Function.update_self, hWd]; exact hB.Wx
      · intro e he
        rcases Nat.lt_or_ge e d with hed | hed
        · rw [up G g e hed, up dG dGd e hed]; exact hL.Wh e hed
        · obtain rfl : e = d := by omega
          rw [Function.update_self, Function.update_self, hWd, hYd]; exact hB.Wh
      · intro e he
        rcases Nat.lt_or_ge e d with hed | hed
        · rw [up G g e hed, up dG dGd e hed]; exact hL.bias e hed
        · obtain rfl : e = d := by omega
          rw [Function.update_self, Function.update_self, hWd]; exact hB.bias
      · intro r hr j hj
        simp only
        rw [hB.input r hr j hj, hL.input r hr j hj, Finset.sum_range_succ]
        simp only [Function.update_self, hWd]
        congr 1
        refine Finset.sum_congr rfl fun e he => ?_
        rw [up G g e (Finset.mem_range.1 he), up dG dGd e (Finset.mem_range.1 he)]
      · intro e he t b hb o ho k hk
        rcases Nat.lt_or_ge e d with hed | hed
        · rw [up dG dGd e hed]; exact hgr e hed t b hb o ho k hk
        · obtain rfl : e = d := by omega
          rw [Function.update_self]
          exact hv t b hb o ho k hk)
  rw [List.length_range] at hs1 hs2 hs3
  refine ⟨s.1, G, dG, ?_, hs2, hs3⟩
  rw [es, ← hs1]

/-! ### All layers -/

/-- The backward pass through layer `i`: from the gradient `dY` of its output to the gradient `dX` of its input. -/
def BackRel (params h c : ℕ → ℝ) (nI nO dirs : ℕ) (ls : List ℕ) (i : ℕ) (X : Mat ℝ) (Ts : List LstmTrace) (dY dX : Mat ℝ) (G : ℕ → GateWeights) : Prop :=
  ∃ (Y : ℕ → Buf ℝ) (W : ℕ → GateWeights) (dG : ℕ → ℕ → ℕ → ℝ), dX.rows = X.rows ∧ dX.cols = layerWidth nI nO dirs i ∧
    (∀ d (hd : d < Ts.length), Y d = Ts[d].Y) ∧
    (∀ d < dirs, GatesOf (W d) (stackWeights params nI nO dirs i d) (layerWidth nI nO dirs i) nO ∧ WeightShape (W d) (layerWidth nI nO dirs i) nO) ∧
    LayerBack X.rows (layerWidth nI nO dirs i) nO X Y W G dirs dX.buf dG ∧
    ∀ d < dirs, ∀ t b, b < ls.getD t 0 → ∀ o < nO, ∀ g < 4, dG d (packedRow ls t b) (4 * o + g) = layerGrad params h c nI nO dirs i X ls dY d t b g o

theorem mapM_except_ok {α β ε : Type} (f : α → Except ε β) (l : List α) (g : ℕ → β) (h : ∀ i (hi : i < l.length), f l[i] = .ok (g i)) :
    l.mapM f = .ok ((List.range l.length).map g) := by
  induction l generalizing g with
  | nil => rfl
  | cons x l ih =>
    have h0 := h 0 (by simp)
    have h1 := ih (fun i => g (i + 1)) (fun i hi => h (i + 1) (by simpa using hi))
    rw [List.mapM_cons]
    simp only [List.getElem_cons_zero] at h0
    simp only [h0, h1, bind, Except.bind, pure, Except.pure, List.length_cons, List.range_succ_eq_map, List.map_cons, List.map_map]
    rfl

theorem lstmBackLayer_ok (params h c : ℕ → ℝ) (size nI nO dirs depth i : ℕ) (hi : i < depth) (ls : List ℕ) (hne : ls ≠ [])
    (hls : ls.Pairwise (· ≥ ·)) (X : Mat ℝ) (hsum : ls.sum = X.rows) (hXc : X.cols = layerWidth nI nO dirs i)
    (all : List (List LstmTrace)) (Ts : List LstmTrace) (hall : all[i]? = some Ts) (hTs : LayerDone params h c nI nO dirs i X ls dirs Ts)
    (Xs : List (Mat ℝ)) (hXs : Xs[i]? = some X)
    (weights : List (List GateWeights)) (hW : WeightsAre params nI nO dirs depth weights) (dY : Mat ℝ) (hYr : dY.rows = X.rows) (hYc : dY.cols = dirs * nO)
    (later : List (List GateWeights)) :
    ∃ dX G, lstmBackLayer X.rows dirs nO all Xs weights ls (dY, later) i = .ok (dX, (List.range dirs).map G :: later) ∧
      BackRel params h c nI nO dirs ls i X Ts dY dX G := by
  obtain ⟨hwl, hws⟩ := hW
  have hiw : i < weights.length := by omega
  obtain ⟨hdl, hwd⟩ := hws i hiw
  obtain ⟨dX, G, dG, e, hL, hg⟩ := lstmBackDirs_ok params h c nI nO dirs i ls hne hls X X hsum rfl hXc Ts hTs weights[i] hdl hwd dY
    (fun d => (weights[i][d]?).getD ⟨X, X, X⟩) (fun d hd => by simp only [List.getElem?_eq_getElem hd, Option.getD_some])
    (fun d => ((Ts[d]?).map LstmTrace.Y).getD X.buf) (fun d hd => by simp only [List.getElem?_eq_getElem hd, Option.map_some, Option.getD_some])
  refine ⟨dX.toMat X.rows X.cols, G, ?_, fun d => ((Ts[d]?).map LstmTrace.Y).getD X.buf, fun d => (weights[i][d]?).getD ⟨X, X, X⟩, dG, rfl, hXc,
    fun d hd => by simp only [List.getElem?_eq_getElem hd, Option.map_some, Option.getD_some], fun d hd => ?_, ?_, hg⟩
  · unfold lstmBackLayer
    have hc : checkReshape dY (X.rows * dirs * nO) = .ok () := by
      unfold checkReshape
      rw [if_pos (by rw [hYr, hYc]; ring)]
    simp only [hc, hXs, hall, List.getElem?_eq_getElem hiw, Option.elim_some, bind, Except.bind, pure, Except.pure, hXc, e]
  · have hd' : d < weights[i].length := by omega
    have hget : (weights[i][d]?).getD ⟨X, X, X⟩ = weights[i][d] := by rw [List.getElem?_eq_getElem hd']; rfl
    simp only [hget]
    exact hwd d hd'
  · have hb : (dX.toMat X.rows X.cols).buf = dX := by
      have := hL.size
      rw [← hXc] at this
      cases dX
      simp only at this
      subst this
      rfl
    rw [hb]
    exact hL

theorem lstmBackward_ok (params c h : ℕ → ℝ) (size depth dirs nO nI : ℕ) (X : Mat ℝ) (ls : List ℕ) (hI : 0 < nI) (hO : 0 < nO) (hd : 0 < dirs)
    (hX : X.cols = nI) (hpos : 0 < X.rows) (hls : ls.Pairwise (· ≥ ·)) (hsum : ls.sum = X.rows) (hdep : 0 < depth)
    (hsize : cellStart nI nO dirs depth 0 ≤ size) (all : List (List LstmTrace)) (hall : StackDone params h c nI nO dirs X ls depth all)
    (dY : Mat ℝ) (hYr : dY.rows = X.rows) (hYc : dY.cols = dirs * nO) :
    ∃ (Z D : ℕ → Mat ℝ) (G : ℕ → ℕ → GateWeights), lstmBackward ⟨size, params⟩ depth dirs nO dY ls X all =
        .ok (D 0, ((List.range depth).map fun i => (List.range dirs).map (G i)).flatten.flatMap untranspose) ∧
      D depth = dY ∧ Z 0 = X ∧
      ∀ i (hi : i < all.length), (Z i).rows = X.rows ∧ LayerDone params h c nI nO dirs i (Z i) ls dirs all[i] ∧
        BackRel params h c nI nO dirs ls i (Z i) all[i] (D (i + 1)) (D i) (G i) := by
  have hne : ls ≠ [] := by rintro rfl; simp at hsum; omega
  obtain ⟨hal, hZ⟩ := hall
  obtain ⟨weights, ew, hW⟩ := collectWeights_ok ⟨size, params⟩ nI nO dirs depth hI hO hd hsize
  have hex : ∀ j, ∃ Z : Mat ℝ, ∀ hj : j < all.length, Z.rows = X.rows ∧ (j = 0 → Z = X) ∧ (0 < j → sideBySide X.rows nO (all.getD (j - 1) []) = .ok Z) ∧
      RowsAre ls Z (layerWidth nI nO dirs j)
        (fun b => lstmStack (stackWeights params nI nO dirs) (initStates h c dirs nO) nI nO dirs (packedSeq ls X.at b) j) ∧
      LayerDone params h c nI nO dirs j Z ls dirs all[j] := by
    intro j
    by_cases hj : j < all.length
    · obtain ⟨Z, hz⟩ := hZ j hj
      exact ⟨Z, fun _ => hz⟩
    · exact ⟨X, fun h => absurd h hj⟩
  choose Z hZ' using hex
  have hZ0 : Z 0 = X := (hZ' 0 (by omega)).2.1 rfl
  have eH : (all.take (depth - 1)).mapM (sideBySide X.rows nO) = .ok ((List.range (all.take (depth - 1)).length).map fun i => Z (i + 1)) := by
    refine mapM_except_ok _ _ _ fun i hi => ?_
    rw [List.length_take] at hi
    have := (hZ' (i + 1) (by omega)).2.2.1 (by omega)
    rw [Nat.add_sub_cancel, List.getD_eq_getElem?_getD, List.getElem?_eq_getElem (by omega)] at this
    rw [List.getElem_take]
    exact this
  have hlenH : (all.take (depth - 1)).length = depth - 1 := by rw [List.length_take]; omega
  rw [hlenH] at eH
  have hXs : ∀ i < depth, (X :: (List.range (depth - 1)).map fun i => Z (i + 1))[i]? = some (Z i) := by
    intro i hi
    cases i with
    | zero => rw [hZ0]; rfl
    | succ i =>
      rw [List.getElem?_cons_succ, List.getElem?_map, List.getElem?_range (by omega)]
      rfl
  obtain ⟨s, es, D, G, hD0, hD, hG, hrel⟩ := forM'_inv (List.range depth).reverse
    (lstmBackLayer X.rows dirs nO all (X :: (List.range (depth - 1)).map fun i => Z (i + 1)) weights ls)
    (fun k s => ∃ (D : ℕ → Mat ℝ) (G : ℕ → ℕ → GateWeights), D depth = dY ∧ s.1 = D (depth - k) ∧
      s.2 = (List.range' (depth - k) k).map (fun i => (List.range dirs).map (G i)) ∧
      ((D (depth - k)).rows = X.rows ∧ (D (depth - k)).cols = layerWidth nI nO dirs (depth - k)) ∧
      ∀ i (hi : i < all.length), depth - k ≤ i → BackRel params h c nI nO dirs ls i (Z i) all[i] (D (i + 1)) (D i) (G i)) (dY, [])
    ⟨fun _ => dY, fun _ _ => ⟨X, X, X⟩, rfl, rfl, rfl, ⟨hYr, by
      simp only [Nat.sub_zero]
      obtain ⟨n, rfl⟩ : ∃ n, depth = n + 1 := ⟨depth - 1, by omega⟩
      rw [layerWidth_succ]
      exact hYc⟩, fun i hi hle => by omega⟩ (by
      rintro k hk ⟨dYk, gs⟩ ⟨D, G, hD0, hD, hG, ⟨hr, hc⟩, hrel⟩
      rw [List.length_reverse, List.length_range] at hk
      simp only at hD hG
      rw [List.getElem_reverse, List.getElem_range, List.length_range]
      set i := depth - 1 - k with hi
      have hik : depth - k = i + 1 := by omega
      have hil : i < all.length := by omega
      obtain ⟨z1, z2, z3, z4, z5⟩ := hZ' i hil
      obtain ⟨dX, Gi, e, hB⟩ := lstmBackLayer_ok params h c size nI nO dirs depth i (by omega) ls hne hls (Z i) (by rw [hsum, z1]) z4.1 all all[i]
        (List.getElem?_eq_getElem hil) z5 _ (hXs i (by omega)) weights hW dYk (by rw [hD, hr, z1]) (by rw [hD, hc, hik, layerWidth_succ]) gs
      rw [z1] at e
      have hik' : depth - (k + 1) = i := by omega
      refine ⟨_, e, Function.update D i dX, Function.update G i Gi, ?_, ?_, ?_, ?_, ?_⟩
      · rw [Function.update_of_ne (by omega)]; exact hD0
      · rw [hik', Function.update_self]
      · simp only
        rw [hik', List.range'_succ, List.map_cons, Function.update_self, hG, hik]
        congr 1
        refine List.map_congr_left fun j hj => ?_
        rw [Function.update_of_ne]
        rw [List.mem_range'_1] at hj
        omega
      · rw [hik', Function.update_self]
        obtain ⟨_, _, _, h1, h2, _⟩ := hB
        exact ⟨h1.trans z1, h2⟩
      · intro j hj hle
        rcases Nat.lt_or_ge i j with hij | hij
        · rw [Function.update_of_ne (by omega), Function.update_of_ne (by omega), Function.update_of_ne (by omega)]
          exact hrel j hj (by omega)
        · obtain rfl : j = i := by omega
          rw [Function.update_self, Function.update_self, Function.update_of_ne (by omega), ← hik, ← hD]
          exact hB)
  rw [List.length_reverse, List.length_range] at hD hG hrel
  rw [Nat.sub_self] at hD hG
  refine ⟨Z, D, G, ?_, hD0, hZ0, fun i hi => ⟨(hZ' i hi).1, (hZ' i hi).2.2.2.2, hrel.2 i hi (by omega)⟩⟩
  unfold lstmBackward
  simp only [hX, ew, eH, es, bind, Except.bind, pure, Except.pure]
  rw [hD, hG, ← List.range_eq_range']

end Thinc
