import Mathlib.Data.List.GetD
import Verif.Lemmas.LstmDirection
import Verif.Lemmas.Layer
/-!
# All layers of the LSTM
-/
namespace Thinc
open Spec

/-! ### The weights -/

theorem slice2_ok (a : Buf ℝ) (start rows cols : ℕ) (h : start + rows * cols ≤ a.size) :
    a.slice2 start rows cols = .ok ⟨rows, cols, fun k => a.val (start + k)⟩ := by
  unfold Buf.slice2
  rw [if_pos (by omega)]

theorem four_mul_div (nO : ℕ) : 4 * nO / 4 = nO := by omega

theorem weights_ok (params : Buf ℝ) (nI nO start : ℕ) (hI : 0 < nI) (hO : 0 < nO) (h : start + cellSize nI nO ≤ params.size) :
    ∃ sw w, splitWeights params nO nI start = .ok (sw, start + cellSize nI nO) ∧ transposeWeights sw = .ok w ∧
      GatesOf w (cellWeights params.val start nI nO) nI nO := by
  have h' : start + (4 * nO * nI + 4 * nO + (4 * nO * nO + 4 * nO)) ≤ params.size := h
  have e1 := slice2_ok params start (4 * nO) nI (by omega)
  have e2 := slice2_ok params (start + 4 * nO * nI) 1 (4 * nO) (by omega)
  have e3 := slice2_ok params (start + 4 * nO * nI + 4 * nO) (4 * nO) nO (by omega)
  have e4 := slice2_ok params (start + 4 * nO * nI + 4 * nO + 4 * nO * nO) 1 (4 * nO) (by omega)
  let sw : SplitWeights := ⟨⟨4 * nO, nI, fun k => params.val (start + k)⟩, ⟨1, 4 * nO, fun k => params.val (start + 4 * nO * nI + k)⟩,
    ⟨4 * nO, nO, fun k => params.val (start + 4 * nO * nI + 4 * nO + k)⟩,
    ⟨1, 4 * nO, fun k => params.val (start + 4 * nO * nI + 4 * nO + 4 * nO * nO + k)⟩⟩
  have hwx : gatesLast sw.Wx = .ok (Mat.ofFn (4 * nO) nI fun k j => sw.Wx.at ((k % 4) * (4 * nO / 4) + k / 4) j) := by
    unfold gatesLast
    rw [if_neg (show ¬ sw.Wx.cols = 0 from Nat.pos_iff_ne_zero.1 hI)]
  have hwh : gatesLast sw.Wh = .ok (Mat.ofFn (4 * nO) nO fun k j => sw.Wh.at ((k % 4) * (4 * nO / 4) + k / 4) j) := by
    unfold gatesLast
    rw [if_neg (show ¬ sw.Wh.cols = 0 from Nat.pos_iff_ne_zero.1 hO)]
  have h41 : ¬ 4 * nO = 1 := by omega
  have hb : npBinary (· + ·) (biasGatesLast sw.bx) (biasGatesLast sw.bh) =
      .ok (Mat.ofFn 1 (4 * nO) fun i j => (biasGatesLast sw.bx).at 0 j + (biasGatesLast sw.bh).at 0 j) := by
    unfold npBinary
    have r1 : broadcastDim (biasGatesLast sw.bx).rows (biasGatesLast sw.bh).rows = .ok 1 := rfl
    have r2 : broadcastDim (biasGatesLast sw.bx).cols (biasGatesLast sw.bh).cols = .ok (4 * nO) := by
      show broadcastDim (4 * nO) (4 * nO) = _
      unfold broadcastDim
      simp
    rw [r1, r2]
    have c1 : (biasGatesLast sw.bx).rows = 1 := rfl
    have c2 : (biasGatesLast sw.bh).rows = 1 := rfl
    have c3 : (biasGatesLast sw.bx).cols = 4 * nO := rfl
    have c4 : (biasGatesLast sw.bh).cols = 4 * nO := rfl
    simp only [bind, Except.bind, pure, Except.pure, c1, c2, c3, c4, if_true, h41, if_false]
  refine ⟨sw, _, ?_, by simp only [transposeWeights, hwx, hwh, hb, bind, Except.bind, pure, Except.pure]; rfl, ?_⟩
  · simp only [splitWeights, e1, e2, e3, e4, bind, Except.bind, pure, Except.pure]
    congr 2
    unfold cellSize
    omega
  · have d4 : ∀ o g, g < 4 → (4 * o + g) / 4 = o := fun o g hg => by omega
    have m4 : ∀ o g, g < 4 → (4 * o + g) % 4 = g := fun o g hg => by omega
    constructor
    · show 4 * nO * nI = nO * 4 * nI
      ring
    · show 4 * nO * nO = nO * 4 * nO
      ring
    · intro g hg o ho k hk
      show sw.Wx.at (((4 * o + g) * nI + k) / nI % 4 * (4 * nO / 4) + ((4 * o + g) * nI + k) / nI / 4) (((4 * o + g) * nI + k) % nI) = _
      rw [rowMajor_div _ _ _ hk, rowMajor_mod _ _ _ hk, d4 o g hg, m4 o g hg, four_mul_div]
      rfl
    · intro g hg o ho k hk
      show sw.Wh.at (((4 * o + g) * nO + k) / nO % 4 * (4 * nO / 4) + ((4 * o + g) * nO + k) / nO / 4) (((4 * o + g) * nO + k) % nO) = _
      rw [rowMajor_div _ _ _ hk, rowMajor_mod _ _ _ hk, d4 o g hg, m4 o g hg, four_mul_div]
      rfl
    · intro g hg o ho
      have hlt : 4 * o + g < 4 * nO := by omega
      have hbx : ∀ (f : ℕ → ℝ), (biasGatesLast ⟨1, 4 * nO, f⟩).at 0 (4 * o + g) = f (g * nO + o) := by
        intro f
        show f (0 * (4 * nO) + ((0 * (4 * nO) + (4 * o + g)) % (4 * nO) % 4 * (4 * nO / 4) + (0 * (4 * nO) + (4 * o + g)) % (4 * nO) / 4)) = _
        rw [zero_mul, zero_add, zero_add, Nat.mod_eq_of_lt hlt, d4 o g hg, m4 o g hg, four_mul_div]
      show (biasGatesLast sw.bx).at 0 ((0 * (4 * nO) + (4 * o + g)) % (4 * nO)) + (biasGatesLast sw.bh).at 0 ((0 * (4 * nO) + (4 * o + g)) % (4 * nO)) = _
      rw [zero_mul, zero_add, Nat.mod_eq_of_lt hlt]
      exact congrArg₂ (· + ·) (hbx _) (hbx _)

/-! ### Only the entries below the width matter -/

theorem lstmCell_congr (w : CellWeights) (nI nO : ℕ) (s : (ℕ → ℝ) × (ℕ → ℝ)) {x y : ℕ → ℝ} (h : ∀ k < nI, x k = y k) :
    lstmCell w nI nO s x = lstmCell w nI nO s y := by
  have hg : ∀ g o, gate w nI nO s.1 x g o = gate w nI nO s.1 y g o := by
    intro g o
    unfold gate
    rw [Finset.sum_congr rfl fun k hk => by rw [h k (Finset.mem_range.1 hk)]]
  unfold lstmCell
  simp only [hg]

theorem lstmRead_congr (w : CellWeights) (nI nO : ℕ) {xs ys : List (ℕ → ℝ)} (h : List.Forall₂ (fun x y => ∀ k < nI, x k = y k) xs ys)
    (s : (ℕ → ℝ) × (ℕ → ℝ)) : lstmRead w nI nO s xs = lstmRead w nI nO s ys := by
  induction h generalizing s with
  | nil => rfl
  | cons hxy _ ih =>
    unfold lstmRead at ih ⊢
    rw [List.foldl_cons, List.foldl_cons, lstmCell_congr w nI nO s hxy]
    exact ih _

theorem forall₂_drop {α β : Type} {R : α → β → Prop} {xs : List α} {ys : List β} (h : List.Forall₂ R xs ys) (n : ℕ) :
    List.Forall₂ R (xs.drop n) (ys.drop n) := by
  induction n generalizing xs ys with
  | zero => simpa using h
  | succ n ih =>
    cases h with
    | nil => simp
    | cons _ h => simpa using ih h

theorem forall₂_take {α β : Type} {R : α → β → Prop} {xs : List α} {ys : List β} (h : List.Forall₂ R xs ys) (n : ℕ) :
    List.Forall₂ R (xs.take n) (ys.take n) := by
  induction n generalizing xs ys with
  | zero => simp
  | succ n ih =>
    cases h with
    | nil => simp
    | cons h' h => simpa using ⟨h', ih h⟩

theorem stateAt_congr (rev : Bool) (w : CellWeights) (nI nO : ℕ) {xs ys : List (ℕ → ℝ)}
    (h : List.Forall₂ (fun x y => ∀ k < nI, x k = y k) xs ys) (s : (ℕ → ℝ) × (ℕ → ℝ)) (t : ℕ) :
    stateAt rev w nI nO s xs t = stateAt rev w nI nO s ys t := by
  unfold stateAt
  refine lstmRead_congr w nI nO ?_ s
  cases rev
  · simpa using forall₂_take h (t + 1)
  · simpa using List.rel_reverse (forall₂_drop h t)

/-! ### Offsets of the parameters -/

theorem cellStart_succ (nI nO dirs i d : ℕ) :
    cellStart nI nO dirs i (d + 1) = cellStart nI nO dirs i d + cellSize (layerWidth nI nO dirs i) nO := by
  cases i with
  | zero => simp only [cellStart, layerWidth, if_true]; ring
  | succ i => simp only [cellStart, layerWidth, Nat.succ_ne_zero, if_false]; ring

theorem cellStart_next (nI nO dirs i : ℕ) : cellStart nI nO dirs (i + 1) 0 = cellStart nI nO dirs i dirs := by
  simp [cellStart]

theorem cellStart_mono_dir (nI nO dirs i : ℕ) {d e : ℕ} (h : d ≤ e) : cellStart nI nO dirs i d ≤ cellStart nI nO dirs i e := by
  induction e with
  | zero => have : d = 0 := by omega
            subst this; exact le_rfl
  | succ e ih =>
    rcases Nat.lt_or_ge d (e + 1) with h' | h'
    · rw [cellStart_succ]
      have := ih (by omega)
      omega
    · have : d = e + 1 := by omega
      subst this; exact le_rfl

theorem cellStart_mono (nI nO dirs : ℕ) {i j : ℕ} (h : i ≤ j) : cellStart nI nO dirs i 0 ≤ cellStart nI nO dirs j 0 := by
  induction j with
  | zero => have : i = 0 := by omega
            subst this; exact le_rfl
  | succ j ih =>
    rcases Nat.lt_or_ge i (j + 1) with h' | h'
    · have := ih (by omega)
      rw [cellStart_next]
      exact this.trans (cellStart_mono_dir nI nO dirs j (Nat.zero_le _))
    · have : i = j + 1 := by omega
      subst this; exact le_rfl

theorem cellStart_le (nI nO dirs : ℕ) {i d depth : ℕ} (hi : i < depth) (hd : d < dirs) :
    cellStart nI nO dirs i d + cellSize (layerWidth nI nO dirs i) nO ≤ cellStart nI nO dirs depth 0 := by
  rw [← cellStart_succ]
  refine (cellStart_mono_dir nI nO dirs i (show d + 1 ≤ dirs from hd)).trans ?_
  rw [← cellStart_next]
  exact cellStart_mono nI nO dirs hi

/-! ### One layer -/

/-- The traces of one layer are those of the textbook cells. -/
def LayerDone (params : ℕ → ℝ) (h c : ℕ → ℝ) (nI nO dirs i : ℕ) (X : Mat ℝ) (ls : List ℕ) (n : ℕ) (Ts : List LstmTrace) : Prop :=
  Ts.length = n ∧ ∀ d (hd : d < Ts.length), LstmDone (d ≠ 0)
    (cellWeights params (cellStart nI nO dirs i d) (layerWidth nI nO dirs i) nO) (layerWidth nI nO dirs i) nO
    (initStates h c dirs nO i d) X ls Ts[d]

theorem lstmDirs_ok (params : Buf ℝ) (h c : ℕ → ℝ) (nI nO dirs depth i : ℕ) (hi : i < depth) (hW : 0 < layerWidth nI nO dirs i) (hO : 0 < nO)
    (X : Mat ℝ) (hX : X.cols = layerWidth nI nO dirs i) (ls : List ℕ) (hne : ls ≠ []) (hls : ls.Pairwise (· ≥ ·)) (hsum : ls.sum = X.rows)
    (hsize : cellStart nI nO dirs depth 0 ≤ params.size) :
    ∃ Ts, forM' (List.range dirs) (cellStart nI nO dirs i 0, []) (lstmDir params h c dirs nO X ls i) = .ok (cellStart nI nO dirs (i + 1) 0, Ts) ∧
      LayerDone params.val h c nI nO dirs i X ls dirs Ts := by
  obtain ⟨s, es, hs1, hs2⟩ := forM'_inv (List.range dirs) (lstmDir params h c dirs nO X ls i)
    (fun d s => s.1 = cellStart nI nO dirs i d ∧ LayerDone params.val h c nI nO dirs i X ls d s.2) (cellStart nI nO dirs i 0, [])
    ⟨rfl, rfl, fun d hd => absurd hd (Nat.not_lt_zero d)⟩ (by
      rintro d hd ⟨p, Ts⟩ ⟨hp, hl, hT⟩
      rw [List.length_range] at hd
      rw [List.getElem_range]
      simp only at hp hl hT
      subst hp
      obtain ⟨sw, w, e1, e2, hw⟩ := weights_ok params (layerWidth nI nO dirs i) nO (cellStart nI nO dirs i d) hW hO
        ((cellStart_le nI nO dirs hi hd).trans hsize)
      obtain ⟨T, e3, hT'⟩ := lstmDirection_ok (decide (d ≠ 0)) hw (initStates h c dirs nO i d).1 (initStates h c dirs nO i d).2 X hX ls hne hls hsum
      refine ⟨(cellStart nI nO dirs i (d + 1), Ts ++ [T]), ?_, rfl, ?_, ?_⟩
      · unfold lstmDir
        simp only [hX, e1, e2, bind, Except.bind, pure, Except.pure]
        rw [show (fun o => h ((i * dirs + d) * nO + o)) = (initStates h c dirs nO i d).1 from rfl,
          show (fun o => c ((i * dirs + d) * nO + o)) = (initStates h c dirs nO i d).2 from rfl, e3, cellStart_succ]
      · simp [hl]
      · intro e he
        simp only [List.length_append, List.length_singleton, hl] at he
        rcases Nat.lt_or_ge e d with hed | hed
        · rw [List.getElem_append_left (by omega)]
          exact hT e (by omega)
        · have : e = d := by omega
          subst this
          rw [List.getElem_append_right (by omega)]
          simpa [hl] using hT')
  rw [List.length_range] at hs1 hs2
  refine ⟨s.2, ?_, hs2⟩
  rw [es, cellStart_next, ← hs1]

theorem lstmLayer_length (w : ℕ → CellWeights) (s : ℕ → (ℕ → ℝ) × (ℕ → ℝ)) (nI nO : ℕ) (xs : List (ℕ → ℝ)) :
    (lstmLayer w s nI nO xs).length = xs.length := by simp [lstmLayer]

theorem lstmLayer_getElem (w : ℕ → CellWeights) (s : ℕ → (ℕ → ℝ) × (ℕ → ℝ)) (nI nO : ℕ) (xs : List (ℕ → ℝ)) (t : ℕ)
    (ht : t < (lstmLayer w s nI nO xs).length) :
    (lstmLayer w s nI nO xs)[t] = fun k => lstmOutput (k / nO ≠ 0) (w (k / nO)) nI nO (s (k / nO)) xs t (k % nO) := by
  have h1 : t < xs.length := by rwa [lstmLayer_length] at ht
  have : (lstmLayer w s nI nO xs)[t]? = some fun k => lstmOutput (k / nO ≠ 0) (w (k / nO)) nI nO (s (k / nO)) xs t (k % nO) := by
    unfold lstmLayer
    rw [List.getElem?_map, List.getElem?_range h1]
    rfl
  rw [List.getElem?_eq_getElem ht] at this
  exact Option.some.inj this

theorem lstmStack_length (w : ℕ → ℕ → CellWeights) (s : ℕ → ℕ → (ℕ → ℝ) × (ℕ → ℝ)) (nI nO dirs : ℕ) (xs : List (ℕ → ℝ)) (i : ℕ) :
    (lstmStack w s nI nO dirs xs i).length = xs.length := by
  induction i with
  | zero => rfl
  | succ i ih => rw [lstmStack, lstmLayer_length, ih]

/-- The rows of `X` agree with the lists of the specification. -/
def RowsAre (ls : List ℕ) (X : Mat ℝ) (width : ℕ) (spec : ℕ → List (ℕ → ℝ)) : Prop :=
  X.cols = width ∧ ∀ b, (spec b).length = packedLength ls b ∧
    ∀ t (ht : t < (spec b).length), ∀ k < width, X.at (packedRow ls t b) k = (spec b)[t] k

theorem RowsAre.forall₂ {ls : List ℕ} {X : Mat ℝ} {width : ℕ} {spec : ℕ → List (ℕ → ℝ)} (h : RowsAre ls X width spec) (b : ℕ) :
    List.Forall₂ (fun x y => ∀ k < width, x k = y k) (packedSeq ls X.at b) (spec b) := by
  rw [List.forall₂_iff_get]
  refine ⟨by rw [packedSeq_length, (h.2 b).1], fun t h1 h2 k hk => ?_⟩
  rw [List.get_eq_getElem, List.get_eq_getElem, packedSeq_getElem]
  exact (h.2 b).2 t h2 k hk

theorem div_lt_dirs {k dirs nO : ℕ} (h : k < dirs * nO) : k / nO < dirs := Nat.div_lt_of_lt_mul (by rwa [mul_comm])

theorem lstmLayerStep_ok (params : Buf ℝ) (h c : ℕ → ℝ) (nI nO dirs depth i : ℕ) (hi : i < depth) (hW : 0 < layerWidth nI nO dirs i)
    (hO : 0 < nO) (X : Mat ℝ) (ls : List ℕ) (hne : ls ≠ []) (hls : ls.Pairwise (· ≥ ·)) (hsum : ls.sum = X.rows) (hpos : 0 < X.rows)
    (hsize : cellStart nI nO dirs depth 0 ≤ params.size) (spec : ℕ → List (ℕ → ℝ)) (hspec : RowsAre ls X (layerWidth nI nO dirs i) spec)
    (all : List (List LstmTrace)) :
    ∃ H Ts, lstmLayerStep params h c dirs nO ls (X, cellStart nI nO dirs i 0, all) i = .ok (H, cellStart nI nO dirs (i + 1) 0, all ++ [Ts]) ∧
      LayerDone params.val h c nI nO dirs i X ls dirs Ts ∧ sideBySide X.rows nO Ts = .ok H ∧ H.rows = X.rows ∧
      RowsAre ls H (dirs * nO) fun b =>
        lstmLayer (stackWeights params.val nI nO dirs i) (initStates h c dirs nO i) (layerWidth nI nO dirs i) nO (spec b) := by
  obtain ⟨Ts, e, hl, hT⟩ := lstmDirs_ok params h c nI nO dirs depth i hi hW hO X hspec.1 ls hne hls hsum hsize
  refine ⟨Mat.ofFn X.rows (Ts.length * nO) fun n k => (Ts.map fun T => T.Y.val (n * nO + k % nO)).getD (k / nO) 0, Ts, ?_, ⟨hl, hT⟩,
    by unfold sideBySide; rw [if_neg (Nat.pos_iff_ne_zero.1 hpos)], rfl, by show Ts.length * nO = _; rw [hl], fun b => ⟨by rw [lstmLayer_length, (hspec.2 b).1], fun t ht k hk => ?_⟩⟩
  · unfold lstmLayerStep sideBySide
    simp only [bind, Except.bind, pure, Except.pure, e, Nat.pos_iff_ne_zero.1 hpos, if_false]
  · have ht' : t < packedLength ls b := by rwa [lstmLayer_length, (hspec.2 b).1] at ht
    have hb := (packedLength_iff ls hls t b).1 ht'
    have hk' : k < Ts.length * nO := by rwa [hl]
    have hd : k / nO < Ts.length := div_lt_dirs hk'
    show (Ts.map fun T => T.Y.val ((packedRow ls t b * (Ts.length * nO) + k) / (Ts.length * nO) * nO +
      (packedRow ls t b * (Ts.length * nO) + k) % (Ts.length * nO) % nO)).getD
      ((packedRow ls t b * (Ts.length * nO) + k) % (Ts.length * nO) / nO) 0 = _
    rw [rowMajor_div _ _ _ hk', rowMajor_mod _ _ _ hk', List.getD_eq_getElem?_getD, List.getElem?_eq_getElem (by simpa using hd)]
    simp only [List.getElem_map, Option.getD_some]
    rw [(hT (k / nO) hd).Y t b hb (k % nO) (Nat.mod_lt _ hO), stateAt_congr _ _ _ _ (hspec.forall₂ b)]
    have hget := lstmLayer_getElem (stackWeights params.val nI nO dirs i) (initStates h c dirs nO i) (layerWidth nI nO dirs i) nO (spec b) t ht
    exact (congrFun hget k).symm

theorem layerWidth_succ (nI nO dirs i : ℕ) : layerWidth nI nO dirs (i + 1) = dirs * nO := by simp [layerWidth]

theorem layerWidth_pos {nI nO dirs : ℕ} (hI : 0 < nI) (hO : 0 < nO) (hd : 0 < dirs) (i : ℕ) : 0 < layerWidth nI nO dirs i := by
  unfold layerWidth
  split
  · exact hI
  · exact Nat.mul_pos hd hO

/-- The inputs of the layers and the traces. -/
def StackDone (params : ℕ → ℝ) (h c : ℕ → ℝ) (nI nO dirs : ℕ) (X : Mat ℝ) (ls : List ℕ) (i : ℕ) (all : List (List LstmTrace)) : Prop :=
  all.length = i ∧ ∀ j (hj : j < all.length), ∃ Z : Mat ℝ, Z.rows = X.rows ∧
    (j = 0 → Z = X) ∧ (0 < j → sideBySide X.rows nO (all.getD (j - 1) []) = .ok Z) ∧
    RowsAre ls Z (layerWidth nI nO dirs j)
      (fun b => lstmStack (stackWeights params nI nO dirs) (initStates h c dirs nO) nI nO dirs (packedSeq ls X.at b) j) ∧
    LayerDone params h c nI nO dirs j Z ls dirs all[j]

theorem lstmForward_ok (params c h : ℕ → ℝ) (size depth dirs nO nI : ℕ) (X : Mat ℝ) (ls : List ℕ) (hI : 0 < nI) (hO : 0 < nO) (hd : 0 < dirs)
    (hX : X.cols = nI) (hpos : 0 < X.rows) (hls : ls.Pairwise (· ≥ ·)) (hsum : ls.sum = X.rows)
    (hsize : cellStart nI nO dirs depth 0 ≤ size) :
    ∃ H all, lstmForward params c h size depth dirs nO X ls = .ok (H, all) ∧ H.rows = X.rows ∧
      RowsAre ls H (layerWidth nI nO dirs depth)
        (fun b => lstmStack (stackWeights params nI nO dirs) (initStates h c dirs nO) nI nO dirs (packedSeq ls X.at b) depth) ∧
      StackDone params h c nI nO dirs X ls depth all := by
  have hne : ls ≠ [] := by rintro rfl; simp at hsum; omega
  obtain ⟨s, es, hs⟩ := forM'_inv (List.range depth) (lstmLayerStep ⟨size, params⟩ h c dirs nO ls)
    (fun i s => s.2.1 = cellStart nI nO dirs i 0 ∧ s.1.rows = X.rows ∧ ((i = 0 → s.1 = X) ∧
        (0 < i → sideBySide X.rows nO (s.2.2.getD (i - 1) []) = .ok s.1)) ∧ RowsAre ls s.1 (layerWidth nI nO dirs i)
        (fun b => lstmStack (stackWeights params nI nO dirs) (initStates h c dirs nO) nI nO dirs (packedSeq ls X.at b) i) ∧
      StackDone params h c nI nO dirs X ls i s.2.2) (X, 0, [])
    ⟨by simp [cellStart], rfl, ⟨fun _ => rfl, fun h => absurd h (Nat.lt_irrefl 0)⟩, ⟨by simp [layerWidth, hX], fun b => ⟨packedSeq_length ls X.at b, fun t ht k _ => by
      exact (congrFun (packedSeq_getElem ls X.at b t ht) k).symm⟩⟩, rfl, fun j hj => absurd hj (Nat.not_lt_zero j)⟩ (by
      rintro i hi ⟨Z, p, all⟩ ⟨hp, hr, hZX, hZ, hl, hall⟩
      rw [List.length_range] at hi
      rw [List.getElem_range]
      simp only at hp hr hZX hZ hl hall
      subst hp
      obtain ⟨H, Ts, e, hT, hside, hHr, hH⟩ := lstmLayerStep_ok ⟨size, params⟩ h c nI nO dirs depth i hi (layerWidth_pos hI hO hd i) hO Z ls hne hls
        (by rw [hsum, hr]) (by rw [hr]; exact hpos) hsize _ hZ all
      refine ⟨_, e, rfl, by simp only; rw [hHr, hr], ⟨fun h => absurd h (Nat.succ_ne_zero i), fun _ => ?_⟩, ?_, ?_, ?_⟩
      · simp only [Nat.add_sub_cancel]
        rw [List.getD_append_right _ _ _ _ (by omega), hl, Nat.sub_self, List.getD_cons_zero, ← hr]
        exact hside
      · rw [layerWidth_succ]
        exact hH
      · simp [hl]
      · intro j hj
        simp only [List.length_append, List.length_singleton, hl] at hj
        rcases Nat.lt_or_ge j i with hji | hji
        · simp only
          rw [List.getElem_append_left (by omega)]
          obtain ⟨Z', h1, h2, h3, h4⟩ := hall j (by omega)
          refine ⟨Z', h1, h2, fun h0 => ?_, h4⟩
          rw [List.getD_append _ _ _ _ (by omega)]
          exact h3 h0
        · have : j = i := by omega
          subst this
          refine ⟨Z, hr, hZX.1, fun h0 => ?_, hZ, ?_⟩
          · simp only
            rw [List.getD_append _ _ _ _ (by omega)]
            exact hZX.2 h0
          simp only
          rw [List.getElem_append_right (by omega)]
          simpa [hl] using hT)
  rw [List.length_range] at hs
  refine ⟨s.1, s.2.2, ?_, hs.2.1, hs.2.2.2.1, hs.2.2.2.2⟩
  unfold lstmForward
  simp only [bind, Except.bind, pure, Except.pure, es]

end Thinc
