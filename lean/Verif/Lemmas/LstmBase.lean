import Verif.Spec.LstmBase
import Verif.Model.LstmBase
import Verif.Lemmas.LstmBackStack
/-!
# The forward pass of the base class
-/
namespace Thinc
open Spec

theorem baseSigmoid_eq (x : ℝ) : baseSigmoid x = clippedLogit x := rfl

theorem setRows_at (A : Mat ℝ) (start n : ℕ) (f : ℕ → ℕ → ℝ) (i j : ℕ) (hj : j < A.cols) :
    (A.setRows start n f).at i j = if start ≤ i ∧ i < start + n then f (i - start) j else A.at i j := by
  unfold Mat.setRows
  rw [ofFn_at _ _ _ _ _ hj]

/-- The state of the loop: the shapes, and the one row of `Yt2` and `Ct2`. -/
structure BaseOk (N nO : ℕ) (st : (ℕ → ℝ) × (ℕ → ℝ)) (s : BaseState) : Prop where
  Gr : s.G.rows = N
  Gc : s.G.cols = nO * 4
  Yr : s.Y.rows = N
  Yc : s.Y.cols = nO
  hr : s.Yt2.rows = 1
  h : ∀ o < nO, s.Yt2.at 0 o = st.1 o
  c : ∀ o < nO, s.Ct2.at 0 o = st.2 o

variable {nI nO : ℕ} {w : GateWeights} {cw : CellWeights}

/-- The row of `G` before the step. -/
def BaseRow (cw : CellWeights) (nI nO : ℕ) (X : Mat ℝ) (s : BaseState) (n : ℕ) : Prop :=
  ∀ g < 4, ∀ o < nO, s.G.at n (4 * o + g) = ∑ k ∈ Finset.range nI, cw.Wx g o k * X.at n k + (cw.bx g o + cw.bh g o)

theorem baseStep_ok (hw : GatesOf w cw nI nO) (hs : WeightShape w nI nO) (N : ℕ) (X : Mat ℝ) (st : (ℕ → ℝ) × (ℕ → ℝ)) (s : BaseState)
    (hok : BaseOk N nO st s) (e : ℕ × ℕ) (he : 0 < e.2) (hN : e.1 < N) (hG : BaseRow cw nI nO X s e.1) :
    ∃ s', baseStep nO w.Wh s e = .ok s' ∧ BaseOk N nO (lstmCellWith clippedLogit cw nI nO st (X.at e.1)) s' ∧
      (∀ n, ∀ o < nO, s'.Y.at n o = if n = e.1 then (lstmCellWith clippedLogit cw nI nO st (X.at e.1)).1 o else s.Y.at n o) ∧
      ∀ n, n ≠ e.1 → ∀ j < nO * 4, s'.G.at n j = s.G.at n j := by
  have hmin : min s.Yt2.rows e.2 = 1 := by rw [hok.hr]; omega
  have hgate : ∀ g < 4, ∀ o < nO, baseGate nO w.Wh s e.1 0 (4 * o + g) = gate cw nI nO st.1 (X.at e.1) g o := by
    intro g hg o ho
    unfold baseGate gate
    rw [Nat.add_zero, hG g hg o ho]
    have hh : ∑ k ∈ Finset.range nO, s.Yt2.at 0 k * w.Wh.at (4 * o + g) k = ∑ k ∈ Finset.range nO, cw.Wh g o k * st.1 k := by
      refine Finset.sum_congr rfl fun k hk => ?_
      have hk' := Finset.mem_range.1 hk
      have e1 : w.Wh.at (4 * o + g) k = cw.Wh g o k := by
        rw [← hw.Wh g hg o ho k hk']
        unfold Mat.at
        rw [hs.hc]
        rfl
      rw [hok.h k hk', e1, mul_comm]
    rw [hh]
    ring
  have hcell : ∀ o < nO, baseCell nO w.Wh s e.1 0 o = (lstmCellWith clippedLogit cw nI nO st (X.at e.1)).2 o := by
    intro o ho
    unfold baseCell
    rw [hgate 0 (by omega) o ho, hgate 1 (by omega) o ho, hgate 3 (by omega) o ho, hok.c o ho]
    rfl
  have hhid : ∀ o < nO, baseHidden nO w.Wh s e.1 0 o = (lstmCellWith clippedLogit cw nI nO st (X.at e.1)).1 o := by
    intro o ho
    unfold baseHidden
    rw [hgate 2 (by omega) o ho, hcell o ho, mul_comm]
    rfl
  apply Exists.intro
  refine ⟨?_, ?_, ?_, ?_⟩
  · unfold baseStep
    rw [hmin]
    simp only
    rw [if_neg (by rw [hok.Gr]; omega)]
  · refine ⟨hok.Gr, hok.Gc, hok.Yr, hok.Yc, rfl, fun o ho => ?_, fun o ho => ?_⟩
    · simp only
      rw [ofFn_at _ _ _ _ _ ho, hhid o ho]
    · simp only
      rw [ofFn_at _ _ _ _ _ ho, hcell o ho]
  · intro n o ho
    simp only
    rw [setRows_at _ _ _ _ _ _ (by rw [hok.Yc]; exact ho)]
    by_cases hn : n = e.1
    · subst hn
      rw [if_pos (by omega), if_pos rfl, Nat.sub_self, hhid o ho]
    · rw [if_neg (by omega), if_neg hn]
  · intro n hn j hj
    simp only
    rw [setRows_at _ _ _ _ _ _ (by rw [hok.Gc]; exact hj), if_neg (by omega)]

/-- The states after the rows of some pairs. -/
noncomputable def baseRead (cw : CellWeights) (nI nO : ℕ) (X : Mat ℝ) (st : (ℕ → ℝ) × (ℕ → ℝ)) (es : List (ℕ × ℕ)) : (ℕ → ℝ) × (ℕ → ℝ) :=
  lstmReadWith clippedLogit cw nI nO st (es.map fun e => X.at e.1)

theorem baseRead_cons (cw : CellWeights) (nI nO : ℕ) (X : Mat ℝ) (st : (ℕ → ℝ) × (ℕ → ℝ)) (e : ℕ × ℕ) (es : List (ℕ × ℕ)) :
    baseRead cw nI nO X st (e :: es) = baseRead cw nI nO X (lstmCellWith clippedLogit cw nI nO st (X.at e.1)) es := rfl

theorem baseLoop_ok (hw : GatesOf w cw nI nO) (hs : WeightShape w nI nO) (N : ℕ) (X : Mat ℝ) (es : List (ℕ × ℕ))
    (hnd : (es.map Prod.fst).Nodup) (hes : ∀ e ∈ es, 0 < e.2 ∧ e.1 < N) (st : (ℕ → ℝ) × (ℕ → ℝ)) (s : BaseState) (hok : BaseOk N nO st s)
    (hG : ∀ e ∈ es, BaseRow cw nI nO X s e.1) :
    ∃ s', forM' es s (baseStep nO w.Wh) = .ok s' ∧ s'.Y.rows = N ∧ s'.Y.cols = nO ∧
      (∀ pre e post, es = pre ++ e :: post → ∀ o < nO, s'.Y.at e.1 o = (baseRead cw nI nO X st (pre ++ [e])).1 o) ∧
      ∀ n, n ∉ es.map Prod.fst → ∀ o < nO, s'.Y.at n o = s.Y.at n o := by
  induction es generalizing st s with
  | nil => exact ⟨s, rfl, hok.Yr, hok.Yc, fun pre e post h => absurd h (by simp), fun _ _ _ _ => rfl⟩
  | cons a es ih =>
    obtain ⟨s1, e1, ok1, hY1, hG1⟩ := baseStep_ok hw hs N X st s hok a (hes a List.mem_cons_self).1 (hes a List.mem_cons_self).2
      (hG a List.mem_cons_self)
    rw [List.map_cons, List.nodup_cons] at hnd
    obtain ⟨s2, e2, hr, hc, h3, h4⟩ := ih hnd.2 (fun e he => hes e (List.mem_cons_of_mem _ he)) _ s1 ok1 fun e he g hg o ho => by
      have hne : e.1 ≠ a.1 := fun h => hnd.1 (by rw [← h]; exact List.mem_map_of_mem he)
      rw [hG1 e.1 hne _ (by omega)]
      exact hG e (List.mem_cons_of_mem _ he) g hg o ho
    refine ⟨s2, by simp only [forM', e1]; exact e2, hr, hc, ?_, ?_⟩
    · intro pre e post hsplit o ho
      cases pre with
      | nil =>
        simp only [List.nil_append, List.cons.injEq] at hsplit
        obtain ⟨rfl, rfl⟩ := hsplit
        rw [h4 a.1 hnd.1 o ho, hY1 a.1 o ho, if_pos rfl]
        rfl
      | cons b pre =>
        simp only [List.cons_append, List.cons.injEq] at hsplit
        obtain ⟨rfl, hsplit⟩ := hsplit
        rw [h3 pre e post hsplit o ho, List.cons_append, baseRead_cons]
    · intro n hn o ho
      rw [List.map_cons, List.mem_cons, not_or] at hn
      rw [h4 n hn.2 o ho, hY1 n o ho, if_neg hn.1]

/-! ### One direction -/

theorem indices_map (ls : List ℕ) : lstmIndices 0 ls = (List.range ls.length).map fun t => (packedRow ls t 0, ls.getD t 0) := by
  refine List.ext_getElem (by rw [lstmIndices_length, List.length_map, List.length_range]) fun t h1 h2 => ?_
  rw [lstmIndices_getElem, List.getElem_map, List.getElem_range]
  simp [packedRow]

theorem packedRow_inj (ls : List ℕ) (hp : ∀ n ∈ ls, 0 < n) {t u b : ℕ} (hb : b < ls.getD t 0) (hu : u < ls.length)
    (h : packedRow ls t b = packedRow ls u 0) : t = u ∧ b = 0 := by
  have hu0 : 0 < ls.getD u 0 := by
    rw [List.getD_eq_getElem _ _ hu]
    exact hp _ (List.getElem_mem hu)
  unfold packedRow at h
  rcases Nat.lt_trichotomy t u with htu | htu | htu
  · have := take_sum_mono ls (show t + 1 ≤ u from htu)
    rw [take_sum_succ] at this
    omega
  · subst htu
    exact ⟨rfl, by omega⟩
  · have := take_sum_mono ls (show u + 1 ≤ t from htu)
    rw [take_sum_succ] at this
    omega

theorem packedLength_zero (ls : List ℕ) (hp : ∀ n ∈ ls, 0 < n) : packedLength ls 0 = ls.length := by
  unfold packedLength
  rw [List.countP_eq_length]
  intro n hn
  simpa using hp n hn

/-- What one direction computes. -/
structure BaseDone (rev : Bool) (cw : CellWeights) (nI nO : ℕ) (s0 : (ℕ → ℝ) × (ℕ → ℝ)) (X : Mat ℝ) (ls : List ℕ) (T : LstmTrace) : Prop where
  first : ∀ t < ls.length, ∀ o < nO, T.Y.val (packedRow ls t 0 * nO + o) =
    lstmOutputWith clippedLogit rev cw nI nO s0 (packedSeq ls X.at 0) t o
  others : ∀ t b, 0 < b → b < ls.getD t 0 → ∀ o < nO, T.Y.val (packedRow ls t b * nO + o) = 0

theorem baseDirection_ok (rev : Bool) (hw : GatesOf w cw nI nO) (hs : WeightShape w nI nO) (hInit cInit : ℕ → ℝ) (X : Mat ℝ) (hX : X.cols = nI)
    (ls : List ℕ) (hp : ∀ n ∈ ls, 0 < n) (hsum : ls.sum = X.rows) :
    ∃ T, baseDirection rev nO X w hInit cInit ls = .ok T ∧ BaseDone rev cw nI nO (hInit, cInit) X ls T := by
  let idx := fun t => (packedRow ls t 0, ls.getD t 0)
  have hidx : lstmIndices 0 ls = (List.range ls.length).map idx := indices_map ls
  have hget : ∀ t < ls.length, 0 < ls.getD t 0 := fun t ht => by
    rw [List.getD_eq_getElem _ _ ht]
    exact hp _ (List.getElem_mem ht)
  set es := if rev then (lstmIndices 0 ls).reverse else lstmIndices 0 ls with hes
  have hmem : ∀ e, e ∈ es ↔ ∃ t < ls.length, e = idx t := by
    intro e
    have : e ∈ es ↔ e ∈ lstmIndices 0 ls := by rw [hes]; cases rev <;> simp
    rw [this, hidx, List.mem_map]
    simp only [List.mem_range]
    exact ⟨fun ⟨t, h1, h2⟩ => ⟨t, h1, h2.symm⟩, fun ⟨t, h1, h2⟩ => ⟨t, h1, h2.symm⟩⟩
  have hnd : (es.map Prod.fst).Nodup := by
    have h0 : ((lstmIndices 0 ls).map Prod.fst).Nodup := by
      rw [hidx, List.map_map]
      refine List.Nodup.map_on (fun t ht u hu h => ?_) List.nodup_range
      exact (packedRow_inj ls hp (hget t (List.mem_range.1 ht)) (List.mem_range.1 hu) h).1
    rw [hes]
    cases rev
    · simpa using h0
    · simpa [List.map_reverse] using h0
  let s0 : BaseState := ⟨Mat.ofFn X.rows (nO * 4) fun n j => 0 + ∑ k ∈ Finset.range X.cols, X.at n k * w.Wx.at j k + w.bias.at 0 j,
    Mat.zeros X.rows nO, Mat.zeros X.rows nO, ⟨1, nO, hInit⟩, ⟨1, nO, cInit⟩⟩
  have hat0 : ∀ (f : ℕ → ℝ) (o : ℕ), (Mat.mk 1 nO f).at 0 o = f o := fun f o => by
    show f (0 * nO + o) = f o
    rw [zero_mul, zero_add]
  have hok : BaseOk X.rows nO (hInit, cInit) s0 := ⟨rfl, rfl, rfl, rfl, rfl, fun o _ => hat0 _ o, fun o _ => hat0 _ o⟩
  have hG : ∀ n, BaseRow cw nI nO X s0 n := by
    intro n g hg o ho
    show (Mat.ofFn X.rows (nO * 4) fun n j => 0 + ∑ k ∈ Finset.range X.cols, X.at n k * w.Wx.at j k + w.bias.at 0 j).at n (4 * o + g) = _
    rw [ofFn_at _ _ _ _ _ (by omega), hw.bias g hg o ho, zero_add, hX]
    congr 1
    refine Finset.sum_congr rfl fun k hk => ?_
    rw [← hw.Wx g hg o ho k (Finset.mem_range.1 hk), mul_comm]
    congr 1
    unfold Mat.at
    rw [hs.xc]
    rfl
  obtain ⟨s, e, hr, hc, h3, h4⟩ := baseLoop_ok hw hs X.rows X es hnd (fun e he => by
    obtain ⟨t, ht, rfl⟩ := (hmem e).1 he
    exact ⟨hget t ht, by rw [← hsum]; exact packedRow_lt ls (hget t ht)⟩) (hInit, cInit) s0 hok fun e _ => hG e.1
  have hval : ∀ n o, s.Y.buf.val (n * nO + o) = s.Y.at n o := fun n o => by
    unfold Mat.at
    rw [hc]
    rfl
  refine ⟨⟨s.Y.buf, s.G.buf, s.C.buf⟩, ?_, ⟨fun t ht o ho => ?_, fun t b hb hbt o ho => ?_⟩⟩
  · unfold baseDirection
    simp only [bind, Except.bind, pure, Except.pure]
    rw [show forM' es s0 (baseStep nO w.Wh) = .ok s from e]
  · simp only
    have hseq : packedSeq ls X.at 0 = (lstmIndices 0 ls).map fun e => X.at e.1 := by
      unfold packedSeq
      rw [packedLength_zero ls hp, hidx, List.map_map]
      rfl
    have hlt : t < (lstmIndices 0 ls).length := by rw [lstmIndices_length]; exact ht
    have hgt : (lstmIndices 0 ls)[t] = idx t := by
      have : (lstmIndices 0 ls)[t]? = some (idx t) := by rw [hidx, List.getElem?_map, List.getElem?_range ht]; rfl
      rw [List.getElem?_eq_getElem hlt] at this
      exact Option.some.inj this
    have hsplit : lstmIndices 0 ls = (lstmIndices 0 ls).take t ++ idx t :: (lstmIndices 0 ls).drop (t + 1) := by
      rw [← hgt, ← List.drop_eq_getElem_cons hlt, List.take_append_drop]
    rw [hval]
    cases hrev : rev with
    | false =>
      have hes' : es = lstmIndices 0 ls := by rw [hes, hrev]; rfl
      rw [h3 _ (idx t) _ (hes'.trans hsplit) o ho]
      unfold baseRead lstmOutputWith
      rw [hseq, if_neg (by simp)]
      congr 2
      rw [← List.map_take, List.take_succ_eq_append_getElem hlt, hgt]
    | true =>
      have hes' : es = (lstmIndices 0 ls).reverse := by rw [hes, hrev]; rfl
      have hsp : es = ((lstmIndices 0 ls).drop (t + 1)).reverse ++ idx t :: ((lstmIndices 0 ls).take t).reverse := by
        rw [hes']
        conv_lhs => rw [hsplit]
        simp
      rw [h3 _ (idx t) _ hsp o ho]
      unfold baseRead lstmOutputWith
      rw [hseq, if_pos rfl]
      congr 2
      rw [← List.map_drop, ← List.map_reverse, List.drop_eq_getElem_cons hlt, hgt, List.reverse_cons]
  · simp only
    rw [hval, h4 (packedRow ls t b) (fun hmem' => ?_) o ho]
    · rfl
    · obtain ⟨e, he, h⟩ := List.mem_map.1 hmem'
      obtain ⟨u, hu, rfl⟩ := (hmem e).1 he
      have := (packedRow_inj ls hp hbt hu h.symm).2
      omega

/-! ### All layers -/

/-- The first sequence is what the specification says. -/
def FirstIs (ls : List ℕ) (X : Mat ℝ) (width : ℕ) (spec : List (ℕ → ℝ)) : Prop :=
  X.cols = width ∧ spec.length = ls.length ∧ ∀ t < ls.length, ∀ k < width, X.at (packedRow ls t 0) k = spec.getD t 0 k

theorem lstmCellWith_congr (σ : ℝ → ℝ) (w : CellWeights) (nI nO : ℕ) (s : (ℕ → ℝ) × (ℕ → ℝ)) {x y : ℕ → ℝ} (h : ∀ k < nI, x k = y k) :
    lstmCellWith σ w nI nO s x = lstmCellWith σ w nI nO s y := by
  have hg : ∀ g o, gate w nI nO s.1 x g o = gate w nI nO s.1 y g o := by
    intro g o
    unfold gate
    rw [Finset.sum_congr rfl fun k hk => by rw [h k (Finset.mem_range.1 hk)]]
  unfold lstmCellWith
  simp only [hg]

theorem lstmReadWith_congr (σ : ℝ → ℝ) (w : CellWeights) (nI nO : ℕ) {xs ys : List (ℕ → ℝ)}
    (h : List.Forall₂ (fun x y => ∀ k < nI, x k = y k) xs ys) (s : (ℕ → ℝ) × (ℕ → ℝ)) :
    lstmReadWith σ w nI nO s xs = lstmReadWith σ w nI nO s ys := by
  induction h generalizing s with
  | nil => rfl
  | cons hxy _ ih =>
    unfold lstmReadWith at ih ⊢
    rw [List.foldl_cons, List.foldl_cons, lstmCellWith_congr σ w nI nO s hxy]
    exact ih _

theorem lstmOutputWith_congr (σ : ℝ → ℝ) (rev : Bool) (w : CellWeights) (nI nO : ℕ) {xs ys : List (ℕ → ℝ)}
    (h : List.Forall₂ (fun x y => ∀ k < nI, x k = y k) xs ys) (s : (ℕ → ℝ) × (ℕ → ℝ)) (t : ℕ) :
    lstmOutputWith σ rev w nI nO s xs t = lstmOutputWith σ rev w nI nO s ys t := by
  unfold lstmOutputWith
  refine congrArg Prod.fst (lstmReadWith_congr σ w nI nO ?_ s)
  cases rev
  · simpa using forall₂_take h (t + 1)
  · simpa using List.rel_reverse (forall₂_drop h t)

theorem FirstIs.forall₂ {ls : List ℕ} (hp : ∀ n ∈ ls, 0 < n) {X : Mat ℝ} {width : ℕ} {spec : List (ℕ → ℝ)} (h : FirstIs ls X width spec) :
    List.Forall₂ (fun x y => ∀ k < width, x k = y k) (packedSeq ls X.at 0) spec := by
  rw [List.forall₂_iff_get]
  refine ⟨by rw [packedSeq_length, packedLength_zero ls hp, h.2.1], fun t h1 h2 k hk => ?_⟩
  rw [List.get_eq_getElem, List.get_eq_getElem, packedSeq_getElem, h.2.2 t (by rw [← h.2.1]; exact h2) k hk, List.getD_eq_getElem _ _ h2]

/-- The rows of all other sequences are zero. -/
def OthersZero (ls : List ℕ) (X : Mat ℝ) (width : ℕ) : Prop := ∀ t b, 0 < b → b < ls.getD t 0 → ∀ k < width, X.at (packedRow ls t b) k = 0

theorem baseDirs_ok (params : Buf ℝ) (h c : ℕ → ℝ) (nI nO dirs depth i : ℕ) (hi : i < depth) (hW : 0 < layerWidth nI nO dirs i) (hO : 0 < nO)
    (X : Mat ℝ) (hX : X.cols = layerWidth nI nO dirs i) (ls : List ℕ) (hp : ∀ n ∈ ls, 0 < n) (hsum : ls.sum = X.rows)
    (hsize : cellStart nI nO dirs depth 0 ≤ params.size) :
    ∃ Ts, forM' (List.range dirs) (cellStart nI nO dirs i 0, []) (baseDir params h c dirs nO X ls i) = .ok (cellStart nI nO dirs (i + 1) 0, Ts) ∧
      Ts.length = dirs ∧ ∀ d (hd : d < Ts.length), BaseDone (d ≠ 0) (stackWeights params.val nI nO dirs i d) (layerWidth nI nO dirs i) nO
        (initStates h c dirs nO i d) X ls Ts[d] := by
  obtain ⟨s, es, hs1, hs2, hs3⟩ := forM'_inv (List.range dirs) (baseDir params h c dirs nO X ls i)
    (fun d s => s.1 = cellStart nI nO dirs i d ∧ s.2.length = d ∧ ∀ d (hd : d < s.2.length), BaseDone (d ≠ 0)
      (stackWeights params.val nI nO dirs i d) (layerWidth nI nO dirs i) nO (initStates h c dirs nO i d) X ls s.2[d]) (cellStart nI nO dirs i 0, [])
    ⟨rfl, rfl, fun d hd => absurd hd (Nat.not_lt_zero d)⟩ (by
      rintro d hd ⟨p, Ts⟩ ⟨hp', hl, hT⟩
      rw [List.length_range] at hd
      rw [List.getElem_range]
      simp only at hp' hl hT
      subst hp'
      obtain ⟨sw, w, e1, e2, hw, hsh⟩ := weights_shape params (layerWidth nI nO dirs i) nO (cellStart nI nO dirs i d) hW hO
        ((cellStart_le nI nO dirs hi hd).trans hsize)
      obtain ⟨T, e3, hT'⟩ := baseDirection_ok (decide (d ≠ 0)) hw hsh (initStates h c dirs nO i d).1 (initStates h c dirs nO i d).2 X hX ls hp hsum
      refine ⟨(cellStart nI nO dirs i (d + 1), Ts ++ [T]), ?_, rfl, ?_, ?_⟩
      · unfold baseDir
        simp only [hX, e1, e2, bind, Except.bind, pure, Except.pure]
        rw [show (fun o => h ((i * dirs + d) * nO + o)) = (initStates h c dirs nO i d).1 from rfl,
          show (fun o => c ((i * dirs + d) * nO + o)) = (initStates h c dirs nO i d).2 from rfl, e3, cellStart_succ]
      · simp [hl]
      · intro e he
        simp only [List.length_append, List.length_singleton, hl] at he
        rcases Nat.lt_or_ge e d with hed | hed
        · simp only
          rw [List.getElem_append_left (by omega)]
          exact hT e (by omega)
        · have : e = d := by omega
          subst this
          simp only
          rw [List.getElem_append_right (by omega)]
          simpa [hl, stackWeights] using hT')
  rw [List.length_range] at hs1 hs2
  refine ⟨s.2, ?_, hs2, hs3⟩
  rw [es, cellStart_next, ← hs1]

theorem lstmLayerWith_getD (σ : ℝ → ℝ) (w : ℕ → CellWeights) (s : ℕ → (ℕ → ℝ) × (ℕ → ℝ)) (nI nO : ℕ) (xs : List (ℕ → ℝ)) (t : ℕ)
    (ht : t < xs.length) : (lstmLayerWith σ w s nI nO xs).getD t 0 =
      fun k => lstmOutputWith σ (k / nO ≠ 0) (w (k / nO)) nI nO (s (k / nO)) xs t (k % nO) := by
  unfold lstmLayerWith
  rw [List.getD_eq_getElem?_getD, List.getElem?_map, List.getElem?_range ht]
  rfl

theorem baseLayerStep_ok (params : Buf ℝ) (h c : ℕ → ℝ) (nI nO dirs depth i : ℕ) (hi : i < depth) (hW : 0 < layerWidth nI nO dirs i)
    (hO : 0 < nO) (X : Mat ℝ) (ls : List ℕ) (hp : ∀ n ∈ ls, 0 < n) (hsum : ls.sum = X.rows) (hpos : 0 < X.rows)
    (hsize : cellStart nI nO dirs depth 0 ≤ params.size) (spec : List (ℕ → ℝ)) (hspec : FirstIs ls X (layerWidth nI nO dirs i) spec)
    (all : List (List LstmTrace)) :
    ∃ H Ts, baseLayerStep params h c dirs nO ls (X, cellStart nI nO dirs i 0, all) i = .ok (H, cellStart nI nO dirs (i + 1) 0, all ++ [Ts]) ∧
      Ts.length = dirs ∧ H.rows = X.rows ∧ OthersZero ls H (dirs * nO) ∧
      FirstIs ls H (dirs * nO) (lstmLayerWith clippedLogit (stackWeights params.val nI nO dirs i) (initStates h c dirs nO i)
        (layerWidth nI nO dirs i) nO spec) := by
  obtain ⟨Ts, e, hl, hT⟩ := baseDirs_ok params h c nI nO dirs depth i hi hW hO X hspec.1 ls hp hsum hsize
  let H : Mat ℝ := Mat.ofFn X.rows (Ts.length * nO) fun n k => (Ts.map fun T => T.Y.val (n * nO + k % nO)).getD (k / nO) 0
  have hH : ∀ n, ∀ k (hk : k < dirs * nO), H.at n k = (Ts[k / nO]'(by rw [hl]; exact div_lt_dirs hk)).Y.val (n * nO + k % nO) := by
    intro n k hk
    show (Mat.ofFn X.rows (Ts.length * nO) fun n k => (Ts.map fun T => T.Y.val (n * nO + k % nO)).getD (k / nO) 0).at n k = _
    rw [ofFn_at _ _ _ _ _ (by rw [hl]; exact hk), List.getD_eq_getElem?_getD, List.getElem?_map,
      List.getElem?_eq_getElem (by rw [hl]; exact div_lt_dirs hk)]
    rfl
  refine ⟨H, Ts, ?_, hl, rfl, fun t b hb hbt k hk => ?_, by show Ts.length * nO = _; rw [hl], by simp [lstmLayerWith, hspec.2.1], fun t ht k hk => ?_⟩
  · unfold baseLayerStep sideBySide
    simp only [bind, Except.bind, pure, Except.pure, e, Nat.pos_iff_ne_zero.1 hpos, if_false]
    rfl
  · rw [hH _ k hk]
    exact (hT (k / nO) _).others t b hb hbt _ (Nat.mod_lt _ hO)
  · rw [hH _ k hk, (hT (k / nO) _).first t ht _ (Nat.mod_lt _ hO), lstmLayerWith_getD _ _ _ _ _ _ _ (by rw [hspec.2.1]; exact ht),
      lstmOutputWith_congr _ _ _ _ _ (hspec.forall₂ hp)]

theorem baseForward_ok (params c h : ℕ → ℝ) (size depth dirs nO nI : ℕ) (X : Mat ℝ) (ls : List ℕ) (hI : 0 < nI) (hO : 0 < nO) (hd : 0 < dirs)
    (hdep : 0 < depth) (hX : X.cols = nI) (hpos : 0 < X.rows) (hp : ∀ n ∈ ls, 0 < n) (hsum : ls.sum = X.rows)
    (hsize : cellStart nI nO dirs depth 0 ≤ size) :
    ∃ H all, baseForward params c h size depth dirs nO X ls = .ok (H, all) ∧ H.rows = X.rows ∧ OthersZero ls H (dirs * nO) ∧
      FirstIs ls H (dirs * nO)
        (lstmStackWith clippedLogit (stackWeights params nI nO dirs) (initStates h c dirs nO) nI nO dirs (packedSeq ls X.at 0) depth) ∧
      all.length = depth ∧ ∀ Ts ∈ all, Ts.length = dirs := by
  have hfirst : ∃ n, firstLength ls = .ok n := by
    cases ls with
    | nil => simp at hsum; omega
    | cons n _ => exact ⟨n, rfl⟩
  obtain ⟨n0, e0⟩ := hfirst
  obtain ⟨s, es, h1, h2, h3, h4, h5, h6⟩ := forM'_inv (List.range depth) (baseLayerStep ⟨size, params⟩ h c dirs nO ls)
    (fun i s => s.2.1 = cellStart nI nO dirs i 0 ∧ s.1.rows = X.rows ∧ (0 < i → OthersZero ls s.1 (dirs * nO)) ∧
      FirstIs ls s.1 (layerWidth nI nO dirs i)
        (lstmStackWith clippedLogit (stackWeights params nI nO dirs) (initStates h c dirs nO) nI nO dirs (packedSeq ls X.at 0) i) ∧
      s.2.2.length = i ∧ ∀ Ts ∈ s.2.2, Ts.length = dirs) (X, 0, [])
    ⟨by simp [cellStart], rfl, fun h => absurd h (Nat.lt_irrefl 0), ⟨by simp [layerWidth, hX], by
      show (packedSeq ls X.at 0).length = _
      rw [packedSeq_length, packedLength_zero ls hp], fun t ht k _ => by
        show _ = (packedSeq ls X.at 0).getD t 0 k
        have hlt : t < (packedSeq ls X.at 0).length := by rw [packedSeq_length, packedLength_zero ls hp]; exact ht
        rw [List.getD_eq_getElem _ _ hlt, packedSeq_getElem]⟩, rfl, fun Ts hTs => absurd hTs (by simp)⟩ (by
      rintro i hi ⟨Z, p, all⟩ ⟨hp', hr, _, hZ, hl, hall⟩
      rw [List.length_range] at hi
      rw [List.getElem_range]
      simp only at hp' hr hZ hl hall
      subst hp'
      obtain ⟨H, Ts, e, hT, hHr, hz, hH⟩ := baseLayerStep_ok ⟨size, params⟩ h c nI nO dirs depth i hi (layerWidth_pos hI hO hd i) hO Z ls hp
        (by rw [hsum, hr]) (by rw [hr]; exact hpos) hsize _ hZ all
      refine ⟨_, e, rfl, by simp only; rw [hHr, hr], fun _ => hz, ?_, by simp [hl], ?_⟩
      · rw [layerWidth_succ]
        exact hH
      · intro Ts' hTs'
        rcases List.mem_append.1 hTs' with h | h
        · exact hall Ts' h
        · rw [List.mem_singleton.1 h]
          exact hT)
  rw [List.length_range] at h3 h4 h5
  obtain ⟨k, rfl⟩ : ∃ k, depth = k + 1 := ⟨depth - 1, by omega⟩
  rw [layerWidth_succ] at h4
  refine ⟨s.1, s.2.2, ?_, h2, h3 hdep, h4, h5, h6⟩
  unfold baseForward
  simp only [bind, Except.bind, pure, Except.pure, e0, es]

end Thinc
