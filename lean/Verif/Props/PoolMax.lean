import Verif.Lemmas.PoolMax
import Verif.Props.Pooling
/-!
# C38 Max pooling
-/
namespace Thinc
open Finset Spec
variable {K : Type}

theorem rows_pos_of_sum {K : Type} (X : Mat K) (ls : List Nat) (hpos : ∀ l ∈ ls, 0 < l)
    (hsum : ls.sum ≤ X.rows) (hls : ls ≠ []) : 0 < X.rows := by
  cases ls with
  | nil => exact absurd rfl hls
  | cons l ls =>
    have := hpos l (by simp)
    rw [List.sum_cons] at hsum
    omega

/-- **C38** (`reduce_max`): for non-empty sequences the result holds every sequence's column maximum,
and `which` the first row of the sequence where it is attained; whatever was in the uninitialised
result array. -/
theorem C38_reduce_max [LinearOrder K] [Zero K] (junk : Nat → K) (X : Mat K) (ls : List Nat)
    (hpos : ∀ l ∈ ls, 0 < l) (hsum : ls.sum ≤ X.rows) :
    ∃ Y W, reduceMax junk X (asInts ls) = .ok (Y, W) ∧
      Y.rows = ls.length ∧ Y.cols = X.cols ∧ W.rows = ls.length ∧ W.cols = X.cols ∧
      ∀ b < ls.length, ∀ o < X.cols, ∃ w : Nat,
        firstMax (fun t => seqAt X ls b t o) (seqLen ls b) w ∧
        Y.at b o = seqAt X ls b w o ∧ W.at b o = (w : Int) := by
  unfold reduceMax
  rw [asInts_length]
  by_cases h0 : ls.length = 0 ∨ X.cols = 0
  · rw [if_pos h0]
    exact ⟨_, _, rfl, rfl, rfl, rfl, rfl, fun b hb o ho => by omega⟩
  · rw [if_neg h0]
    have hr := rows_pos_of_sum X ls hpos hsum (fun h => h0 (.inl (by rw [h]; rfl)))
    rw [pointer_ok X hr (by omega)]
    obtain ⟨s, h1, _, h3⟩ := max_loop X.buf ⟨ls.length * X.cols, junk⟩
      (Mat.zeros ls.length X.cols).buf X.cols X.rows ls rfl hsum hpos le_rfl le_rfl (fun _ => rfl)
    simp only [cpuReduceMax, bind, Except.bind, pure, Except.pure, h1]
    exact ⟨_, _, rfl, rfl, rfl, rfl, rfl, h3⟩

example : (∀ l ∈ [1, 2], 0 < l) ∧ [1, 2].sum ≤ exPool.rows := by decide

/-- **C38**: an empty (or negative) length, and lengths that reach past the last row, are rejected
(after a prefix `ls` of good lengths). -/
theorem C38_bad_lengths_raise [LinearOrder K] [Zero K] (junk : Nat → K) (X : Mat K) (ls : List Nat)
    (bad : Int) (rest : List Int) (hrows : 0 < X.rows) (hcols : 0 < X.cols) (hpos : ∀ l ∈ ls, 0 < l)
    (hsum : ls.sum ≤ X.rows) :
    (bad ≤ 0 → reduceMax junk X (asInts ls ++ bad :: rest) = .error .valueError) ∧
    (0 < bad → (X.rows : Int) - ls.sum < bad →
      reduceMax junk X (asInts ls ++ bad :: rest) = .error .indexError) := by
  have h0 : ¬ ((asInts ls ++ bad :: rest).length = 0 ∨ X.cols = 0) := by
    simp only [List.length_append, List.length_cons]
    omega
  have hlen : ls.length * X.cols ≤ (asInts ls ++ bad :: rest).length * X.cols := by
    refine Nat.mul_le_mul_right _ ?_
    rw [List.length_append, asInts_length]
    omega
  obtain ⟨s, h1, h2, _⟩ := max_loop X.buf ⟨(asInts ls ++ bad :: rest).length * X.cols, junk⟩
      (Mat.zeros (asInts ls ++ bad :: rest).length X.cols).buf X.cols X.rows ls rfl hsum hpos hlen hlen
      (fun _ => rfl)
  unfold reduceMax
  rw [if_neg h0, pointer_ok X hrows hcols]
  simp only [bind, Except.bind, cpuReduceMax]
  rw [forM'_append, h1]
  constructor
  · intro hb
    simp only [forM', reduceMaxStep, if_pos hb]
  · intro hb hb2
    have h4 : ¬ bad ≤ 0 := by omega
    have h5 : bad > s.T := by omega
    simp only [forM', reduceMaxStep, if_neg h4, if_pos h5]

example : 0 < exPool.rows ∧ 0 < exPool.cols ∧ [1].sum ≤ exPool.rows ∧
    ((exPool.rows : Int) - ([1].sum : Nat) < 3) := by decide

/-- **C38** (`backprop_reduce_max`): with non-negative indices, all of them inside their sequence, the
gradient goes to exactly the row named by `which` and every other entry is zero; if one of them is not
inside its sequence the function raises IndexError. -/
theorem C38_backprop_reduce_max_partial [Zero K] (d : Mat K) (W : Mat Int) (ls : List Nat)
    (hpos : ∀ l ∈ ls, 0 < l) (hd : d.rows = ls.length) (hWr : W.rows = ls.length)
    (hWc : W.cols = d.cols) (hnn : ∀ b < ls.length, ∀ o < d.cols, 0 ≤ W.at b o) :
    ((∀ b < ls.length, ∀ o < d.cols, W.at b o < seqLen ls b) →
      ∃ dX, backpropReduceMax d W (asInts ls) = .ok dX ∧ dX.rows = ls.sum ∧ dX.cols = d.cols ∧
        ∀ b < ls.length, ∀ t < seqLen ls b, ∀ o < d.cols,
          seqAt dX ls b t o = if W.at b o = (t : Int) then d.at b o else 0) ∧
    ((∃ b < ls.length, ∃ o < d.cols, (seqLen ls b : Int) ≤ W.at b o) →
      backpropReduceMax d W (asInts ls) = .error .indexError) := by
  unfold backpropReduceMax
  rw [sumPosLengths_ok ls hpos]
  simp only [bind, Except.bind, pure, Except.pure]
  by_cases h0 : (ls.sum : Int) = 0 ∨ d.cols = 0
  · rw [if_pos h0]
    have hsum0 : ∀ b < ls.length, ∀ o < d.cols, False := by
      intro b hb o ho
      have h1 := seqEnd_le ls b hb
      have h2 : seqLen ls b = ls[b] := by simp [seqLen, List.getD_eq_getElem?_getD, hb]
      have h3 := hpos _ (List.getElem_mem hb)
      omega
    constructor
    · intro _
      exact ⟨_, rfl, Int.toNat_natCast _, rfl, fun b hb t _ o ho => (hsum0 b hb o ho).elim⟩
    · rintro ⟨b, hb, o, ho, _⟩
      exact (hsum0 b hb o ho).elim
  · rw [if_neg h0]
    have hlen : 0 < ls.length := by
      rcases Nat.eq_zero_or_pos ls.length with h | h
      · rw [List.length_eq_zero_iff.1 h] at h0
        simp at h0
      · exact h
    rw [pointer_ok d (by omega) (by omega), pointer_ok W (by omega) (by omega)]
    have key := backMax_loop d.buf (Mat.zeros (ls.sum : Int).toNat d.cols).buf W.buf d.cols ls
      (by simp [Mat.buf, hd]) (by simp [Mat.buf, hWr, hWc])
      (by simp only [Mat.zeros, Mat.buf, Int.toNat_natCast]) (fun _ => rfl)
      (by
        intro b hb o ho
        have := hnn b hb o ho
        simpa [Mat.at, Mat.buf, hWc] using this)
    simp only [cpuBackpropReduceMax, bind, Except.bind, pure, Except.pure]
    have hat : ∀ b o, W.at b o = W.buf.val (b * d.cols + o) := fun b o => by simp [Mat.at, Mat.buf, hWc]
    rcases key with ⟨⟨b, hb, o, ho, h1⟩, h2⟩ | ⟨h1, s, h2, h3⟩
    · constructor
      · intro hall
        have := hall b hb o ho
        rw [hat] at this
        omega
      · intro _
        rw [h2]
    · constructor
      · intro _
        rw [h2]
        refine ⟨_, rfl, Int.toNat_natCast _, rfl, fun b hb t ht o ho => ?_⟩
        have := h3 b hb t ht o ho
        rw [← hat b o] at this
        exact this
      · rintro ⟨b, hb, o, ho, h4⟩
        have := h1 b hb o ho
        rw [hat] at h4
        omega

/-- **C38**: `backprop_reduce_max` rejects empty and negative lengths. -/
theorem C38_backprop_bad_length [Zero K] (d : Mat K) (W : Mat Int) (ls : List Int)
    (h : ∃ l ∈ ls, l ≤ 0) : backpropReduceMax d W ls = .error .valueError := by
  unfold backpropReduceMax
  rw [sumPosLengths_bad ls h]
  rfl

/-- **C38**: applied to the indices that `reduce_max` returned, `backprop_reduce_max` is the adjoint of
selecting these rows: for every input `X'` whose column maxima lie in the same rows, `X' ↦ Y'` is linear
and the inner products agree. -/
theorem C38_adjoint [Field K] [LinearOrder K] (junk junk' : Nat → K) (X X' d : Mat K) (ls : List Nat)
    (hpos : ∀ l ∈ ls, 0 < l) (hsum : ls.sum = X.rows) (hd : d.rows = ls.length) (hc : d.cols = X.cols)
    (hr' : X'.rows = X.rows) (hc' : X'.cols = X.cols)
    (hsame : ∀ b < ls.length, ∀ o < X.cols, ∀ w, firstMax (fun t => seqAt X ls b t o) (seqLen ls b) w →
      firstMax (fun t => seqAt X' ls b t o) (seqLen ls b) w) :
    ∃ Y W Y' W' dX, reduceMax junk X (asInts ls) = .ok (Y, W) ∧
      reduceMax junk' X' (asInts ls) = .ok (Y', W') ∧
      backpropReduceMax d W (asInts ls) = .ok dX ∧ dX.rows = X.rows ∧ dX.cols = X.cols ∧
      inner ls.length X.cols Y'.at d.at = inner X.rows X.cols X'.at dX.at := by
  obtain ⟨Y, W, hY, _, _, hW1, hW2, hYW⟩ := C38_reduce_max junk X ls hpos (le_of_eq hsum)
  obtain ⟨Y', W', hY', _, _, _, _, hYW'⟩ := C38_reduce_max junk' X' ls hpos (by omega)
  have hnn : ∀ b < ls.length, ∀ o < d.cols, 0 ≤ W.at b o := by
    intro b hb o ho
    obtain ⟨w, _, _, h⟩ := hYW b hb o (by omega)
    omega
  obtain ⟨dX, hdX, hr, hcol, hdX3⟩ :=
    (C38_backprop_reduce_max_partial d W ls hpos hd hW1 (by omega) hnn).1 (by
      intro b hb o ho
      obtain ⟨w, ⟨h1, _, _⟩, _, h⟩ := hYW b hb o (by omega)
      omega)
  refine ⟨Y, W, Y', W', dX, hY, hY', hdX, by omega, by omega, ?_⟩
  rw [← hsum, inner_segments]
  simp only [Spec.inner]
  refine Finset.sum_congr rfl fun b hb => ?_
  rw [Finset.sum_comm]
  refine Finset.sum_congr rfl fun o ho => ?_
  rw [Finset.mem_range] at hb ho
  obtain ⟨w, hw1, _, hw3⟩ := hYW b hb o ho
  obtain ⟨w', hw1', hw2', _⟩ := hYW' b hb o (by omega)
  have hww : w' = w := by
    have h1 := hsame b hb o ho w hw1
    obtain ⟨a1, a2, a3⟩ := h1
    obtain ⟨b1, b2, b3⟩ := hw1'
    rcases Nat.lt_trichotomy w' w with h | h | h
    · exact absurd (a3 _ h) (not_lt.2 (b2 _ a1))
    · exact h
    · exact absurd (b3 _ h) (not_lt.2 (a2 _ b1))
  subst hww
  rw [hw2', Finset.sum_eq_single w']
  · have := hdX3 b hb w' hw1.1 o (by omega)
    rw [if_pos hw3] at this
    simp only [seqAt] at this ⊢
    rw [this]
  · intro t ht hne
    rw [Finset.mem_range] at ht
    have := hdX3 b hb t ht o (by omega)
    rw [if_neg (by omega)] at this
    simp only [seqAt] at this
    rw [this, mul_zero]
  · intro h
    exact absurd (Finset.mem_range.2 hw1.1) h

example : (∀ l ∈ [1, 2], 0 < l) ∧ [1, 2].sum = exPool.rows ∧
    (Mat.zeros 2 2 : Mat ℚ).rows = [1, 2].length := by decide

/-- **C38**, where the claim fails: negative indices are not rejected by `backprop_reduce_max`.  In the
first sequence they write before the array; in a later one they write the gradient into the previous
sequence. -/
theorem C38_negative_index_not_rejected :
    errOf (backpropReduceMax (Mat.ofFn 1 1 (fun _ _ => (1 : ℚ))) (Mat.ofFn 1 1 (fun _ _ => -1)) [1]) =
      some .outOfBounds ∧
    ∃ dX, backpropReduceMax (Mat.ofFn 2 1 (fun _ _ => (1 : ℚ)))
        (Mat.ofFn 2 1 (fun b _ => if b = 0 then 0 else -1)) (asInts [2, 1]) = .ok dX ∧
      seqAt dX [2, 1] 0 1 0 = 1 ∧ seqAt dX [2, 1] 1 0 0 = 0 := by
  refine ⟨by decide +kernel, ?_⟩
  exact ⟨_, rfl, by decide +kernel, by decide +kernel⟩

/-! ### The generic backend -/

theorem listArgmax_map [LinearOrder K] (f : Nat → K) (n : Nat) :
    listArgmax ((List.range (n + 1)).map f) = argmaxTo f n := by
  have key : ∀ n, (((List.range' 1 n).map f).zipIdx 1).foldl
      (fun (p : K × Nat) q => if q.1 > p.1 then q else p) (f 0, 0) =
      (f (argmaxTo f n), argmaxTo f n) := by
    intro n
    induction n with
    | zero => simp [argmaxTo]
    | succ n ih =>
      rw [List.range'_concat, List.map_append, List.zipIdx_append, List.foldl_append, ih]
      simp only [List.map_cons, List.map_nil, List.length_map, List.length_range', List.zipIdx_cons,
        List.zipIdx_nil, List.foldl_cons, List.foldl_nil, argmaxTo, Nat.one_mul]
      rw [Nat.add_comm 1 n]
      split <;> rfl
  rw [List.range_eq_range', List.range'_succ, List.map_cons]
  simp only [listArgmax]
  rw [key n]

theorem listArgmax_colSlice [LinearOrder K] (X : Mat K) (start l o : Nat) (hl : 0 < l) :
    firstMax (fun t => X.at (start + t) o) l (listArgmax (X.colSlice start l o)) := by
  obtain ⟨n, rfl⟩ : ∃ n, l = n + 1 := ⟨l - 1, by omega⟩
  simp only [Mat.colSlice]
  rw [listArgmax_map]
  exact argmaxTo_spec _ n

theorem opsReduceMaxLoop_spec [LinearOrder K] (X : Mat K) (rest : List Nat) :
    ∀ (i start : Nat) (Y : Mat K) (W : Mat Int), Y.cols = X.cols → W.cols = X.cols →
    (∀ l ∈ rest, 0 < l) → start + rest.sum ≤ X.rows →
    ∃ Y' W', opsReduceMaxLoop X (asInts rest) i start Y W = .ok (Y', W') ∧ Y'.rows = Y.rows ∧
      Y'.cols = X.cols ∧ W'.rows = W.rows ∧ W'.cols = X.cols ∧
      (∀ b < i, ∀ o < X.cols, Y'.at b o = Y.at b o ∧ W'.at b o = W.at b o) ∧
      ∀ b < rest.length, ∀ o < X.cols, ∃ w : Nat,
        firstMax (fun t => X.at (start + seqStart rest b + t) o) (seqLen rest b) w ∧
        Y'.at (i + b) o = X.at (start + seqStart rest b + w) o ∧ W'.at (i + b) o = (w : Int) := by
  induction rest with
  | nil =>
    intro i start Y W hc hcW _ _
    exact ⟨Y, W, rfl, rfl, hc, rfl, hcW, fun _ _ _ _ => ⟨rfl, rfl⟩, fun b hb => absurd hb (by simp)⟩
  | cons l rest ih =>
    intro i start Y W hc hcW hpos hle
    rw [List.sum_cons] at hle
    have hl := hpos l (by simp)
    have h1 : ¬ (Int.ofNat l ≤ 0) := by
      simp only [Int.ofNat_eq_natCast]
      omega
    have h2 : ¬ ((start : Int) + Int.ofNat l > X.rows) := by
      simp only [Int.ofNat_eq_natCast]
      omega
    have h3 : ((start : Int) + Int.ofNat l) = ((start + l : Nat) : Int) := by
      simp only [Int.ofNat_eq_natCast]
      push_cast
      ring
    obtain ⟨Y', W', g1, g2, g3, g4, g5, g6, g7⟩ := ih (i + 1) (start + l)
      (Y.setRow i (fun o => X.at (start + listArgmax (X.colSlice start l o)) o))
      (W.setRow i (fun o => (listArgmax (X.colSlice start l o) : Int))) hc hcW
      (fun l hl => hpos l (by simp [hl])) (by omega)
    refine ⟨Y', W', ?_, g2, g3, g4, g5, ?_, ?_⟩
    · simp only [asInts, List.map_cons]
      rw [opsReduceMaxLoop, if_neg h1, if_neg h2, h3]
      exact g1
    · intro b hb o ho
      obtain ⟨a1, a2⟩ := g6 b (by omega) o ho
      rw [a1, a2, setRow_at _ _ _ _ _ (by omega), setRow_at _ _ _ _ _ (by omega),
        if_neg (by omega), if_neg (by omega)]
      exact ⟨rfl, rfl⟩
    · intro b hb o ho
      match b, hb with
      | 0, _ =>
        refine ⟨listArgmax (X.colSlice start l o), ?_, ?_, ?_⟩
        · simpa [seqStart, seqLen] using listArgmax_colSlice X start l o hl
        · rw [Nat.add_zero, (g6 i (by omega) o ho).1, setRow_at _ _ _ _ _ (by omega), if_pos rfl]
          simp [seqStart]
        · rw [Nat.add_zero, (g6 i (by omega) o ho).2, setRow_at _ _ _ _ _ (by omega), if_pos rfl]
      | b + 1, hb =>
        obtain ⟨w, k1, k2, k3⟩ := g7 b (by simpa using hb) o ho
        have e1 : seqLen (l :: rest) (b + 1) = seqLen rest b := by simp [seqLen]
        have e2 : start + seqStart (l :: rest) (b + 1) = start + l + seqStart rest b := by
          simp [seqStart, Nat.add_assoc]
        rw [e1, e2, show i + (b + 1) = i + 1 + b by omega]
        exact ⟨w, k1, k2, k3⟩

/-- **C38**: the generic `Ops.reduce_max` gives the same maxima and the same indices. -/
theorem C38_generic_forward [LinearOrder K] (junk : Nat → K) (junkW : Nat → Int) (X : Mat K)
    (ls : List Nat) (hpos : ∀ l ∈ ls, 0 < l) (hsum : ls.sum ≤ X.rows) :
    ∃ Y W, opsReduceMax junk junkW X (asInts ls) = .ok (Y, W) ∧
      Y.rows = ls.length ∧ Y.cols = X.cols ∧ W.rows = ls.length ∧ W.cols = X.cols ∧
      ∀ b < ls.length, ∀ o < X.cols, ∃ w : Nat,
        firstMax (fun t => seqAt X ls b t o) (seqLen ls b) w ∧
        Y.at b o = seqAt X ls b w o ∧ W.at b o = (w : Int) := by
  obtain ⟨Y, W, h1, h2, h3, h4, h5, _, h7⟩ := opsReduceMaxLoop_spec X ls 0 0
    ⟨(asInts ls).length, X.cols, junk⟩ ⟨(asInts ls).length, X.cols, junkW⟩ rfl rfl hpos (by omega)
  refine ⟨Y, W, h1, by rw [h2, asInts_length], h3, by rw [h4, asInts_length], h5, fun b hb o ho => ?_⟩
  have := h7 b hb o ho
  simpa [seqAt] using this

theorem opsBackpropMaxLoop_spec [Zero K] (d : Mat K) (W : Mat Int) (rest : List Nat) :
    ∀ (i start : Nat) (dX : Mat K), dX.cols = d.cols → (∀ l ∈ rest, 0 < l) →
    i + rest.length ≤ d.rows → i + rest.length ≤ W.rows →
    (∀ r, start ≤ r → ∀ o < d.cols, dX.at r o = 0) →
    (∀ b < rest.length, ∀ o < d.cols, 0 ≤ W.at (i + b) o ∧ W.at (i + b) o < seqLen rest b) →
    ∃ dX', opsBackpropMaxLoop d W (asInts rest) i start dX = .ok dX' ∧ dX'.rows = dX.rows ∧
      dX'.cols = d.cols ∧
      (∀ r < start, ∀ o < d.cols, dX'.at r o = dX.at r o) ∧
      ∀ b < rest.length, ∀ t < seqLen rest b, ∀ o < d.cols,
        dX'.at (start + seqStart rest b + t) o =
          if W.at (i + b) o = (t : Int) then d.at (i + b) o else 0 := by
  induction rest with
  | nil =>
    intro i start dX hc _ _ _ _ _
    exact ⟨dX, rfl, rfl, hc, fun _ _ _ _ => rfl, fun b hb => absurd hb (by simp)⟩
  | cons l rest ih =>
    intro i start dX hc hpos hle1 hle2 hz hin
    rw [List.length_cons] at hle1 hle2
    have hl := hpos l (by simp)
    have hin0 : ∀ o < d.cols, 0 ≤ W.at i o ∧ W.at i o < (l : Int) := by
      intro o ho
      have := hin 0 (by simp) o ho
      simpa [seqLen] using this
    have h1 : ¬ (Int.ofNat l ≤ 0) := by
      simp only [Int.ofNat_eq_natCast]
      omega
    have h2 : ¬ ¬ (i < d.rows ∧ i < W.rows) := by omega
    have h4 : ¬ ¬ ((List.range d.cols).all (fun o =>
        decide (-Int.ofNat l ≤ W.at i o ∧ W.at i o < Int.ofNat l)) = true) := by
      rw [not_not, List.all_eq_true]
      intro o ho
      have := hin0 o (List.mem_range.1 ho)
      simp only [decide_eq_true_eq, Int.ofNat_eq_natCast]
      omega
    have h3 : ((start : Int) + Int.ofNat l) = ((start + l : Nat) : Int) := by
      simp only [Int.ofNat_eq_natCast]
      push_cast
      ring
    have hat : ∀ r, ∀ o < d.cols, (⟨dX.rows, dX.cols, fun k =>
        let w := W.at i (k % dX.cols)
        if ((k / dX.cols : Nat) : Int) = (start : Int) + (if w < 0 then w + Int.ofNat l else w)
        then d.at i (k % dX.cols) else dX.val k⟩ : Mat K).at r o =
        if (r : Int) = start + W.at i o then d.at i o else dX.at r o := by
      intro r o ho
      have := hin0 o ho
      simp only [Mat.at, rowMajor_div _ _ _ (show o < dX.cols by omega),
        rowMajor_mod _ _ _ (show o < dX.cols by omega)]
      simp only [Mat.at] at this
      have hw : ¬ (W.val (i * W.cols + o) < 0) := by omega
      simp only [hw, if_false]
      congr
    obtain ⟨Y, hY1, hY2, hY3, hY4, hY5⟩ := ih (i + 1) (start + l)
      ⟨dX.rows, dX.cols, fun k =>
        let w := W.at i (k % dX.cols)
        if ((k / dX.cols : Nat) : Int) = (start : Int) + (if w < 0 then w + Int.ofNat l else w)
        then d.at i (k % dX.cols) else dX.val k⟩ hc (fun l hl => hpos l (by simp [hl])) (by omega) (by omega)
      (by
        intro r hr o ho
        have := hin0 o ho
        rw [hat r o ho, if_neg (by omega), hz r (by omega) o ho])
      (by
        intro b hb o ho
        have := hin (b + 1) (by simpa using hb) o ho
        rw [show i + 1 + b = i + (b + 1) by omega]
        simpa [seqLen] using this)
    refine ⟨Y, ?_, hY2, hY3, ?_, ?_⟩
    · simp only [asInts, List.map_cons]
      rw [opsBackpropMaxLoop, if_neg h1, if_neg h2, if_neg h4, h3]
      exact hY1
    · intro r hr o ho
      have := hin0 o ho
      rw [hY4 r (by omega) o ho, hat r o ho, if_neg (by omega)]
    · intro b hb t ht o ho
      match b, hb, ht with
      | 0, hb, ht =>
        simp only [seqLen, List.getD_cons_zero] at ht
        simp only [seqStart, List.take_zero, List.sum_nil, Nat.add_zero]
        rw [hY4 _ (by omega) o ho, hat _ o ho, hz _ (by omega) o ho]
        have e : (((start + t : Nat) : Int) = (start : Int) + W.at i o) ↔ W.at i o = (t : Int) := by
          push_cast
          omega
        simp only [e]
      | b + 1, hb, ht =>
        have := hY5 b (by simpa using hb) t (by simpa [seqLen] using ht) o ho
        have e2 : start + seqStart (l :: rest) (b + 1) = start + l + seqStart rest b := by
          simp [seqStart, Nat.add_assoc]
        rw [e2, this, show i + (b + 1) = i + 1 + b by omega]

/-- **C38**: the generic `Ops.backprop_reduce_max`. -/
theorem C38_generic_backward [Zero K] (d : Mat K) (W : Mat Int) (ls : List Nat)
    (hpos : ∀ l ∈ ls, 0 < l) (hd : d.rows = ls.length) (hWr : W.rows = ls.length)
    (hin : ∀ b < ls.length, ∀ o < d.cols, 0 ≤ W.at b o ∧ W.at b o < seqLen ls b) :
    ∃ dX, opsBackpropReduceMax d W (asInts ls) = .ok dX ∧ dX.rows = ls.sum ∧ dX.cols = d.cols ∧
      ∀ b < ls.length, ∀ t < seqLen ls b, ∀ o < d.cols,
        seqAt dX ls b t o = if W.at b o = (t : Int) then d.at b o else 0 := by
  obtain ⟨Y, h1, h2, h3, _, h5⟩ := opsBackpropMaxLoop_spec d W ls 0 0
    (Mat.zeros ls.sum d.cols) rfl hpos (by omega) (by omega) (fun _ _ _ _ => rfl)
    (by simpa using hin)
  refine ⟨Y, ?_, h2, h3, fun b hb t ht o ho => ?_⟩
  · unfold opsBackpropReduceMax
    rw [asInts_sum, if_neg (by omega), Int.toNat_natCast]
    exact h1
  · have := h5 b hb t ht o ho
    simpa [seqAt] using this

end Thinc
