import Verif.Lemmas.Softmax
/-!
# C45 Softmax

`Spec.softmax x` is `exp(x) / sum(exp(x))`.  Real arithmetic.
-/
namespace Thinc
open Real Spec Finset
variable {ι : Type} [Fintype ι]

/-- **C45**: every row of `softmax(X)` is the softmax of the row divided by the temperature; it is
positive and sums to one, it does not change when a constant is added to the row, and it has the order
of the row. -/
theorem C45_softmax {n : Nat} (hn : 0 < n) (T : ℝ) (hT : 0 < T) (X : ι → Fin n → ℝ) :
    ∃ Y, softmax T X = .ok Y ∧
      (∀ i k, Y i k = exp (X i k / T) / ∑ j, exp (X i j / T)) ∧
      (∀ i k, 0 < Y i k) ∧ (∀ i, ∑ k, Y i k = 1) ∧
      (∀ i j k, Y i j < Y i k ↔ X i j < X i k) ∧
      (∀ c : ι → ℝ, softmax T (fun i k => X i k + c i) = .ok Y) := by
  obtain ⟨m, rfl⟩ : ∃ m, n = m + 1 := ⟨n - 1, by omega⟩
  refine ⟨_, softmax_eq T X, fun i k => rfl, fun i k => specSoftmax_pos _ k, fun i => specSoftmax_sum _,
    fun i j k => ?_, fun c => ?_⟩
  · rw [specSoftmax_lt]
    exact div_lt_div_iff_of_pos_right hT
  · rw [softmax_eq]
    congr 1
    funext i
    have h := specSoftmax_sub (fun k => X i k / T) (-(c i / T))
    rw [← h]
    congr 1
    funext k
    ring

example : (0 : ℝ) < 0.5 ∧ 0 < 3 := by norm_num

/-- **C45**: `backprop_softmax(softmax(X), dY)` is the gradient, for every temperature. -/
theorem C45_backprop_softmax {n : Nat} (hn : 0 < n) (T : ℝ) (hT : 0 < T) (X : ι → Fin n → ℝ) :
    ∃ f : (ι → Fin n → ℝ) → ι → Fin n → ℝ, (∀ X, softmax T X = .ok (f X)) ∧
      IsVJP f X (fun dY => backpropSoftmax T (f X) dY) := by
  obtain ⟨m, rfl⟩ : ∃ m, n = m + 1 := ⟨n - 1, by omega⟩
  refine ⟨fun X i => Spec.softmax (fun k => X i k / T), fun X => softmax_eq T X, ?_⟩
  have hscale : ∀ x : Fin (m + 1) → ℝ, IsVJP (fun (x : Fin (m + 1) → ℝ) k => x k / T) x (fun dy k => dy k * (1 / T)) :=
    fun x => IsVJP_elementwise (g := fun a => a / T) (d := fun _ => 1 / T)
      fun k => (hasDerivAt_id (x k)).div_const T
  have key := IsVJP_pi (ι := ι) (f := fun _ (x : Fin (m + 1) → ℝ) => Spec.softmax (fun k => x k / T)) (x := X)
    fun i => IsVJP_comp (IsVJP_softmax (fun k => X i k / T)) (hscale (X i))
  refine IsVJP_congr₂ key (fun _ => rfl) fun dY => ?_
  funext i k
  unfold backpropSoftmax
  by_cases h : T ≠ 1
  · simp only [if_pos h, mul_div_assoc']
    rw [← Finset.sum_div]
    ring
  · have : T = 1 := not_not.1 h
    subst this
    simp

/-- **C45**: a softmax over no entries raises ValueError (there is no maximum). -/
theorem C45_no_entries_raises [Nonempty ι] (T : ℝ) (X : ι → Fin 0 → ℝ) :
    softmax T X = .error .valueError := by
  have : Fintype.card ι ≠ 0 := Fintype.card_ne_zero
  simp [softmax, npMax, this, bind, Except.bind]

/-! ## Sequences -/

/-- The entries of column `o` of sequence `b`. -/
def seqCol (X : Mat ℝ) (ls : List Nat) (b o : Nat) : Fin (seqLen ls b) → ℝ := fun t => seqAt X ls b t o

theorem softmaxSequences_spec (X : Mat ℝ) (ls : List Nat) (hrows : 0 < X.rows) (hsum : ls.sum = X.rows) :
    ∃ Y, softmaxSequences X (asInts ls) = .ok Y ∧ Y.rows = X.rows ∧ Y.cols = X.cols ∧
      ∀ b < ls.length, ∀ o < X.cols,
        seqCol Y ls b o = Spec.softmax (fun t => npClip (seqCol X ls b o t) (-20) 20) := by
  unfold softmaxSequences
  obtain ⟨s, S, h1, h2, h3, h4, h5⟩ := segment_sums ((X.map (fun x => npClip x (-20) 20)).map exp) ls hrows
    (by rw [hsum]; exact le_rfl)
  simp only [h1, h2, bind, Except.bind]
  obtain ⟨Y, y1, y2, y3, y4⟩ := npZipInplace_ok (· / ·) ((X.map (fun x => npClip x (-20) 20)).map exp) S
    (by rw [h3, hsum]; rfl)
  refine ⟨Y, y1, y2, y3, fun b hb o ho => ?_⟩
  funext t
  have hlt := seqRow_lt ls b t hb t.2
  have := y4 (seqStart ls b + t) (by rw [hsum] at hlt; exact hlt) o ho
  have h6 := h5 b hb t t.2 o ho
  unfold seqCol
  simp only [seqAt] at *
  rw [this, h6]
  rfl

/-- **C45** (`softmax_sequences`): for sequences that fill the matrix and entries between -20 and 20,
each column of each sequence is replaced by its softmax, which is positive and sums to one.
Missing: entries beyond ±20 (they are clipped first, `C45_sequences_clipped`) and batches without rows. -/
theorem C45_softmax_sequences_partial (X : Mat ℝ) (ls : List Nat) (hrows : 0 < X.rows) (hsum : ls.sum = X.rows)
    (hX : ∀ i < X.rows, ∀ o < X.cols, |X.at i o| ≤ 20) :
    ∃ Y, softmaxSequences X (asInts ls) = .ok Y ∧ Y.rows = X.rows ∧ Y.cols = X.cols ∧
      ∀ b < ls.length, ∀ o < X.cols,
        seqCol Y ls b o = Spec.softmax (seqCol X ls b o) ∧ (∀ t, 0 < seqCol Y ls b o t) ∧
        (0 < seqLen ls b → ∑ t, seqCol Y ls b o t = 1) := by
  obtain ⟨Y, h1, h2, h3, h4⟩ := softmaxSequences_spec X ls hrows hsum
  refine ⟨Y, h1, h2, h3, fun b hb o ho => ?_⟩
  have e : (fun t => npClip (seqCol X ls b o t) (-20) 20) = seqCol X ls b o := by
    funext t
    have hlt := seqRow_lt ls b t hb t.2
    have := abs_le.1 (hX (seqStart ls b + t) (by omega) o ho)
    exact npClip_mid this.1 this.2
  have h5 : seqCol Y ls b o = Spec.softmax (seqCol X ls b o) := by rw [h4 b hb o ho, e]
  refine ⟨h5, fun t => ?_, fun hl => ?_⟩
  · rw [h5]
    exact specSoftmax_pos _ t
  · rw [h5]
    have : Nonempty (Fin (seqLen ls b)) := ⟨⟨0, hl⟩⟩
    exact specSoftmax_sum _

example : 0 < (Mat.ofFn 3 2 (fun i j => (i : ℝ) - j)).rows ∧ [1, 0, 2].sum = (Mat.ofFn 3 2 (fun i j => (i : ℝ) - j)).rows := by
  decide

/-- **C45** (found by the model): entries beyond ±20 are clipped, so two different entries of 25 and 30 get
the same probability: the order of a sequence is not preserved. -/
theorem C45_sequences_clipped : ∃ (X Y : Mat ℝ), softmaxSequences X [2] = .ok Y ∧
    X.at 0 0 < X.at 1 0 ∧ Y.at 0 0 = Y.at 1 0 := by
  obtain ⟨Y, h1, _, _, h4⟩ := softmaxSequences_spec (Mat.ofFn 2 1 (fun i _ => 25 + 5 * i)) [2] (by decide) (by decide)
  refine ⟨_, Y, h1, ?_, ?_⟩
  · rw [ofFn_at _ _ _ _ _ (by decide), ofFn_at _ _ _ _ _ (by decide)]
    norm_num
  · have := h4 0 (by decide) 0 (by decide)
    have a0 := congrFun this (⟨0, by decide⟩ : Fin (seqLen [2] 0))
    have a1 := congrFun this (⟨1, by decide⟩ : Fin (seqLen [2] 0))
    have b0 : seqCol Y [2] 0 0 ⟨0, by decide⟩ = Y.at 0 0 := rfl
    have b1 : seqCol Y [2] 0 0 ⟨1, by decide⟩ = Y.at 1 0 := rfl
    rw [← b0, ← b1, a0, a1]
    unfold Spec.softmax
    have c : ∀ t : Fin (seqLen [2] 0),
        npClip (seqCol (Mat.ofFn 2 1 (fun i _ => (25 : ℝ) + 5 * i)) [2] 0 0 t) (-20) 20 = 20 := by
      intro t
      refine npClip_high ?_
      simp only [seqCol, seqAt]
      rw [ofFn_at _ _ _ _ _ (by decide)]
      have : (0 : ℝ) ≤ ((seqStart [2] 0 + (t : Nat) : Nat) : ℝ) := Nat.cast_nonneg _
      linarith
    simp only [c]

/-- **C45** (`backprop_softmax_sequences`): with `Y` the softmax of `X` (each column of each sequence), the
result is the gradient of that softmax for each column of each sequence. -/
theorem C45_backprop_softmax_sequences (X Y dY : Mat ℝ) (ls : List Nat) (hrows : 0 < Y.rows)
    (hsum : ls.sum = Y.rows) (hr : dY.rows = Y.rows)
    (hY : ∀ b < ls.length, ∀ o < Y.cols, seqCol Y ls b o = Spec.softmax (seqCol X ls b o)) :
    ∃ dX, backpropSoftmaxSequences dY Y (asInts ls) = .ok dX ∧ dX.rows = Y.rows ∧ dX.cols = Y.cols ∧
      ∀ b < ls.length, ∀ o < Y.cols, ∃ back, IsVJP Spec.softmax (seqCol X ls b o) back ∧
        seqCol dX ls b o = back (seqCol dY ls b o) := by
  unfold backpropSoftmaxSequences
  obtain ⟨P, p1, p2, p3, p4⟩ := npZip_ok (· * ·) Y dY hr.symm
  obtain ⟨s, S, h1, h2, h3, h4, h5⟩ := segment_sums P ls (by omega) (by omega)
  obtain ⟨Q, q1, q2, q3, q4⟩ := npZip_ok (· * ·) Y S (by omega)
  obtain ⟨D, d1, d2, d3, d4⟩ := npZipInplace_ok (· - ·) P Q (by omega)
  simp only [p1, h1, h2, q1, bind, Except.bind]
  refine ⟨D, d1, by omega, by omega, fun b hb o ho => ⟨_, IsVJP_softmax _, ?_⟩⟩
  funext t
  have hlt := seqRow_lt ls b t hb t.2
  have e1 := d4 (seqStart ls b + t) (by omega) o (by omega)
  have e2 := q4 (seqStart ls b + t) (by omega) o (by omega)
  have e3 := p4 (seqStart ls b + t) (by omega) o (by omega)
  have e4 := h5 b hb t t.2 o (by omega)
  rw [← hY b hb o ho]
  have e5 : ∀ u : Fin (seqLen ls b), seqAt P ls b u o = seqCol Y ls b o u * seqCol dY ls b o u := fun u =>
    p4 (seqStart ls b + u) (by have := seqRow_lt ls b u hb u.2; omega) o (by omega)
  simp only [e5] at e4
  show D.at (seqStart ls b + t) o = _
  rw [e1, e2, e3]
  have e6 : S.at (seqStart ls b + ↑t) o = ∑ u, seqCol Y ls b o u * seqCol dY ls b o u := e4
  rw [e6]
  rfl

/-- **C45** (found by the model): lengths that add up to 1 are accepted for a matrix with more rows, because
the single row of sums is broadcast: every row is divided by the first row's exponentials. -/
theorem C45_short_lengths_broadcast (X : Mat ℝ) (h : 1 < X.rows) :
    ∃ Y, softmaxSequences X [1] = .ok Y ∧ Y.rows = X.rows ∧ ∀ i < X.rows, ∀ o < X.cols,
      Y.at i o = exp (npClip (X.at i o) (-20) 20) / exp (npClip (X.at 0 o) (-20) 20) := by
  unfold softmaxSequences
  obtain ⟨s, S, h1, h2, h3, h4, h5⟩ := segment_sums ((X.map (fun x => npClip x (-20) 20)).map exp) [1]
    (by simp only [Mat.map]; omega) (by simp only [Mat.map]; exact h.le)
  have h1' : reduceSum ((X.map (fun x => npClip x (-20) 20)).map exp) [1] = .ok s := h1
  have h2' : backpropReduceSum s [1] = .ok S := h2
  have hS : S.rows = 1 := h3
  simp only [h1', h2', bind, Except.bind]
  unfold npZipInplace broadcastRows
  rw [hS, if_neg (by simp only [Mat.map]; omega), if_neg (by simp only [Mat.map]; omega), if_pos rfl]
  simp only [bind, Except.bind, ne_eq, not_true, if_false, pure, Except.pure]
  refine ⟨_, rfl, rfl, fun i hi o ho => ?_⟩
  rw [ofFn_at _ _ _ _ _ (show o < ((X.map (fun x => npClip x (-20) 20)).map exp).cols from ho)]
  have := h5 0 (by decide) 0 (by decide) o ho
  have e : S.bat i o = seqAt S [1] 0 0 o := by
    unfold Mat.bat
    rw [if_pos hS]
    rfl
  rw [e, this]
  have e2 : ∀ f : Fin (seqLen [1] 0) → ℝ, ∑ u, f u = f ⟨0, by decide⟩ := fun f => by
    show ∑ u : Fin 1, f u = _
    exact Finset.sum_singleton (ι := Fin 1) (fun u => f u) 0
  rw [e2]
  rfl

/-- **C45**: lengths that add up to less than the number of rows, and not to 1, raise ValueError. -/
theorem C45_short_lengths_raise (X : Mat ℝ) (ls : List Nat) (h : ls.sum < X.rows) (h1 : ls.sum ≠ 1) :
    softmaxSequences X (asInts ls) = .error .valueError := by
  unfold softmaxSequences
  obtain ⟨s, S, a1, a2, h3, h4, h5⟩ := segment_sums ((X.map (fun x => npClip x (-20) 20)).map exp) ls
    (by simp only [Mat.map]; omega) (by simp only [Mat.map]; exact h.le)
  simp only [a1, a2, bind, Except.bind]
  unfold npZipInplace broadcastRows
  rw [h3, if_neg (by simp only [Mat.map]; omega)]
  by_cases hr : X.rows = 1
  · rw [if_pos (by simp only [Mat.map]; exact hr)]
    simp only [bind, Except.bind]
    rw [if_pos (by simp only [Mat.map]; omega)]
  · rw [if_neg (by simp only [Mat.map]; exact hr), if_neg h1]
    rfl

end Thinc
