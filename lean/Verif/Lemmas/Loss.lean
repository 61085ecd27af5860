import Verif.Model.Loss
import Verif.Spec.Labels
import Verif.Lemmas.Softmax
/-! # Lemmas about matrices and one-hot encoding -/
namespace Thinc
open Real Spec Finset

theorem mapM_ok {α β ε : Type} (f : α → Except ε β) (g : α → β) (xs : List α) (h : ∀ x ∈ xs, f x = .ok (g x)) :
    xs.mapM f = .ok (xs.map g) := by
  induction xs with
  | nil => rfl
  | cons x xs ih =>
    rw [List.mapM_cons, h x (by simp), ih (fun y hy => h y (by simp [hy]))]
    rfl

/-- The first exception of a loop is the one that is raised. -/
theorem mapM_error {α β ε : Type} (f : α → Except ε β) (g : α → β) (xs : List α) (y : α) (ys : List α) (e : ε)
    (h : ∀ x ∈ xs, f x = .ok (g x)) (hy : f y = .error e) : (xs ++ y :: ys).mapM f = .error e := by
  induction xs with
  | nil => simp [List.mapM_cons, hy, bind, Except.bind]
  | cons x xs ih =>
    rw [List.cons_append, List.mapM_cons, h x (by simp), ih (fun y hy => h y (by simp [hy]))]
    rfl

theorem npAxisIndex_nat (n y : Nat) (h : y < n) : npAxisIndex n (y : Int) = .ok y := by
  unfold npAxisIndex
  rw [if_pos (by omega), if_pos (by omega)]
  simp

theorem nongoldProb_ok (n : Nat) (s : ℝ) (hs : validSmoothing n s) :
    nongoldProb n s = .ok (s / ((n : ℝ) - 1)) := by
  unfold nongoldProb
  rcases hs with ⟨rfl, hn⟩ | ⟨h1, h2, h3⟩
  · rw [if_pos rfl, if_neg (by omega)]
    simp
  · rw [if_neg h1.ne', if_neg (by omega)]
    simp

theorem notTooSmooth (n : Nat) (s : ℝ) (hs : validSmoothing n s) :
    ¬ ((n : Int) > 1 ∧ s ≥ (((n : Int) : ℝ) - 1) / ((n : Int) : ℝ)) := by
  rintro ⟨a, b⟩
  rcases hs with ⟨h, _⟩ | ⟨_, _, h⟩
  · have a' : (1 : ℝ) < n := by exact_mod_cast a
    have : 0 < ((n : ℝ) - 1) / n := div_pos (by linarith) (by linarith)
    simp only [Int.cast_natCast] at b
    linarith
  · simp only [Int.cast_natCast] at b
    linarith

theorem toCategorical_ok (Y : List Int) (idx : Int → Nat) (n : Nat) (s : ℝ)
    (hs : validSmoothing n s)
    (hY : ∀ y ∈ Y, npAxisIndex n y = .ok (idx y)) :
    ∃ M, toCategorical Y (some n) s = .ok M ∧ M.rows = Y.length ∧ M.cols = n ∧
      ∀ (i : Nat) (hi : i < Y.length), ∀ k < n, M.at i k = smoothed n s (idx Y[i]) k := by
  have h0 : ¬ s < 0 := by rcases hs with ⟨h, _⟩ | ⟨h, _⟩ <;> linarith
  have h1 := notTooSmooth n s hs
  unfold toCategorical
  simp only [classCount, bind, Except.bind, if_neg h0, nongoldProb_ok n s hs, if_neg h1,
    if_neg (show ¬ ((n : Int) < 0) by omega), Int.toNat_natCast, mapM_ok (npAxisIndex n) idx Y hY, pure, Except.pure]
  refine ⟨_, rfl, rfl, rfl, fun i hi k hk => ?_⟩
  rw [ofFn_at _ _ _ _ _ hk]
  unfold smoothed
  have e : (List.map idx Y).getD i 0 = idx Y[i] := by simp [hi]
  rw [e]
  by_cases h : k = idx Y[i]
  · rw [if_pos h, if_pos h.symm]
  · rw [if_neg h, if_neg (fun e => h e.symm)]

theorem smoothed_sum (n : Nat) (s : ℝ) (t : Nat) (ht : t < n) (hs : s = 0 ∨ 1 < n) :
    ∑ k ∈ range n, smoothed n s t k = 1 := by
  have e : ∀ k ∈ range n, smoothed n s t k = (if k = t then 1 - s - s / ((n : ℝ) - 1) else 0) + s / ((n : ℝ) - 1) := by
    intro k _
    unfold smoothed
    by_cases h : k = t <;> simp [h]
  rw [Finset.sum_congr rfl e, Finset.sum_add_distrib, Finset.sum_ite_eq', if_pos (by simpa using ht)]
  simp only [Finset.sum_const, card_range, nsmul_eq_mul]
  rcases hs with h | h
  · simp [h]
  · have : (1 : ℝ) < n := by exact_mod_cast h
    have : (n : ℝ) - 1 ≠ 0 := by linarith
    field_simp
    ring

theorem smoothed_lt (n : Nat) (s : ℝ) (t k : Nat)
    (hs : validSmoothing n s) (h : k ≠ t) :
    smoothed n s t k < smoothed n s t t := by
  unfold smoothed
  rw [if_neg h, if_pos rfl]
  rcases hs with ⟨rfl, _⟩ | ⟨h1, h2, h3⟩
  · simp
  · have h2' : (1 : ℝ) < n := by exact_mod_cast h2
    rw [lt_div_iff₀ (by linarith)] at h3
    rw [div_lt_iff₀ (by linarith)]
    nlinarith

theorem smoothed_mem (n : Nat) (s : ℝ) (t k : Nat)
    (hs : validSmoothing n s) :
    0 ≤ smoothed n s t k ∧ smoothed n s t k ≤ 1 := by
  unfold smoothed
  rcases hs with ⟨rfl, _⟩ | ⟨h1, h2, h3⟩
  · split <;> simp
  · have h2' : (2 : ℝ) ≤ n := by exact_mod_cast h2
    have h3' := h3
    rw [lt_div_iff₀ (by linarith)] at h3
    have h4 : s < 1 := by nlinarith
    split
    · constructor <;> linarith
    · constructor
      · exact div_nonneg h1.le (by linarith)
      · rw [div_le_one (by linarith)]
        linarith

/-! ### Categorical cross entropy -/

theorem npUpdate_ok (f : ℝ → ℝ → ℝ) (A B : Mat ℝ) (h1 : B.rows = A.rows) (h2 : B.cols = A.cols) :
    ∃ C, npUpdate f A B = .ok C ∧ C.rows = A.rows ∧ C.cols = A.cols ∧
      ∀ i < A.rows, ∀ j < A.cols, C.at i j = f (A.at i j) (B.at i j) := by
  unfold npUpdate
  rw [if_pos ⟨Or.inl h1, Or.inl h2⟩]
  refine ⟨_, rfl, rfl, rfl, fun i hi j hj => ?_⟩
  rw [ofFn_at _ _ _ _ _ hj]
  have e1 : (if B.rows = 1 then 0 else i) = i := by split <;> omega
  have e2 : (if B.cols = 1 then 0 else j) = j := by split <;> omega
  rw [e1, e2]

/-- The configurations whose names fit to the number of classes. -/
def CCE.namesFit (c : CCE) (n : Nat) : Prop := ∀ names, c.names = some names → names = [] ∨ names.length = n

/-- The target and the mask, when the labels are known. -/
theorem convertTruths_ok (c : CCE) (truths : Truths) (G : Mat ℝ) (ys : List Int) (idx : Int → Nat) (mask : Mat ℝ)
    (negs : Nat → Option Nat)
    (hs : validSmoothing G.cols c.smoothing)
    (hlen : truths.len = G.rows) (hys : ys.length = G.rows) (hidx : ∀ y ∈ ys, npAxisIndex G.cols y = .ok (idx y))
    (hread : readTruths c truths G = .ok (some ys, mask, negs))
    (hm1 : mask.rows = G.rows) (hm2 : mask.cols = G.cols) (hnames : c.namesFit G.cols)
    (hneg : ∀ (i : Nat) (hi : i < ys.length), ∀ j, negs i = some j → j = idx ys[i] ∧ c.smoothing = 0 ∧
      ∃ names, c.names = some names ∧ names ≠ []) :
    ∃ T M, c.convertTruths truths G = .ok (T, M) ∧ T.rows = G.rows ∧ T.cols = G.cols ∧ M.rows = G.rows ∧
      M.cols = G.cols ∧ ∀ (i : Nat) (hi : i < ys.length), ∀ k < G.cols,
        T.at i k = (if negs i = none then smoothed G.cols c.smoothing (idx ys[i]) k else 0) ∧
        M.at i k = (if negs i = none ∨ negs i = some k then mask.at i k else 0) := by
  obtain ⟨T, t1, t2, t3, t4⟩ := toCategorical_ok ys idx G.cols c.smoothing hs hidx
  unfold CCE.convertTruths
  simp only [hread, bind, Except.bind, targetMatrix, t1]
  cases hN : negativesMask c truths.len negs with
  | none =>
    refine ⟨T, mask, rfl, by omega, t3, hm1, hm2, fun i hi k hk => ?_⟩
    have : negs i = none := by
      cases hj : negs i with
      | none => rfl
      | some j =>
        obtain ⟨_, _, names, a, b⟩ := hneg i hi j hj
        simp [negativesMask, a, b] at hN
    rw [if_pos this, if_pos (Or.inl this)]
    exact ⟨t4 i hi k hk, rfl⟩
  | some N =>
    have hNN : N.rows = G.rows ∧ N.cols = G.cols ∧ ∀ i, ∀ k < G.cols, N.at i k = (match negs i with
        | none => (1 : ℝ)
        | some j => if k = j then -1 else 0) := by
      unfold negativesMask at hN
      cases hn : c.names with
      | none => rw [hn] at hN; exact absurd hN (by simp)
      | some names =>
        rw [hn] at hN
        by_cases hne : names = []
        · simp [hne] at hN
        · simp only [if_neg hne, Option.some.injEq] at hN
          have hl := (hnames names hn).resolve_left hne
          subst hN
          refine ⟨hlen, hl, fun i k hk => ?_⟩
          rw [ofFn_at _ _ _ _ _ (by omega)]
          rfl
    obtain ⟨n1, n2, n3⟩ := hNN
    obtain ⟨T', a1, a2, a3, a4⟩ := npUpdate_ok (· * ·) T N (by omega) (by omega)
    obtain ⟨M', b1, b2, b3, b4⟩ := npUpdate_ok (· * ·) mask (N.map (fun x => if x = -1 then 1 else x))
      (by simp only [Mat.map]; omega) (by simp only [Mat.map]; omega)
    simp only [applyNegatives, bind, Except.bind, a1, b1, pure, Except.pure]
    refine ⟨_, M', rfl, by simp only [Mat.map]; omega, by simp only [Mat.map]; omega, by omega, by omega,
      fun i hi k hk => ?_⟩
    rw [map_at, a4 i (by omega) k (by omega), b4 i (by omega) k (by omega), map_at, n3 i k hk, t4 i hi k hk]
    cases hj : negs i with
    | none =>
      have hm := smoothed_mem G.cols c.smoothing (idx ys[i]) k hs
      simp only [mul_one, true_or, if_true]
      rw [if_neg (by linarith [hm.1]), if_neg (by norm_num), mul_one]
      exact ⟨rfl, rfl⟩
    | some j =>
      obtain ⟨h1, h2, _⟩ := hneg i hi j hj
      by_cases hkj : k = j
      · subst hkj
        simp only [if_true, reduceCtorEq, false_or]
        rw [h2, smoothed, if_pos h1]
        norm_num
      · have : ¬ (j = k) := fun e => hkj e.symm
        simp only [if_neg hkj, reduceCtorEq, false_or, Option.some.injEq, if_neg this, mul_zero, if_false]
        norm_num

/-- What `get_grad` answers, when target and mask are known. -/
theorem getGrad_ok (c : CCE) (truths : Truths) (G T M : Mat ℝ) (h : c.convertTruths truths G = .ok (T, M))
    (t1 : T.rows = G.rows) (t2 : T.cols = G.cols) (m1 : M.rows = G.rows) (m2 : M.cols = G.cols)
    (hG : ∀ i < G.rows, ∀ j < G.cols, 0 ≤ G.at i j ∧ G.at i j ≤ 1)
    (hT : ∀ i < G.rows, ∀ j < G.cols, 0 ≤ T.at i j ∧ T.at i j ≤ 1) :
    ∃ D, c.getGrad G truths = .ok D ∧ D.rows = G.rows ∧ D.cols = G.cols ∧
      ∀ i < G.rows, ∀ k < G.cols, D.at i k =
        (G.at i k - T.at i k) * M.at i k / (if c.normalize then (G.rows : ℝ) else 1) := by
  unfold CCE.getGrad
  simp only [h, bind, Except.bind]
  have a1 : ¬ (G.rows ≠ T.rows ∨ G.cols ≠ T.cols) := by omega
  have a2 : ¬ (G.anyEntry (· > 1) ∨ G.anyEntry (· < 0)) := by
    rintro (⟨i, hi, j, hj, hx⟩ | ⟨i, hi, j, hj, hx⟩) <;> have := hG i hi j hj <;> linarith
  have a3 : ¬ (T.anyEntry (· > 1) ∨ T.anyEntry (· < 0)) := by
    rintro (⟨i, hi, j, hj, hx⟩ | ⟨i, hi, j, hj, hx⟩) <;> have := hT i (by omega) j (by omega) <;> linarith
  rw [if_neg a1, if_neg a2, if_neg a3]
  obtain ⟨D, d1, d2, d3, d4⟩ := npUpdate_ok (· * ·) (Mat.ofFn G.rows G.cols (fun i j => G.at i j - T.at i j)) M m1 m2
  rw [d1]
  refine ⟨_, rfl, ?_, ?_, fun i hi k hk => ?_⟩
  · cases c.normalize <;> exact d2
  · cases c.normalize <;> exact d3
  · have := d4 i hi k hk
    rw [ofFn_at _ _ _ _ _ hk] at this
    cases c.normalize
    · simp only [Bool.false_eq_true, if_false, div_one]
      exact this
    · simp only [if_true, map_at]
      rw [this]

end Thinc
