import Verif.Lemmas.Loss
/-!
# C50 One-hot encoding
-/
namespace Thinc
open Real Spec Finset

/-- **C50**: for labels below the number of classes and a valid smoothing, `to_categorical` has one row per
label; the label's column holds `1 - smoothing`, the others share the smoothing equally; every row sums to
one and its largest value is in the label's column and nowhere else. -/
theorem C50_to_categorical (Y : List Nat) (n : Nat) (s : ℝ) (hs : validSmoothing n s) (hY : ∀ y ∈ Y, y < n) :
    ∃ M, toCategorical (Y.map Int.ofNat) (some n) s = .ok M ∧ M.rows = Y.length ∧ M.cols = n ∧
      ∀ (i : Nat) (hi : i < Y.length),
        (∀ k < n, M.at i k = if k = Y[i] then 1 - s else s / ((n : ℝ) - 1)) ∧
        ∑ k ∈ range n, M.at i k = 1 ∧ ∀ k < n, k ≠ Y[i] → M.at i k < M.at i Y[i] := by
  obtain ⟨M, h1, h2, h3, h4⟩ := toCategorical_ok (Y.map Int.ofNat) Int.toNat n s hs (by
    intro y hy
    obtain ⟨z, hz, rfl⟩ := List.mem_map.1 hy
    exact npAxisIndex_nat n z (hY z hz))
  rw [List.length_map] at h2
  have h5 : ∀ (i : Nat) (hi : i < Y.length), ∀ k < n, M.at i k = smoothed n s Y[i] k := by
    intro i hi k hk
    have := h4 i (by simpa using hi) k hk
    simpa using this
  refine ⟨M, h1, h2, h3, fun i hi => ⟨fun k hk => h5 i hi k hk, ?_, fun k hk hne => ?_⟩⟩
  · rw [Finset.sum_congr rfl fun k hk => h5 i hi k (Finset.mem_range.1 hk)]
    exact smoothed_sum n s _ (hY _ (List.getElem_mem hi)) (hs.imp And.left (fun h => h.2.1))
  · have hlt := hY _ (List.getElem_mem hi)
    rw [h5 i hi k hk, h5 i hi _ hlt]
    exact smoothed_lt n s _ k hs hne

example : validSmoothing 3 0.2 ∧ ∀ y ∈ [0, 2, 1], y < 3 := by
  refine ⟨Or.inr ⟨by norm_num, by norm_num, by norm_num⟩, by decide⟩

/-- **C50**: without a class count, there is one class more than the largest label. -/
theorem C50_default_classes (Y : List Int) (m : Int) (s : ℝ) (hm : m ∈ Y) (hmax : ∀ y ∈ Y, y ≤ m) :
    toCategorical Y none s = toCategorical Y (some (m + 1)) s := by
  have h : npMaxInt Y = .ok m := by
    cases Y with
    | nil => simp at hm
    | cons y ys =>
      simp only [npMaxInt, Except.ok.injEq]
      have key : ∀ (l : List Int) (a : Int), (∀ x ∈ l, x ≤ l.foldl max a) ∧ a ≤ l.foldl max a ∧
          (l.foldl max a = a ∨ l.foldl max a ∈ l) := by
        intro l
        induction l with
        | nil => simp
        | cons x l ih =>
          intro a
          obtain ⟨i1, i2, i3⟩ := ih (max a x)
          simp only [List.foldl_cons, List.mem_cons]
          refine ⟨?_, by omega, ?_⟩
          · rintro z (rfl | hz)
            · omega
            · exact i1 z hz
          · rcases i3 with h | h
            · rw [h]
              rcases le_total a x with h2 | h2
              · right; left; omega
              · left; omega
            · right; right; exact h
      obtain ⟨k1, k2, k3⟩ := key ys y
      apply le_antisymm
      · rcases k3 with h | h
        · rw [h]; exact hmax y (by simp)
        · exact hmax _ (by simp [h])
      · rcases List.mem_cons.1 hm with rfl | h
        · exact k2
        · exact k1 m h
  unfold toCategorical
  simp only [classCount, h]

/-- **C50**: invalid settings raise ValueError: a negative smoothing, no classes, smoothing with fewer than
two classes, too much smoothing, a negative class count, and no labels to count the classes from. -/
theorem C50_invalid_raise (Y : List Int) (n : Int) (s : ℝ) :
    (s < 0 → toCategorical Y (some n) s = .error .valueError) ∧
    (s = 0 → n = 0 → toCategorical Y (some n) s = .error .valueError) ∧
    (0 < s → n ≤ 1 → toCategorical Y (some n) s = .error .valueError) ∧
    (1 < n → ((n : ℝ) - 1) / n ≤ s → toCategorical Y (some n) s = .error .valueError) ∧
    (n < 0 → toCategorical Y (some n) s = .error .valueError) ∧
    toCategorical [] none s = .error .valueError := by
  have a : s < 0 → toCategorical Y (some n) s = .error .valueError := fun h => by
    simp [toCategorical, classCount, bind, Except.bind, h]
  have b : 0 < s → n ≤ 1 → toCategorical Y (some n) s = .error .valueError := fun h h1 => by
    have h2 : ¬ (1 < n) := by omega
    simp [toCategorical, classCount, bind, Except.bind, not_lt.2 h.le, nongoldProb, h.ne', h2]
  refine ⟨a, ?_, b, ?_, ?_, rfl⟩
  · rintro rfl rfl
    simp [toCategorical, classCount, bind, Except.bind, nongoldProb]
  · intro h h1
    have hn : (1 : ℝ) < n := by exact_mod_cast h
    have hs : 0 < s := lt_of_lt_of_le (div_pos (by linarith) (by linarith)) h1
    simp [toCategorical, classCount, bind, Except.bind, not_lt.2 hs.le, nongoldProb, hs.ne', h, h1]
  · intro h
    rcases lt_trichotomy s 0 with hs | hs | hs
    · exact a hs
    · have h2 : ¬ (1 < n) := by omega
      have h3 : n ≠ 0 := by omega
      simp [toCategorical, classCount, bind, Except.bind, nongoldProb, hs, h, h2, h3]
    · exact b hs (by omega)

/-- **C50**: a label that is too large (or below `-n_classes`) raises IndexError. -/
theorem C50_label_out_of_range (Y : List Nat) (bad : Int) (rest : List Int) (n : Nat) (s : ℝ)
    (hs : validSmoothing n s) (hY : ∀ y ∈ Y, y < n) (hb : (n : Int) ≤ bad ∨ bad < -(n : Int)) :
    toCategorical (Y.map Int.ofNat ++ bad :: rest) (some n) s = .error .indexError := by
  have h0 : ¬ s < 0 := by rcases hs with ⟨h, _⟩ | ⟨h, _⟩ <;> linarith
  have h1 : ¬ ((n : Int) > 1 ∧ s ≥ (((n : Int) : ℝ) - 1) / ((n : Int) : ℝ)) := notTooSmooth n s hs
  have e : (Y.map Int.ofNat ++ bad :: rest).mapM (npAxisIndex n) = .error .indexError := by
    refine mapM_error (npAxisIndex n) Int.toNat _ _ _ _ (fun x hx => ?_) ?_
    · obtain ⟨z, hz, rfl⟩ := List.mem_map.1 hx
      exact npAxisIndex_nat n z (hY z hz)
    · unfold npAxisIndex
      by_cases h : 0 ≤ bad
      · rw [if_pos h, if_neg (by omega)]
      · rw [if_neg h, if_neg (by omega)]
  unfold toCategorical
  simp only [classCount, bind, Except.bind, if_neg h0, nongoldProb_ok n s hs, if_neg h1,
    if_neg (show ¬ ((n : Int) < 0) by omega), Int.toNat_natCast, e]

/-- **C50** (found by the model): negative labels are not rejected, the label `-1` stands for the last
class. -/
theorem C50_negative_label (n : Nat) (k : Nat) (s : ℝ) (hs : validSmoothing n s) (hk : 0 < k) (hkn : k ≤ n) :
    ∃ M, toCategorical [-(k : Int)] (some n) s = .ok M ∧ M.rows = 1 ∧ M.cols = n ∧
      ∀ j < n, M.at 0 j = if j = n - k then 1 - s else s / ((n : ℝ) - 1) := by
  obtain ⟨M, h1, h2, h3, h4⟩ := toCategorical_ok [-(k : Int)] (fun _ => n - k) n s hs (by
    intro y hy
    rw [List.mem_singleton.1 hy]
    unfold npAxisIndex
    rw [if_neg (by omega), if_pos (by omega)]
    simp)
  exact ⟨M, h1, h2, h3, fun j hj => h4 0 (by simp) j hj⟩

end Thinc
