import Verif.Lemmas.Float
/-!
# Sums and maxima of floating-point numbers
-/
namespace Thinc
open Spec
variable {L : FloatLib} {N : ℕ}

/-- The sum of numbers between 0 and 1, in any order, is between each of them and their number. -/
theorem sums_unit (ok : IsFloatLib L N) {xs : List Fl} {s : Fl} (h : Sums L xs s) (hlen : xs.length ≤ N) (hx : ∀ x ∈ xs, Between L 0 1 x) :
    ∃ r, s = .fin r ∧ L.rnd r = r ∧ 0 ≤ r ∧ r ≤ xs.length ∧ ∀ y, .fin y ∈ xs → y ≤ r := by
  induction h with
  | zero => exact ⟨0, rfl, ok.zero, le_refl _, by simp, fun y hy => by cases hy⟩
  | one x =>
    obtain ⟨r, rfl, h1, -, h2, h3⟩ := hx x (by simp)
    refine ⟨r, rfl, h1, h2, by simpa using h3, fun y hy => ?_⟩
    rw [List.mem_singleton] at hy
    cases hy
    exact le_refl _
  | @add xs ys zs a b _ _ hp ih1 ih2 =>
    have hl : zs.length = xs.length + ys.length := by rw [hp.length_eq, List.length_append]
    obtain ⟨r, rfl, p1, p2, p3, p4⟩ := ih1 (by omega) (fun x h => hx x (hp.mem_iff.2 (by simp [h])))
    obtain ⟨q, rfl, q1, q2, q3, q4⟩ := ih2 (by omega) (fun x h => hx x (hp.mem_iff.2 (by simp [h])))
    have hsum : r + q ≤ (zs.length : ℝ) := by
      rw [hl]
      push_cast
      linarith
    have hN : ((zs.length : ℕ) : ℝ) ≤ N := by exact_mod_cast hlen
    have hbig : |r + q| ≤ L.big := by
      rw [abs_of_nonneg (by linarith)]
      linarith [ok.large]
    refine ⟨L.rnd (r + q), round_fin ok hbig, ok.idem _, ok.nonneg (by linarith), ok.le_of_le (ok.nat _ hlen) hsum, fun y hy => ?_⟩
    rw [hp.mem_iff, List.mem_append] at hy
    rcases hy with hy | hy
    · exact (p4 y hy).trans (ok.ge_of_ge p1 (by linarith))
    · exact (q4 y hy).trans (ok.ge_of_ge q1 (by linarith))

/-- A number that is not negative, or plus infinity. -/
def NonNeg (L : FloatLib) (a : Fl) : Prop := a = .inf false ∨ ∃ x, a = .fin x ∧ 0 ≤ x

theorem add_nonNeg (ok : IsFloatLib L N) {a b : Fl} (ha : NonNeg L a) (hb : NonNeg L b) : NonNeg L (L.add a b) := by
  rcases ha with rfl | ⟨x, rfl, hx⟩ <;> rcases hb with rfl | ⟨y, rfl, hy⟩
  · exact Or.inl (by simp [FloatLib.add])
  · exact Or.inl rfl
  · exact Or.inl rfl
  · have h : ¬ x + y < 0 := by linarith
    rcases round_cases L (x + y) with ⟨e, -⟩ | ⟨e, -⟩
    · exact Or.inr ⟨_, e, ok.nonneg (by linarith)⟩
    · exact Or.inl (by show L.round (x + y) = _; rw [e]; simp [h])

theorem sums_nonNeg (ok : IsFloatLib L N) {xs : List Fl} {s : Fl} (h : Sums L xs s) (hx : ∀ x ∈ xs, NonNeg L x) : NonNeg L s := by
  induction h with
  | zero => exact Or.inr ⟨0, rfl, le_refl _⟩
  | one x => exact hx x (by simp)
  | add _ _ hp ih1 ih2 =>
    exact add_nonNeg ok (ih1 fun x h => hx x (hp.mem_iff.2 (by simp [h]))) (ih2 fun x h => hx x (hp.mem_iff.2 (by simp [h])))

/-- The maximum of finite numbers is one of them and not less than any of them. -/
theorem foldl_max (L : FloatLib) (xs : List Fl) : ∀ x, IsFinite L x → (∀ y ∈ xs, IsFinite L y) →
    ∃ m, xs.foldl Fl.max x = .fin m ∧ .fin m ∈ x :: xs ∧ ∀ y, .fin y ∈ x :: xs → y ≤ m := by
  induction xs with
  | nil =>
    rintro x ⟨r, rfl, -⟩ -
    refine ⟨r, rfl, by simp, fun y hy => ?_⟩
    rw [List.mem_singleton] at hy
    cases hy
    exact le_refl _
  | cons z zs ih =>
    rintro x ⟨r, rfl, hr⟩ h
    obtain ⟨q, rfl, hq⟩ := h z (by simp)
    by_cases c : r ≤ q
    · have e : Fl.max (.fin r) (.fin q) = .fin q := by simp [Fl.max, Fl.le, c]
      obtain ⟨m, h1, h2, h3⟩ := ih (.fin q) ⟨q, rfl, hq⟩ (fun y hy => h y (by simp [hy]))
      refine ⟨m, by rw [List.foldl_cons, e, h1], List.mem_cons_of_mem _ h2, fun y hy => ?_⟩
      rcases List.mem_cons.1 hy with hy | hy
      · cases hy
        exact c.trans (h3 q (by simp))
      · exact h3 y hy
    · have e : Fl.max (.fin r) (.fin q) = .fin r := by simp [Fl.max, Fl.le, c]
      obtain ⟨m, h1, h2, h3⟩ := ih (.fin r) ⟨r, rfl, hr⟩ (fun y hy => h y (by simp [hy]))
      refine ⟨m, by rw [List.foldl_cons, e, h1], ?_, fun y hy => ?_⟩
      · rcases List.mem_cons.1 h2 with h2 | h2
        · simp [h2]
        · simp [h2]
      · rcases List.mem_cons.1 hy with hy | hy
        · exact h3 y (by simp [hy])
        · rcases List.mem_cons.1 hy with hy | hy
          · cases hy
            exact (not_le.1 c).le.trans (h3 r (by simp))
          · exact h3 y (by simp [hy])

end Thinc
