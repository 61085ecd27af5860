import Verif.Lemmas.FloatNet
import Verif.Spec.FloatMaxout
/-!
# Lemmas for C136: maxout in floating point
-/
namespace Thinc
open Spec FloatLib

/-- `m` is the largest of the numbers. -/
def IsLargest (m : ℝ) (rs : List ℝ) : Prop := m ∈ rs ∧ ∀ r ∈ rs, r ≤ m

theorem loopMaxFl_fin (rs : List ℝ) : ∀ r, ∃ m, loopMaxFl (.fin r) (rs.map .fin) = .fin m ∧ IsLargest m (r :: rs) := by
  induction rs with
  | nil => exact fun r => ⟨r, rfl, by simp, by simp⟩
  | cons a as ih =>
    intro r
    show ∃ m, loopMaxFl (open Classical in if (Fl.fin r).lt (.fin a) then .fin a else .fin r) (as.map .fin) = _ ∧ _
    by_cases h : r < a
    · rw [if_pos (show (Fl.fin r).lt (.fin a) from h)]
      obtain ⟨m, h1, h2, h3⟩ := ih a
      refine ⟨m, h1, List.mem_cons_of_mem _ h2, fun x hx => ?_⟩
      rcases List.mem_cons.1 hx with rfl | hx
      · exact h.le.trans (h3 a (by simp))
      · exact h3 x hx
    · rw [if_neg (show ¬ (Fl.fin r).lt (.fin a) from h)]
      obtain ⟨m, h1, h2, h3⟩ := ih r
      refine ⟨m, h1, ?_, fun x hx => ?_⟩
      · rcases List.mem_cons.1 h2 with rfl | h2
        · simp
        · simp [h2]
      · rcases List.mem_cons.1 hx with rfl | hx
        · exact h3 x (by simp)
        · rcases List.mem_cons.1 hx with rfl | hx
          · exact (not_lt.1 h).trans (h3 r (by simp))
          · exact h3 x (by simp [hx])

theorem argsMaxFl_fin (rs : List ℝ) : ∀ r, ∃ m, argsMaxFl (.fin r) (rs.map .fin) = .fin m ∧ IsLargest m (r :: rs) := by
  induction rs with
  | nil => exact fun r => ⟨r, rfl, by simp, by simp⟩
  | cons a as ih =>
    intro r
    obtain ⟨m, h1, h2, h3⟩ := ih a
    show ∃ m, (open Classical in if (Fl.fin r).lt (argsMaxFl (.fin a) (as.map .fin)) then argsMaxFl (.fin a) (as.map .fin) else .fin r) = _ ∧ _
    rw [h1]
    by_cases h : r < m
    · refine ⟨m, if_pos (show (Fl.fin r).lt (.fin m) from h), List.mem_cons_of_mem _ h2, fun x hx => ?_⟩
      rcases List.mem_cons.1 hx with rfl | hx
      · exact h.le
      · exact h3 x hx
    · refine ⟨r, if_neg (show ¬ (Fl.fin r).lt (.fin m) from h), by simp, fun x hx => ?_⟩
      rcases List.mem_cons.1 hx with rfl | hx
      · exact le_rfl
      · exact (h3 x hx).trans (not_lt.1 h)

theorem flMax_fin (a b : ℝ) : Fl.max (.fin a) (.fin b) = .fin (max a b) := by
  unfold Fl.max
  rw [if_neg (by rintro (h | h) <;> exact absurd h nofun)]
  rcases le_or_gt a b with h | h
  · rw [if_pos (show (Fl.fin a).le (.fin b) from h), max_eq_right h]
  · rw [if_neg (show ¬ (Fl.fin a).le (.fin b) from not_le.2 h), max_eq_left h.le]

theorem opsMaxoutFl_fin (rs : List ℝ) : ∀ r, ∃ m, opsMaxoutFl (.fin r) (rs.map .fin) = .fin m ∧ IsLargest m (r :: rs) := by
  induction rs with
  | nil => exact fun r => ⟨r, rfl, by simp, by simp⟩
  | cons a as ih =>
    intro r
    obtain ⟨m, h1, h2, h3⟩ := ih (max r a)
    refine ⟨m, ?_, ?_, fun x hx => ?_⟩
    · unfold opsMaxoutFl at h1 ⊢
      rw [List.map_cons, List.foldl_cons, flMax_fin, h1]
    · rcases List.mem_cons.1 h2 with rfl | h2
      · rcases max_choice r a with h | h <;> simp [h]
      · simp [h2]
    · have := h3 (max r a) (by simp)
      rcases List.mem_cons.1 hx with rfl | hx
      · exact (le_max_left _ _).trans this
      · rcases List.mem_cons.1 hx with rfl | hx
        · exact (le_max_right _ _).trans this
        · exact h3 x (by simp [hx])

theorem maxoutFl_fin (backend : FlBackend) (r : ℝ) (rs : List ℝ) :
    ∃ m, maxoutFl backend (.fin r) (rs.map .fin) = .fin m ∧ IsLargest m (r :: rs) := by
  cases backend
  · show ∃ m, cpuMaxoutFl _ _ = _ ∧ _
    unfold cpuMaxoutFl
    split
    · exact argsMaxFl_fin rs r
    · split
      · exact argsMaxFl_fin rs r
      · exact loopMaxFl_fin rs r
  · exact opsMaxoutFl_fin rs r
  · exact loopMaxFl_fin rs r

theorem maxTo_ge (f : ℕ → ℝ) : ∀ {n p : ℕ}, p ≤ n → f p ≤ maxTo f n
  | 0, p, h => by rw [Nat.le_zero.1 h]; exact le_rfl
  | n + 1, p, h => by
    rcases Nat.le_succ_iff.1 h with h | rfl
    · exact (maxTo_ge f h).trans (le_max_left _ _)
    · exact le_max_right _ _

theorem maxTo_mem (f : ℕ → ℝ) : ∀ n : ℕ, ∃ p ≤ n, maxTo f n = f p
  | 0 => ⟨0, le_rfl, rfl⟩
  | n + 1 => by
    obtain ⟨p, hp, h⟩ := maxTo_mem f n
    rcases max_choice (maxTo f n) (f (n + 1)) with hm | hm
    · exact ⟨p, by omega, hm.trans h⟩
    · exact ⟨n + 1, le_rfl, hm⟩

theorem largest_maxTo {f : ℕ → ℝ} {n : ℕ} {m : ℝ} (h : IsLargest m (f 0 :: (List.range n).map fun p => f (p + 1))) : m = maxTo f n := by
  obtain ⟨h1, h2⟩ := h
  have hall : ∀ p ≤ n, f p ∈ f 0 :: (List.range n).map fun p => f (p + 1) := by
    intro p hp
    cases p with
    | zero => simp
    | succ p => exact List.mem_cons_of_mem _ (List.mem_map.2 ⟨p, List.mem_range.2 (by omega), rfl⟩)
  have hp : ∃ p ≤ n, m = f p := by
    rcases List.mem_cons.1 h1 with rfl | h1
    · exact ⟨0, by omega, rfl⟩
    · obtain ⟨p, hp, rfl⟩ := List.mem_map.1 h1
      exact ⟨p + 1, by have := List.mem_range.1 hp; omega, rfl⟩
  obtain ⟨p, hp, rfl⟩ := hp
  obtain ⟨q, hq, e⟩ := maxTo_mem f n
  exact le_antisymm (maxTo_ge f hp) (by rw [e]; exact h2 _ (hall q hq))

theorem maxTo_near {f g : ℕ → ℝ} {n : ℕ} {e : ℝ} (h : ∀ p ≤ n, |f p - g p| ≤ e) : |maxTo f n - maxTo g n| ≤ e := by
  obtain ⟨p, hp, e1⟩ := maxTo_mem f n
  obtain ⟨q, hq, e2⟩ := maxTo_mem g n
  have h1 := maxTo_ge g hp
  have h2 := maxTo_ge f hq
  have h3 := abs_le.1 (h p hp)
  have h4 := abs_le.1 (h q hq)
  rw [abs_le]
  constructor <;> linarith [h3.1, h3.2, h4.1, h4.2]

theorem piece_lt {nO n j p : ℕ} (hj : j < nO) (hp : p ≤ n) : j * (n + 1) + p < nO * (n + 1) := by
  have : (j + 1) * (n + 1) ≤ nO * (n + 1) := Nat.mul_le_mul_right _ hj
  rw [Nat.add_mul] at this
  omega

theorem maxout_near {L : FloatLib} {backend : FlBackend} {nO n : ℕ} {Y Z : Mat Fl} {z : ℕ → ℕ → ℝ} {M e : ℝ} (hr : Y.rows = Z.rows) (hc : Y.cols = nO)
    (hz : Z.cols = nO * (n + 1)) (h : ∀ i < Y.rows, ∀ j < Y.cols,
      Y.at i j = maxoutFl backend (Z.at i (j * (n + 1))) ((List.range n).map fun p => Z.at i (j * (n + 1) + (p + 1)))) (hZ : NearMat L Z z M e) :
    NearMat L Y (fun i j => maxTo (fun p => z i (j * (n + 1) + p)) n) M e := by
  intro i hi j hj
  have hj' : j < nO := hc ▸ hj
  have hval : ∀ p ≤ n, |z i (j * (n + 1) + p)| ≤ M ∧ Z.at i (j * (n + 1) + p) = .fin (Z.at i (j * (n + 1) + p)).val ∧
      IsFinite L (Z.at i (j * (n + 1) + p)) ∧ |(Z.at i (j * (n + 1) + p)).val - z i (j * (n + 1) + p)| ≤ e := by
    intro p hp
    obtain ⟨h1, r, h2, h3, h4⟩ := hZ i (hr ▸ hi) (j * (n + 1) + p) (hz ▸ piece_lt hj' hp)
    rw [h2] at h3 ⊢
    exact ⟨h1, rfl, h3, h4⟩
  set f : ℕ → ℝ := fun p => (Z.at i (j * (n + 1) + p)).val with hf
  have e1 : Z.at i (j * (n + 1)) = .fin (f 0) := (hval 0 (Nat.zero_le _)).2.1
  have e2 : ((List.range n).map fun p => Z.at i (j * (n + 1) + (p + 1))) = ((List.range n).map fun p => f (p + 1)).map .fin := by
    rw [List.map_map]
    exact List.map_congr_left fun p hp => (hval (p + 1) (by have := List.mem_range.1 hp; omega)).2.1
  obtain ⟨m, m1, m2⟩ := maxoutFl_fin backend (f 0) ((List.range n).map fun p => f (p + 1))
  have m3 := largest_maxTo m2
  have e3 : Y.at i j = .fin (maxTo f n) := by rw [h i hi j hj, e1, e2, m1, m3]
  obtain ⟨p, hp, ep⟩ := maxTo_mem f n
  obtain ⟨q, hq, eq⟩ := maxTo_mem (fun p => z i (j * (n + 1) + p)) n
  refine ⟨?_, maxTo f n, e3, ?_, maxTo_near fun p hp => (hval p hp).2.2.2⟩
  · show |maxTo (fun p => z i (j * (n + 1) + p)) n| ≤ M
    rw [eq]; exact (hval q hq).1
  · rw [e3, ep, ← (hval p hp).2.1]; exact (hval p hp).2.2.1

end Thinc
