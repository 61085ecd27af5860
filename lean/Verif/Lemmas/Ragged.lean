import Verif.Model.Ragged
import Verif.Lemmas.Arrays
import Mathlib.Tactic.ByContra
/-! Helper lemmas for ragged batches and Python slices. -/
namespace Thinc
variable {α β : Type}

namespace Spec

/-- Cut a list into consecutive pieces of the given lengths. -/
def cut : List Nat → List β → List (List β)
  | [], _ => []
  | l :: ls, xs => xs.take l :: cut ls (xs.drop l)

end Spec

theorem cut_length (ls : List Nat) (xs : List β) : (Spec.cut ls xs).length = ls.length := by
  induction ls generalizing xs with
  | nil => rfl
  | cons l ls ih => simp [Spec.cut, ih]

theorem cut_drop (ls : List Nat) (a : Nat) (xs : List β) :
    (Spec.cut ls xs).drop a = Spec.cut (ls.drop a) (xs.drop (ls.take a).sum) := by
  induction ls generalizing xs a with
  | nil => simp [Spec.cut]
  | cons l ls ih =>
    cases a with
    | zero => simp
    | succ a => simp [Spec.cut, ih, List.drop_drop]

theorem cut_take (ls : List Nat) (b : Nat) (xs : List β) :
    (Spec.cut ls xs).take b = Spec.cut (ls.take b) (xs.take (ls.take b).sum) := by
  induction ls generalizing xs b with
  | nil => simp [Spec.cut]
  | cons l ls ih =>
    cases b with
    | zero => simp [Spec.cut]
    | succ b =>
      simp only [Spec.cut, List.take_succ_cons, List.sum_cons, ih, List.take_take, List.drop_take]
      congr 1
      · congr 1; omega
      · congr 2; omega

theorem cut_get (ls : List Nat) (k : Nat) (xs : List β) (hk : k < ls.length) :
    (Spec.cut ls xs)[k]? = some ((xs.take (ls.take (k + 1)).sum).drop (ls.take k).sum) := by
  induction ls generalizing xs k with
  | nil => simp at hk
  | cons l ls ih =>
    cases k with
    | zero => simp [Spec.cut]
    | succ k =>
      simp only [List.length_cons] at hk
      simp only [Spec.cut, List.getElem?_cons_succ, ih k _ (by omega), List.take_succ_cons,
        List.sum_cons, List.drop_take, List.drop_drop]
      congr 2
      omega

theorem cut_single (l : Nat) (xs : List β) (h : xs.length = l) : Spec.cut [l] xs = [xs] := by
  simp [Spec.cut, ← h]

theorem cut_flatten (segs : List (List β)) : Spec.cut (segs.map List.length) segs.flatten = segs := by
  induction segs with
  | nil => rfl
  | cons s segs ih => simp [Spec.cut, ih]

theorem cut_lengths (ls : List Nat) (xs : List β) (h : ls.sum = xs.length) :
    (Spec.cut ls xs).map List.length = ls ∧ (Spec.cut ls xs).flatten = xs := by
  induction ls generalizing xs with
  | nil => simp at h; simp [Spec.cut]; exact List.length_eq_zero_iff.1 h.symm
  | cons l ls ih =>
    simp only [List.sum_cons] at h
    obtain ⟨h1, h2⟩ := ih (xs.drop l) (by simp; omega)
    refine ⟨?_, ?_⟩
    · simp only [Spec.cut, List.map_cons, h1, List.length_take]; congr 1; omega
    · simp only [Spec.cut, List.flatten_cons, h2, List.take_append_drop]

theorem cumsum_eq (ls : List Nat) (off : Nat) :
    off :: cumsumFrom off ls = (List.range (ls.length + 1)).map (fun k => off + (ls.take k).sum) := by
  induction ls generalizing off with
  | nil => simp [cumsumFrom]
  | cons l ls ih =>
    rw [cumsumFrom, ih, List.length_cons, List.range_succ_eq_map (n := ls.length + 1)]
    simp only [List.map_cons, List.take_zero, List.sum_nil, Nat.add_zero, List.map_map]
    congr 1
    apply List.map_congr_left
    intro k _
    simp; omega

theorem starts_eq (r : Ragged α) :
    r.starts = (List.range r.lengths.length).map (fun k => (r.lengths.take k).sum) := by
  unfold Ragged.starts Ragged.startsEnds
  rw [cumsum_eq, List.range_succ]
  simp

theorem ends_eq (r : Ragged α) :
    r.ends = (List.range r.lengths.length).map (fun k => (r.lengths.take (k + 1)).sum) := by
  unfold Ragged.ends Ragged.startsEnds
  rw [cumsum_eq, List.range_succ_eq_map]
  simp [List.map_map, Function.comp_def]

/-! ### Slices with step one -/

theorem filter_range_between (n a b : Nat) (hb : b ≤ n) :
    (List.range n).filter (fun k => decide (a ≤ k ∧ k < b)) = List.range' a (b - a) := by
  rcases Nat.lt_or_ge b a with hab | hab
  · have : b - a = 0 := by omega
    rw [this, List.range'_zero, List.filter_eq_nil_iff]
    intro k _; simp; omega
  · have h1 : List.range n = List.range' 0 a ++ List.range' a (b - a) ++ List.range' b (n - b) := by
      rw [List.range_eq_range']
      have e1 : List.range' 0 a ++ List.range' a (b - a) = List.range' 0 b := by
        have := List.range'_append_1 (s := 0) (m := a) (n := b - a)
        rw [Nat.zero_add] at this
        rw [this]; congr 1; omega
      rw [e1]
      have := List.range'_append_1 (s := 0) (m := b) (n := n - b)
      rw [Nat.zero_add] at this
      rw [this]; congr 1; omega
    rw [h1, List.filter_append, List.filter_append]
    have f1 : (List.range' 0 a).filter (fun k => decide (a ≤ k ∧ k < b)) = [] := by
      rw [List.filter_eq_nil_iff]; intro k hk; simp at hk; simp; omega
    have f2 : (List.range' a (b - a)).filter (fun k => decide (a ≤ k ∧ k < b)) =
        List.range' a (b - a) := by
      rw [List.filter_eq_self]; intro k hk; simp at hk; simp; omega
    have f3 : (List.range' b (n - b)).filter (fun k => decide (a ≤ k ∧ k < b)) = [] := by
      rw [List.filter_eq_nil_iff]; intro k hk; simp at hk; simp; omega
    rw [f1, f2, f3]; simp

theorem filterMap_range' (xs : List β) (a m : Nat) (h : a + m ≤ xs.length) :
    (List.range' a m).filterMap (fun k => xs[k]?) = (xs.drop a).take m := by
  induction m generalizing a with
  | zero => simp
  | succ m ih =>
    have ha : a < xs.length := by omega
    rw [List.range'_succ, List.filterMap_cons]
    simp only [ha, List.getElem?_eq_getElem]
    rw [ih (a + 1) (by omega), List.drop_eq_getElem_cons ha, List.take_succ_cons]

theorem clampPos_le (n d : Nat) (hd : d ≤ n) (i : Option Int) : clampPos n d i ≤ n := by
  cases i with
  | none => exact hd
  | some i =>
    unfold clampPos
    simp only
    split
    · omega
    · omega

/-- A slice without a step is "drop, then take". -/
theorem pySlice_step_one (xs : List β) (s : PySlice) (h : s.step = none ∨ s.step = some 1) :
    pySlice xs s = .ok ((xs.take (clampPos xs.length xs.length s.stop)).drop
      (clampPos xs.length 0 s.start)) := by
  have hstep : s.step.getD 1 = 1 := by rcases h with h | h <;> simp [h]
  unfold pySlice PySlice.positions
  simp only [hstep]
  rw [if_neg (by decide), if_pos (by decide)]
  simp only []
  congr 1
  have hb := clampPos_le xs.length xs.length (Nat.le_refl _) s.stop
  generalize clampPos xs.length xs.length s.stop = b at hb
  generalize clampPos xs.length 0 s.start = a
  have : (fun k => decide (a ≤ k ∧ k < b ∧ (k - a) % Int.toNat 1 = 0)) =
      (fun k => decide (a ≤ k ∧ k < b)) := by
    funext k
    simp [Nat.mod_one]
  rw [this, filter_range_between _ _ _ hb]
  rcases Nat.lt_or_ge b a with hab | hab
  · have : b - a = 0 := by omega
    rw [this]
    simp
    omega
  · rw [filterMap_range' _ _ _ (by omega), List.drop_take]

end Thinc
