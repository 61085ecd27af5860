import Verif.Model.Arrays
import Mathlib.Data.List.Basic
/-! Helper lemmas for `Verif.Model.Arrays`. -/
namespace Thinc
variable {α : Type}

theorem split_aux (x : Arr α) (segs : List (List (List α))) (rest : List (List α)) :
    ∀ (P : List (List α)) (off : Nat), P.length = off → x.rows = P ++ (segs.flatten ++ rest) →
    (List.zip (off :: cumsumFrom off (segs.map List.length))
      (cumsumFrom off (segs.map List.length) ++ [x.len])).map (fun p => x.slice p.1 p.2) =
      segs.map (fun s => (⟨x.tail, s⟩ : Arr α)) ++ [⟨x.tail, rest⟩] := by
  induction segs with
  | nil =>
    intro P off hP hx
    simp [cumsumFrom, Arr.slice, Arr.len, hx, ← hP, List.take_append]
  | cons s segs ih =>
    intro P off hP hx
    have := ih (P ++ s) (off + s.length) (by simp [hP]) (by simp [hx])
    simp only [List.map_cons, cumsumFrom, List.cons_append, List.zip_cons_cons]
    rw [this]
    congr 1
    simp [Arr.slice, hx, ← hP, List.take_append]

theorem npSplit_segs (x : Arr α) (segs : List (List (List α))) (rest : List (List α))
    (hx : x.rows = segs.flatten ++ rest) :
    npSplit x (cumsumFrom 0 (segs.map List.length)) =
      segs.map (fun s => (⟨x.tail, s⟩ : Arr α)) ++ [⟨x.tail, rest⟩] :=
  split_aux x segs rest [] 0 rfl (by simpa using hx)

theorem npConcatenate_ok (xs : List (Arr α)) (tail : List Nat) (h : ∀ x ∈ xs, x.tail = tail)
    (hne : xs ≠ []) : npConcatenate xs = .ok ⟨tail, (xs.map Arr.rows).flatten⟩ := by
  cases xs with
  | nil => exact absurd rfl hne
  | cons x xs =>
    have hx := h x (by simp)
    have : xs.all (fun y => y.tail == x.tail) = true := by
      simp only [List.all_eq_true, beq_iff_eq]
      intro y hy; rw [h y (by simp [hy]), hx]
    simp only [npConcatenate]; rw [if_pos this, hx]

theorem npConcatenate_err (xs : List (Arr α)) {a b : Arr α} (ha : a ∈ xs) (hb : b ∈ xs)
    (hab : a.tail ≠ b.tail) : npConcatenate xs = .error .valueError := by
  cases xs with
  | nil => rfl
  | cons x xs =>
    simp only [npConcatenate]
    rw [if_neg]
    intro hall
    simp only [List.all_eq_true, beq_iff_eq] at hall
    have key : ∀ y ∈ x :: xs, y.tail = x.tail := by
      intro y hy
      rcases List.mem_cons.1 hy with rfl | hy
      · rfl
      · exact hall y hy
    exact hab ((key a ha).trans (key b hb).symm)

theorem foldl_max_init (l : List Nat) : ∀ a, a ≤ l.foldl max a := by
  induction l with
  | nil => intro a; simp
  | cons b l ih => intro a; exact Nat.le_trans (Nat.le_max_left a b) (ih _)

theorem le_foldl_max (l : List Nat) : ∀ a, ∀ b ∈ l, b ≤ l.foldl max a := by
  induction l with
  | nil => intro a b hb; simp at hb
  | cons c l ih =>
    intro a b hb
    rcases List.mem_cons.1 hb with rfl | hb
    · exact Nat.le_trans (Nat.le_max_right a b) (foldl_max_init l _)
    · exact ih _ b hb

theorem foldl_max_mem (l : List Nat) : ∀ a, l.foldl max a = a ∨ l.foldl max a ∈ l := by
  induction l with
  | nil => intro a; simp
  | cons c l ih =>
    intro a
    rcases ih (max a c) with h | h
    · rcases Nat.le_total a c with hac | hac
      · right; simp only [List.foldl_cons]; rw [h, Nat.max_eq_right hac]; simp
      · left; simp only [List.foldl_cons]; rw [h, Nat.max_eq_left hac]
    · right; simp only [List.foldl_cons]; exact List.mem_cons_of_mem _ h

end Thinc
