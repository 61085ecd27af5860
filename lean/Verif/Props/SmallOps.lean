import Verif.Model.SmallOps
import Verif.Lemmas.Pad
import Mathlib.Tactic.Linarith
import Mathlib.Tactic.NormNum
/-!
# C142: `insert_into` and `logloss`
-/
namespace Thinc

/-! ### insert_into -/

/-- One step of the loop of `insert_into`. -/
def insertStep {α : Type} (tail : List Nat) (out : List (List (List α))) (p : Arr α × Nat) : Except PyErr (List (List (List α))) :=
  if (out[p.2]?).isNone then .error .indexError else if p.1.tail ≠ tail then .error .valueError else padAssign out p

theorem insertLoop {α : Type} (tail : List Nat) (L : Nat) (z : List α) (more : Nat) (rest : List (Arr α)) :
    ∀ (done : List (List (List α))) (k : Nat), done.length = k → (∀ s ∈ rest, s.len ≤ L ∧ s.tail = tail) →
    forM' (rest.zipIdx k) (done ++ List.replicate (rest.length + more) (List.replicate L z)) (insertStep tail) =
      .ok (done ++ rest.map (fun s => s.rows ++ List.replicate (L - s.len) z) ++ List.replicate more (List.replicate L z)) := by
  induction rest with
  | nil => intro done k _ _; simp [forM']
  | cons s rest ih =>
    intro done k hk hL
    have hs : s.rows.length ≤ L := (hL s (by simp)).1
    have hrep : (s :: rest).length + more = (rest.length + more) + 1 := by simp only [List.length_cons]; omega
    rw [hrep, List.replicate_succ]
    have h1 : (done ++ List.replicate L z :: List.replicate (rest.length + more) (List.replicate L z))[k]? = some (List.replicate L z) := by
      rw [List.getElem?_append_right (by omega)]
      simp [hk]
    have h2 : insertStep tail (done ++ List.replicate L z :: List.replicate (rest.length + more) (List.replicate L z)) (s, k) =
        .ok (done ++ (s.rows ++ List.replicate (L - s.len) z) :: List.replicate (rest.length + more) (List.replicate L z)) := by
      have ht := (hL s (by simp)).2
      simp only [insertStep, h1, Option.isNone_some, Bool.false_eq_true, if_false, ht, ne_eq, not_true_eq_false]
      unfold padAssign
      simp only [h1, Arr.len, assignRows_prefix L z s.rows hs]
      rw [List.set_append_right _ _ (by omega)]
      simp [hk]
    have h3 := ih (done ++ [s.rows ++ List.replicate (L - s.len) z]) (k + 1) (by simp [hk]) (fun t ht => hL t (by simp [ht]))
    simp only [List.append_assoc, List.singleton_append] at h3
    simp only [List.zipIdx_cons, forM', h2, h3, List.map_cons, List.append_assoc, List.cons_append]

theorem insertInto_eq {α : Type} [Zero α] (d0 d1 : Nat) (tail : List Nat) {Xs : List (Arr α)} (h : Xs ≠ []) :
    insertInto d0 d1 tail Xs = match forM' Xs.zipIdx (Arr3.zeros d0 d1 tail : Arr3 α).data (insertStep tail) with
      | .ok d => .ok { (Arr3.zeros d0 d1 tail : Arr3 α) with data := d }
      | .error e => .error e := by
  cases Xs with
  | nil => exact absurd rfl h
  | cons x Xs => rfl

/-- A loop over a list is one over its beginning and one over the rest. -/
theorem forM'_split {σ ε β : Type} (f : σ → β → Except ε σ) (xs ys : List β) (s : σ) :
    forM' (xs ++ ys) s f = match forM' xs s f with
      | .ok t => forM' ys t f
      | .error e => .error e := by
  induction xs generalizing s with
  | nil => rfl
  | cons x xs ih =>
    simp only [List.cons_append, forM']
    cases f s x with
    | ok t => exact ih t
    | error e => rfl

theorem zeros_data {α : Type} [Zero α] (d0 d1 : Nat) (tail : List Nat) :
    (Arr3.zeros d0 d1 tail : Arr3 α).data = List.replicate d0 (List.replicate d1 (List.replicate tail.prod 0)) := rfl

/-- C142: `insert_into(shape, Xs)` for sequences that fit the shape: the sequences one after the other, each followed by zeros, and zeros
in the places that are left. -/
theorem C142_insert_into {α : Type} [Zero α] (d0 d1 : Nat) (tail : List Nat) (Xs : List (Arr α)) (hne : Xs ≠ []) (h0 : Xs.length ≤ d0)
    (h : ∀ s ∈ Xs, s.rows.length ≤ d1 ∧ s.tail = tail) :
    ∃ r, insertInto d0 d1 tail Xs = .ok r ∧ r.d0 = d0 ∧ r.d1 = d1 ∧ r.tail = tail ∧
      (∀ i (hi : i < Xs.length), r.data[i]? = some (Xs[i].rows ++ List.replicate (d1 - Xs[i].rows.length) (List.replicate tail.prod 0))) ∧
      (∀ i, Xs.length ≤ i → i < d0 → r.data[i]? = some (List.replicate d1 (List.replicate tail.prod 0))) ∧ r.data.length = d0 := by
  have key := insertLoop tail d1 (List.replicate tail.prod (0 : α)) (d0 - Xs.length) Xs [] 0 rfl h
  rw [List.nil_append, List.nil_append, show Xs.length + (d0 - Xs.length) = d0 by omega] at key
  refine ⟨_, by rw [insertInto_eq d0 d1 tail hne, zeros_data, key], rfl, rfl, rfl, fun i hi => ?_, fun i h1 h2 => ?_, ?_⟩
  · rw [List.getElem?_append_left (by simpa using hi)]
    simp [hi, Arr.len]
  · rw [List.getElem?_append_right (by simpa using h1)]
    rw [List.getElem?_replicate, if_pos (by simp only [List.length_map]; omega)]
  · simp only [List.length_append, List.length_map, List.length_replicate]
    omega

/-- C142: no sequences at all raise IndexError. -/
theorem C142_insert_nothing {α : Type} [Zero α] (d0 d1 : Nat) (tail : List Nat) : insertInto d0 d1 tail ([] : List (Arr α)) = .error .indexError := rfl

/-- The loop over sequences that fit, and then a rest. -/
theorem insertInto_prefix {α : Type} [Zero α] (d0 d1 : Nat) (tail : List Nat) (Xs : List (Arr α)) (x : Arr α) (Ys : List (Arr α)) (h0 : Xs.length ≤ d0)
    (h : ∀ s ∈ Xs, s.rows.length ≤ d1 ∧ s.tail = tail) {e : PyErr}
    (he : insertStep tail (Xs.map (fun s => s.rows ++ List.replicate (d1 - s.len) (List.replicate tail.prod 0)) ++
      List.replicate (d0 - Xs.length) (List.replicate d1 (List.replicate tail.prod 0))) (x, Xs.length) = .error e) :
    insertInto d0 d1 tail (Xs ++ x :: Ys) = .error e := by
  have key := insertLoop tail d1 (List.replicate tail.prod (0 : α)) (d0 - Xs.length) Xs [] 0 rfl h
  rw [List.nil_append, List.nil_append, show Xs.length + (d0 - Xs.length) = d0 by omega] at key
  rw [insertInto_eq d0 d1 tail (by simp), zeros_data, List.zipIdx_append, forM'_split, key]
  simp only [List.zipIdx_cons, forM', Nat.zero_add, he]

/-- C142: more sequences than the shape has place for raise IndexError. -/
theorem C142_insert_too_many {α : Type} [Zero α] (d0 d1 : Nat) (tail : List Nat) (Xs : List (Arr α)) (h0 : d0 < Xs.length)
    (h : ∀ s ∈ Xs.take d0, s.rows.length ≤ d1 ∧ s.tail = tail) : insertInto d0 d1 tail Xs = .error .indexError := by
  have e : Xs = Xs.take d0 ++ Xs[d0] :: Xs.drop (d0 + 1) := by rw [← List.drop_eq_getElem_cons h0, List.take_append_drop]
  have hl : (Xs.take d0).length = d0 := by rw [List.length_take]; omega
  rw [e]
  refine insertInto_prefix d0 d1 tail _ _ _ (by omega) h ?_
  unfold insertStep
  rw [List.getElem?_eq_none (by simp only [List.length_append, List.length_map, List.length_replicate]; omega)]
  rfl

/-- C142, partial: a sequence (of more than one row) that is longer than the shape allows raises ValueError.  Missing: a sequence of one row,
which is lost (`C142_insert_lost_wrong`). -/
theorem C142_insert_too_long_partial {α : Type} [Zero α] (d0 d1 : Nat) (tail : List Nat) (Xs : List (Arr α)) (x : Arr α) (Ys : List (Arr α))
    (h0 : Xs.length < d0) (h : ∀ s ∈ Xs, s.rows.length ≤ d1 ∧ s.tail = tail) (hx : d1 < x.rows.length) (h1 : 1 < x.rows.length) :
    insertInto d0 d1 tail (Xs ++ x :: Ys) = .error .valueError := by
  refine insertInto_prefix d0 d1 tail _ _ _ (by omega) h ?_
  have hget : (Xs.map (fun s => s.rows ++ List.replicate (d1 - s.len) (List.replicate tail.prod (0 : α))) ++
      List.replicate (d0 - Xs.length) (List.replicate d1 (List.replicate tail.prod (0 : α))))[Xs.length]? =
        some (List.replicate d1 (List.replicate tail.prod 0)) := by
    rw [List.getElem?_append_right (by simp), List.getElem?_replicate, if_pos (by simp only [List.length_map]; omega)]
  simp only [insertStep, hget, Option.isNone_some, Bool.false_eq_true, if_false]
  by_cases ht : x.tail = tail
  · rw [if_neg (by simpa using ht)]
    have ha : assignRows (List.replicate d1 (List.replicate tail.prod (0 : α))) 0 x.len x.rows = .error .valueError := by
      unfold assignRows
      simp only [Arr.len, List.length_replicate, Nat.zero_add, Nat.sub_zero]
      rw [if_neg (by omega)]
      match hr : x.rows with
      | [] => simp [hr] at h1
      | [_] => simp [hr] at h1
      | _ :: _ :: _ => rfl
    simp only [padAssign, hget, ha]
  · rw [if_pos ht]

/-- C142 is false for a sequence of one row and a shape without place for it: it is lost without an error. -/
theorem C142_insert_lost_wrong {α : Type} [Zero α] (tail : List Nat) (r : List α) :
    insertInto 1 0 tail [⟨tail, [r]⟩] = .ok ⟨1, 0, tail, [[]]⟩ := by
  simp [insertInto, Arr3.zeros, forM', padAssign, assignRows, Arr.len]

example : insertInto 3 2 [1] [⟨[1], [[5], [6]]⟩, ⟨[1], [[7]]⟩] = .ok ⟨3, 2, [1], [[[5], [6]], [[7], [0]], [[0], [(0 : ℕ)]]]⟩ := by decide
example : insertInto 1 2 [1] [⟨[1], [[(5 : ℕ)]]⟩, ⟨[1], [[7]]⟩] = .error .indexError := by decide
example : insertInto 2 1 [1] [⟨[1], [[(5 : ℕ)]]⟩, ⟨[1], [[7], [8]]⟩] = .error .valueError := by decide

/-! ### logloss -/

theorem log_shift_bounds {p : ℝ} (h0 : 0 ≤ p) (h1 : p ≤ 1) : Real.log 1e-8 ≤ Real.log (p + 1e-8) ∧ Real.log (p + 1e-8) ≤ 1e-8 := by
  constructor
  · exact Real.log_le_log (by norm_num) (by linarith)
  · have := Real.log_le_sub_one_of_pos (show (0 : ℝ) < p + 1e-8 by norm_num; linarith)
    linarith

/-- C142, partial: the log loss is finite for all labels and predictions between 0 and 1, also where a prediction is exactly wrong, and hardly
negative.  Missing: that it is never negative, which is false (`C142_logloss_negative_wrong`). -/
theorem C142_logloss_bounds_partial {y p : ℝ} (hy0 : 0 ≤ y) (hy1 : y ≤ 1) (h0 : 0 ≤ p) (h1 : p ≤ 1) :
    -1e-8 ≤ logloss y p ∧ logloss y p ≤ -Real.log 1e-8 := by
  obtain ⟨a1, a2⟩ := log_shift_bounds h0 h1
  obtain ⟨b1, b2⟩ := log_shift_bounds (p := 1 - p) (by linarith) (by linarith)
  simp only [logloss]
  constructor <;> nlinarith

/-- C142: the greater the prediction, the smaller is the loss of a positive example and the greater that of a negative one. -/
theorem C142_logloss_mono {p q : ℝ} (h0 : 0 ≤ p) (hpq : p < q) (h1 : q ≤ 1) : logloss 1 q < logloss 1 p ∧ logloss 0 p < logloss 0 q := by
  have a := Real.log_lt_log (show (0 : ℝ) < p + 1e-8 by norm_num; linarith) (show p + 1e-8 < q + 1e-8 by linarith)
  have b := Real.log_lt_log (show (0 : ℝ) < (1 - q) + 1e-8 by norm_num; linarith) (show (1 - q) + 1e-8 < (1 - p) + 1e-8 by linarith)
  simp only [logloss]
  constructor <;> linarith

/-- C142: the loss of the opposite prediction for the opposite label is the same. -/
theorem C142_logloss_symmetric (y p : ℝ) : logloss (1 - y) (1 - p) = logloss y p := by
  simp only [logloss, sub_sub_cancel]
  ring

/-- C142 is false in one point: the loss of a perfect prediction is less than zero. -/
theorem C142_logloss_negative_wrong : logloss 1 1 < 0 ∧ logloss 0 0 < 0 := by
  have := Real.log_pos (show (1 : ℝ) < 1 + 1e-8 by norm_num)
  constructor <;> simp only [logloss, sub_self, sub_zero, zero_mul, one_mul, zero_add, add_zero] <;> linarith

example : logloss 1 0.9 < logloss 1 0.5 := (C142_logloss_mono (by norm_num) (by norm_num) (by norm_num)).1

end Thinc
