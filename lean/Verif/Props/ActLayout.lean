import Verif.Model.ActLayout
import Mathlib.Tactic.NormNum
import Mathlib.Tactic.Linarith
/-!
# C144: activations and memory layout
-/
namespace Thinc

/-- Rows one after another. -/
def View2.IsC (v : View2) : Prop := v.s0 = v.cols ∧ v.s1 = 1

/-- Columns one after another. -/
def View2.IsF (v : View2) : Prop := v.s0 = 1 ∧ v.s1 = v.rows

theorem cell_lt {r c i j : Nat} (hi : i < r) (hj : j < c) : c * i + j < r * c := by
  have : c * (i + 1) ≤ c * r := Nat.mul_le_mul_left c hi
  rw [Nat.mul_comm r c]
  rw [Nat.mul_add] at this
  omega

theorem View2.pos_c {v : View2} (h : v.IsC) (i j : Nat) : v.pos i j = v.start + (v.cols * i + j) := by
  simp only [View2.pos, h.1, h.2, one_mul]; omega

theorem View2.pos_f {v : View2} (h : v.IsF) (i j : Nat) : v.pos i j = v.start + (v.rows * j + i) := by
  simp only [View2.pos, h.1, h.2, one_mul]; omega

/-- The elements of a dense matrix are among the numbers the kernels go through. -/
theorem View2.pos_range {v : View2} (h : v.IsC ∨ v.IsF) {i j : Nat} (hi : i < v.rows) (hj : j < v.cols) :
    v.start ≤ v.pos i j ∧ v.pos i j < v.start + v.rows * v.cols := by
  rcases h with h | h
  · rw [View2.pos_c h]
    have := cell_lt hi hj
    omega
  · rw [View2.pos_f h]
    have := cell_lt hj hi
    rw [Nat.mul_comm v.cols] at this
    omega

/-- They are all of these numbers. -/
theorem View2.range_pos {v : View2} (h : v.IsC ∨ v.IsF) {p : Nat} (h1 : v.start ≤ p) (h2 : p < v.start + v.rows * v.cols) :
    ∃ i < v.rows, ∃ j < v.cols, p = v.pos i j := by
  have hr : 0 < v.rows := by
    rcases Nat.eq_zero_or_pos v.rows with e | e
    · rw [e] at h2; omega
    · exact e
  have hc : 0 < v.cols := by
    rcases Nat.eq_zero_or_pos v.cols with e | e
    · rw [e] at h2; omega
    · exact e
  rcases h with h | h
  · refine ⟨(p - v.start) / v.cols, (Nat.div_lt_iff_lt_mul hc).2 (by omega), (p - v.start) % v.cols, Nat.mod_lt _ hc, ?_⟩
    rw [View2.pos_c h, Nat.div_add_mod]
    omega
  · refine ⟨(p - v.start) % v.rows, Nat.mod_lt _ hr, (p - v.start) / v.rows, (Nat.div_lt_iff_lt_mul hr).2 (by rw [Nat.mul_comm]; omega), ?_⟩
    rw [View2.pos_f h, Nat.div_add_mod]
    omega

theorem View2.copy_dense (v : View2) : v.copyLayout.IsC ∨ v.copyLayout.IsF := by
  unfold View2.copyLayout View2.IsC View2.IsF
  split_ifs <;> simp

theorem View2.copy_shape (v : View2) : v.copyLayout.rows = v.rows ∧ v.copyLayout.cols = v.cols := by
  unfold View2.copyLayout
  split_ifs <;> simp

/-- A copy has the same elements. -/
theorem View2.copy_at (v : View2) (mem : Nat → ℝ) {i j : Nat} (hi : i < v.rows) (hj : j < v.cols) :
    v.copyMem mem (v.copyLayout.pos i j) = mem (v.pos i j) := by
  unfold View2.copyMem View2.copyLayout
  by_cases h : v.s1 ≤ v.s0
  · simp only [if_pos h]
    have e : View2.pos ⟨0, v.cols, 1, v.rows, v.cols⟩ i j = v.cols * i + j := by simp [View2.pos]
    rw [e, Nat.mul_add_div (by omega), Nat.div_eq_of_lt hj, Nat.mul_add_mod, Nat.mod_eq_of_lt hj, Nat.add_zero]
  · simp only [if_neg h]
    have e : View2.pos ⟨0, 1, v.rows, v.rows, v.cols⟩ i j = v.rows * j + i := by simp [View2.pos]; omega
    rw [e, Nat.mul_add_div (by omega), Nat.div_eq_of_lt hi, Nat.mul_add_mod, Nat.mod_eq_of_lt hi, Nat.add_zero]

/-- **C144**: an activation that makes a new array gives the right one for every memory layout of its argument: transposed, a part of another
matrix, every second column. -/
theorem C144_forward (f : ℝ → ℝ) (v : View2) (X : Nat → ℝ) :
    let r := numpyAct f false v X
    r.1.rows = v.rows ∧ r.1.cols = v.cols ∧ ∀ i < v.rows, ∀ j < v.cols, r.2 (r.1.pos i j) = f (X (v.pos i j)) := by
  obtain ⟨hr, hc⟩ := v.copy_shape
  refine ⟨hr, hc, fun i hi j hj => ?_⟩
  have hp := View2.pos_range v.copy_dense (i := i) (j := j) (by omega) (by omega)
  simp only [numpyAct, inplaceOrCopy, Bool.false_eq_true, if_false, if_pos hp, v.copy_at X hi hj]

/-- **C144**, for `relu`: the result is the larger of the number and zero. -/
theorem C144_relu (v : View2) (X : Nat → ℝ) (i j : Nat) (hi : i < v.rows) (hj : j < v.cols) :
    let r := numpyAct reluEntry false v X
    r.2 (r.1.pos i j) = max (X (v.pos i j)) 0 := by
  have h := (C144_forward reluEntry v X).2.2 i hi j hj
  simp only at h ⊢
  rw [h]
  unfold reluEntry cpuRelu
  split_ifs with c
  · exact (max_eq_right c).symm
  · exact (max_eq_left (by linarith)).symm

/-- **C144**, partial: in place, the same is true of matrices without gaps, and nothing else in the memory changes.  Missing: matrices with gaps,
for which it is false (`C144_inplace_wrong`). -/
theorem C144_inplace_partial (f : ℝ → ℝ) (v : View2) (h : v.IsC ∨ v.IsF) (X : Nat → ℝ) :
    let r := numpyAct f true v X
    r.1 = v ∧ (∀ i < v.rows, ∀ j < v.cols, r.2 (v.pos i j) = f (X (v.pos i j))) ∧
      ∀ p, (∀ i < v.rows, ∀ j < v.cols, p ≠ v.pos i j) → r.2 p = X p := by
  refine ⟨rfl, fun i hi j hj => ?_, fun p hp => ?_⟩
  · simp only [numpyAct, inplaceOrCopy, if_true, if_pos (View2.pos_range h hi hj)]
  · simp only [numpyAct, inplaceOrCopy, if_true]
    refine if_neg fun c => ?_
    obtain ⟨i, hi, j, hj, e⟩ := View2.range_pos h c.1 c.2
    exact hp i hi j hj e

/-- The left column of a matrix with two columns and two rows. -/
def exColumn : View2 := ⟨0, 2, 1, 2, 1⟩

/-- **C144**, where the code falls short: `relu` in place on a column of a matrix leaves a negative number in the column, and sets one to zero
that is not in it. -/
theorem C144_inplace_wrong :
    let r := numpyAct reluEntry true exColumn (fun _ => -1)
    r.2 (exColumn.pos 1 0) = -1 ∧ r.2 1 = 0 ∧ ∀ i < exColumn.rows, ∀ j < exColumn.cols, 1 ≠ exColumn.pos i j := by
  refine ⟨?_, ?_, ?_⟩
  · norm_num [numpyAct, inplaceOrCopy, exColumn, View2.pos]
  · norm_num [numpyAct, inplaceOrCopy, exColumn, reluEntry, cpuRelu]
  · intro i _ j hj
    simp only [exColumn] at hj
    simp only [exColumn, View2.pos]
    omega

/-- **C144**: gradients of different shapes raise ValueError. -/
theorem C144_refused (b : ℝ → ℝ → ℝ) (inplace : Bool) (d y : View2) (dY Y : Nat → ℝ) :
    numpyActBack b inplace d dY y Y = .error .valueError ↔ ¬ (d.rows = y.rows ∧ d.cols = y.cols) := by
  unfold numpyActBack
  split_ifs with h
  · simp only [true_iff]; tauto
  · simp only [reduceCtorEq, false_iff]; tauto

/-- **C144**, partial: the gradient is right if both matrices have no gaps and the same order of the axes, in place or not.  Missing: matrices of
different layouts, for which it is false (`C144_backward_wrong`). -/
theorem C144_backward_partial (b : ℝ → ℝ → ℝ) (inplace : Bool) (d y : View2) (dY Y : Nat → ℝ) (hr : d.rows = y.rows) (hc : d.cols = y.cols)
    (h : d.IsC ∧ y.IsC ∧ 0 < d.cols ∨ d.IsF ∧ y.IsF ∧ 1 < d.rows) :
    ∃ r, numpyActBack b inplace d dY y Y = .ok r ∧ r.1.rows = d.rows ∧ r.1.cols = d.cols ∧
      ∀ i < d.rows, ∀ j < d.cols, r.2 (r.1.pos i j) = b (dY (d.pos i j)) (Y (y.pos i j)) := by
  have hne : ¬ (d.rows ≠ y.rows ∨ d.cols ≠ y.cols) := by tauto
  refine ⟨_, by unfold numpyActBack; rw [if_neg hne], ?_⟩
  have key : ∃ (x : View2) (m : Nat → ℝ), inplaceOrCopy inplace d dY = (x, m) ∧ x.rows = d.rows ∧ x.cols = d.cols ∧
      (x.IsC ∧ y.IsC ∨ x.IsF ∧ y.IsF) ∧ ∀ i < d.rows, ∀ j < d.cols, m (x.pos i j) = dY (d.pos i j) := by
    cases inplace with
    | true => exact ⟨d, dY, rfl, rfl, rfl, by tauto, fun _ _ _ _ => rfl⟩
    | false =>
      refine ⟨d.copyLayout, d.copyMem dY, rfl, d.copy_shape.1, d.copy_shape.2, ?_, fun i hi j hj => d.copy_at dY hi hj⟩
      rcases h with ⟨hd, hy, h0⟩ | ⟨hd, hy, h0⟩
      · left
        refine ⟨?_, hy⟩
        have : d.s1 ≤ d.s0 := by rw [hd.1, hd.2]; exact h0
        simp [View2.copyLayout, this, View2.IsC]
      · right
        refine ⟨?_, hy⟩
        have : ¬ d.s1 ≤ d.s0 := by rw [hd.1, hd.2]; omega
        simp [View2.copyLayout, this, View2.IsF]
  obtain ⟨x, m, e, xr, xc, hl, hm⟩ := key
  simp only [e]
  refine ⟨xr, xc, fun i hi j hj => ?_⟩
  have hp := View2.pos_range (v := x) (by tauto) (i := i) (j := j) (by omega) (by omega)
  have hp' : x.start ≤ x.pos i j ∧ x.pos i j < x.start + y.rows * y.cols := by rw [← hr, ← hc, ← xr, ← xc]; exact hp
  rw [if_pos hp', hm i hi j hj]
  congr 2
  rcases hl with ⟨hx, hy⟩ | ⟨hx, hy⟩
  · rw [View2.pos_c hx, View2.pos_c hy, xc, hc]; omega
  · rw [View2.pos_f hx, View2.pos_f hy, xr, hr]; omega

example : (⟨0, 3, 1, 2, 3⟩ : View2).IsC ∧ (⟨4, 3, 1, 2, 3⟩ : View2).IsC ∧ (⟨0, 1, 2, 2, 3⟩ : View2).IsF := by
  simp [View2.IsC, View2.IsF]

/-- **C144**, for `relu`: what passes is the gradient where the output was positive. -/
theorem C144_relu_backward_partial (inplace : Bool) (d y : View2) (dY Y : Nat → ℝ) (hr : d.rows = y.rows) (hc : d.cols = y.cols)
    (h : d.IsC ∧ y.IsC ∧ 0 < d.cols ∨ d.IsF ∧ y.IsF ∧ 1 < d.rows) :
    ∃ r, numpyActBack reluBackEntry inplace d dY y Y = .ok r ∧
      ∀ i < d.rows, ∀ j < d.cols, (0 < Y (y.pos i j) → r.2 (r.1.pos i j) = dY (d.pos i j)) ∧ (Y (y.pos i j) ≤ 0 → r.2 (r.1.pos i j) = 0) := by
  obtain ⟨r, e, _, _, k⟩ := C144_backward_partial reluBackEntry inplace d y dY Y hr hc h
  refine ⟨r, e, fun i hi j hj => ?_⟩
  rw [k i hi j hj]
  unfold reluBackEntry cpuBackpropRelu
  exact ⟨fun hp => if_neg (by linarith), fun hn => if_pos hn⟩

/-- **C144**, where the code falls short: a gradient that is a transposed matrix (columns one after another) meets an output with rows one after
another.  Both are matrices without gaps, of the same shape; the gradient of a positive output is lost and that of a zero output passed on,
without an exception. -/
theorem C144_backward_wrong :
    ∃ (d y : View2) (dY Y : Nat → ℝ) (r : View2 × (Nat → ℝ)), d.rows = y.rows ∧ d.cols = y.cols ∧ d.IsF ∧ y.IsC ∧
      numpyActBack reluBackEntry false d dY y Y = .ok r ∧
      (Y (y.pos 0 1) = 1 ∧ dY (d.pos 0 1) = 1 ∧ r.2 (r.1.pos 0 1) = 0) ∧ (Y (y.pos 1 0) = 0 ∧ dY (d.pos 1 0) = 1 ∧ r.2 (r.1.pos 1 0) = 1) := by
  refine ⟨⟨0, 1, 2, 2, 2⟩, ⟨0, 2, 1, 2, 2⟩, fun _ => 1, fun p => if p = 1 then 1 else 0, _, rfl, rfl, ⟨rfl, rfl⟩, ⟨rfl, rfl⟩, rfl, ⟨?_, rfl, ?_⟩, ?_, rfl, ?_⟩
  · simp [View2.pos]
  · simp [inplaceOrCopy, View2.copyLayout, View2.copyMem, View2.pos, reluBackEntry, cpuBackpropRelu]
  · simp [View2.pos]
  · simp [inplaceOrCopy, View2.copyLayout, View2.copyMem, View2.pos, reluBackEntry, cpuBackpropRelu]

end Thinc
