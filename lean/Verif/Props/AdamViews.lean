import Verif.Model.AdamViews
import Verif.Props.Optimizer
/-!
# C143: `ops.adam` called directly
-/
namespace Thinc

/-- What `adam` promises for weights and moments: every element makes its step, and nothing else in the memories changes. -/
structure AdamStep (b1 b2 eps lr modRate : ℝ) (a : AdamArgs) (B B' : AdamBufs) : Prop where
  m1 : ∀ i < a.nw, B'.m1 (a.m1.pos i) = b1 * B.m1 (a.m1.pos i) + (1 - b1) * B.g (a.g.pos i)
  m2 : ∀ i < a.nw, B'.m2 (a.m2.pos i) = b2 * B.m2 (a.m2.pos i) + (1 - b2) * B.g (a.g.pos i) ^ 2
  w : ∀ i < a.nw, B'.w (a.w.pos i) =
    B.w (a.w.pos i) - lr * B'.m1 (a.m1.pos i) / (modRate * Real.sqrt (B'.m2 (a.m2.pos i)) + eps)
  rest_m1 : ∀ j, (∀ i < a.nw, j ≠ a.m1.pos i) → B'.m1 j = B.m1 j
  rest_m2 : ∀ j, (∀ i < a.nw, j ≠ a.m2.pos i) → B'.m2 j = B.m2 j
  rest_w : ∀ j, (∀ i < a.nw, j ≠ a.w.pos i) → B'.w j = B.w j

/-- The four arrays have the same number of elements. -/
def AdamArgs.Same (a : AdamArgs) : Prop := a.nw = a.ng ∧ a.nw = a.n1 ∧ a.nw = a.n2

theorem adamChecks_ok {a : AdamArgs} (h : a.Same) : adamChecks a = .ok () := by
  obtain ⟨h1, h2, h3⟩ := h
  simp [adamChecks, ← h1, ← h2, ← h3]
  rfl

theorem adamChecks_error {a : AdamArgs} (h : ¬ a.Same) : adamChecks a = .error .valueError := by
  unfold adamChecks
  by_cases h1 : a.nw = a.ng
  · by_cases h2 : a.nw = a.n1
    · by_cases h3 : a.nw = a.n2
      · exact absurd ⟨h1, h2, h3⟩ h
      · simp only [ne_eq, h1, not_true_eq_false, if_false]
        simp only [← h1, h2, not_true_eq_false, if_false]
        simp only [← h2, h3, not_false_eq_true, if_true]
        rfl
    · simp only [ne_eq, h1, not_true_eq_false, if_false]
      simp only [← h1, h2, not_false_eq_true, if_true]
      rfl
  · simp only [ne_eq, h1, not_false_eq_true, if_true]
    rfl

theorem View.assign_pos {v : View} (hs : 0 < v.stride) {n i : Nat} (hi : i < n) (f mem : Nat → ℝ) : v.assign n f mem (v.pos i) = f i := by
  have e : v.pos i - v.start = v.stride * i := by simp [View.pos]
  have q : (v.pos i - v.start) / v.stride = i := by rw [e]; exact Nat.mul_div_cancel_left i hs
  have c : v.start ≤ v.pos i ∧ v.stride ∣ v.pos i - v.start ∧ (v.pos i - v.start) / v.stride < n :=
    ⟨by simp [View.pos], by rw [e]; exact Dvd.intro i rfl, by rw [q]; exact hi⟩
  unfold View.assign
  rw [if_pos c, q]

theorem View.assign_rest {v : View} {n : Nat} {f mem : Nat → ℝ} {j : Nat} (h : ∀ i < n, j ≠ v.pos i) : v.assign n f mem j = mem j := by
  unfold View.assign
  refine if_neg fun c => h _ c.2.2 ?_
  have := Nat.mul_div_cancel' c.2.1
  unfold View.pos
  omega

/-- **C143**: arrays of different lengths raise ValueError on both backends, whatever is in them. -/
theorem C143_refused (b1 b2 eps lr modRate : ℝ) (a : AdamArgs) (B : AdamBufs) (h : ¬ a.Same) :
    opsAdamView b1 b2 eps lr modRate a B = .error .valueError ∧ numpyAdamView b1 b2 eps lr modRate a B = .error .valueError := by
  simp only [opsAdamView, numpyAdamView, adamChecks_error h]
  exact ⟨rfl, rfl⟩

example : ¬ (⟨⟨0, 1⟩, ⟨0, 1⟩, ⟨0, 1⟩, ⟨0, 1⟩, 2, 2, 2, 1⟩ : AdamArgs).Same := by simp [AdamArgs.Same]

/-- **C143**: `Ops.adam` makes the promised step for views of every stride and every `mod_rate`, and leaves the gradient as it is. -/
theorem C143_generic (b1 b2 eps lr modRate : ℝ) (a : AdamArgs) (B : AdamBufs) (h : a.Same) (hw : 0 < a.w.stride) (h1 : 0 < a.m1.stride)
    (h2 : 0 < a.m2.stride) :
    ∃ B', opsAdamView b1 b2 eps lr modRate a B = .ok B' ∧ AdamStep b1 b2 eps lr modRate a B B' ∧ B'.g = B.g := by
  simp only [opsAdamView, adamChecks_ok h]
  refine ⟨_, rfl, ⟨?_, ?_, ?_, ?_, ?_, ?_⟩, rfl⟩
  · intro i hi
    simp only [View.assign_pos h1 hi]
    ring
  · intro i hi
    simp only [View.assign_pos h2 hi]
    ring
  · intro i hi
    simp only [View.assign_pos hw hi]
    ring
  · intro j hj
    simp only [View.assign_rest hj]
  · intro j hj
    simp only [View.assign_rest hj]
  · intro j hj
    simp only [View.assign_rest hj]

/-- What the kernel of `NumpyOps` does to the memories behind the data pointers. -/
theorem numpyAdamView_eq (b1 b2 eps lr modRate : ℝ) (a : AdamArgs) (B : AdamBufs) (h : a.Same) :
    ∃ B', numpyAdamView b1 b2 eps lr modRate a B = .ok B' ∧
      (∀ i < a.nw, B'.m1 (a.m1.start + i) = B.m1 (a.m1.start + i) * b1 + B.g (a.g.start + i) * (1 - b1) ∧
        B'.m2 (a.m2.start + i) = B.m2 (a.m2.start + i) * b2 + B.g (a.g.start + i) * B.g (a.g.start + i) * (1 - b2) ∧
        B'.w (a.w.start + i) = B.w (a.w.start + i) - lr * (B'.m1 (a.m1.start + i) / (1 * Real.sqrt (B'.m2 (a.m2.start + i)) + eps)) ∧
        B'.g (a.g.start + i) = 0) ∧
      (∀ j, j < a.m1.start ∨ a.m1.start + a.nw ≤ j → B'.m1 j = B.m1 j) ∧ (∀ j, j < a.m2.start ∨ a.m2.start + a.nw ≤ j → B'.m2 j = B.m2 j) ∧
      (∀ j, j < a.w.start ∨ a.w.start + a.nw ≤ j → B'.w j = B.w j) ∧ (∀ j, j < a.g.start ∨ a.g.start + a.nw ≤ j → B'.g j = B.g j) := by
  have k := C20_fused_kernel b1 b2 eps lr a.nw (behind a.w B.w) ⟨behind a.g B.g, behind a.m1 B.m1, behind a.m2 B.m2⟩
  simp only [numpyAdamView, adamChecks_ok h]
  refine ⟨_, rfl, ?_, ?_, ?_, ?_, ?_⟩
  · intro i hi
    obtain ⟨kw, k1, k2, kg⟩ := (k i).1 hi
    simp only [putBack, Nat.le_add_right, if_true, Nat.add_sub_cancel_left, kw, k1, k2, kg]
    simp only [behind, and_self]
  · intro j hj
    simp only [putBack]
    split_ifs with c
    · rw [((k (j - a.m1.start)).2 (by omega)).2.1]
      simp only [behind, Nat.add_sub_cancel' c]
    · rfl
  · intro j hj
    simp only [putBack]
    split_ifs with c
    · rw [((k (j - a.m2.start)).2 (by omega)).2.2.1]
      simp only [behind, Nat.add_sub_cancel' c]
    · rfl
  · intro j hj
    simp only [putBack]
    split_ifs with c
    · rw [((k (j - a.w.start)).2 (by omega)).1]
      simp only [behind, Nat.add_sub_cancel' c]
    · rfl
  · intro j hj
    simp only [putBack]
    split_ifs with c
    · rw [((k (j - a.g.start)).2 (by omega)).2.2.2]
      simp only [behind, Nat.add_sub_cancel' c]
    · rfl

/-- All four arrays are contiguous. -/
def AdamArgs.Contiguous (a : AdamArgs) : Prop := a.w.stride = 1 ∧ a.g.stride = 1 ∧ a.m1.stride = 1 ∧ a.m2.stride = 1

/-- **C143**, partial: on contiguous arrays and with `mod_rate = 1`, `NumpyOps.adam` makes the promised step, and clears the gradient and
nothing beyond it.  Missing: other strides and other rates, for which it is false (`C143_strided_wrong`, `C143_mod_rate_wrong`). -/
theorem C143_numpy_partial (b1 b2 eps lr : ℝ) (a : AdamArgs) (B : AdamBufs) (h : a.Same) (hc : a.Contiguous) :
    ∃ B', numpyAdamView b1 b2 eps lr 1 a B = .ok B' ∧ AdamStep b1 b2 eps lr 1 a B B' ∧ (∀ i < a.nw, B'.g (a.g.pos i) = 0) ∧
      ∀ j, (∀ i < a.nw, j ≠ a.g.pos i) → B'.g j = B.g j := by
  obtain ⟨B', e, k, r1, r2, rw', rg⟩ := numpyAdamView_eq b1 b2 eps lr 1 a B h
  obtain ⟨cw, cg, c1, c2⟩ := hc
  have out : ∀ (v : View), v.stride = 1 → ∀ j, (∀ i < a.nw, j ≠ v.pos i) → j < v.start ∨ v.start + a.nw ≤ j := by
    intro v hv j hj
    by_contra hn
    refine hj (j - v.start) (by omega) ?_
    simp only [View.pos, hv, one_mul]
    omega
  refine ⟨B', e, ⟨?_, ?_, ?_, fun j hj => r1 j (out _ c1 j hj), fun j hj => r2 j (out _ c2 j hj), fun j hj => rw' j (out _ cw j hj)⟩, ?_,
    fun j hj => rg j (out _ cg j hj)⟩
  · intro i hi
    simp only [View.pos, c1, cg, one_mul, (k i hi).1]
    ring
  · intro i hi
    simp only [View.pos, c2, cg, one_mul, (k i hi).2.1]
    ring
  · intro i hi
    simp only [View.pos, cw, c1, c2, one_mul, (k i hi).2.2.1]
    ring
  · intro i hi
    simp only [View.pos, cg, one_mul, (k i hi).2.2.2]

example : (⟨⟨3, 1⟩, ⟨0, 1⟩, ⟨0, 1⟩, ⟨5, 1⟩, 2, 2, 2, 2⟩ : AdamArgs).Same ∧
    (⟨⟨3, 1⟩, ⟨0, 1⟩, ⟨0, 1⟩, ⟨5, 1⟩, 2, 2, 2, 2⟩ : AdamArgs).Contiguous := by simp [AdamArgs.Same, AdamArgs.Contiguous]

/-- **C143**, where the code falls short: for weights that are a view with a stride of two or more (a column of a matrix), `NumpyOps.adam` leaves
the last weight as it was, whatever the gradient is; and if the first two steps are not zero, it changes a number that is not a weight at
all.  No exception is raised. -/
theorem C143_strided_wrong (b1 b2 eps lr modRate : ℝ) (a : AdamArgs) (B : AdamBufs) (h : a.Same) (hs : 2 ≤ a.w.stride) (hn : 2 ≤ a.nw) :
    ∃ B', numpyAdamView b1 b2 eps lr modRate a B = .ok B' ∧ B'.w (a.w.pos (a.nw - 1)) = B.w (a.w.pos (a.nw - 1)) ∧
      (∀ i, a.w.start + 1 ≠ a.w.pos i) ∧
      (lr * (B'.m1 (a.m1.start + 1) / (Real.sqrt (B'.m2 (a.m2.start + 1)) + eps)) ≠ 0 → B'.w (a.w.start + 1) ≠ B.w (a.w.start + 1)) := by
  obtain ⟨B', e, k, _, _, rw', _⟩ := numpyAdamView_eq b1 b2 eps lr modRate a B h
  refine ⟨B', e, rw' _ (Or.inr ?_), ?_, ?_⟩
  · have : 2 * (a.nw - 1) ≤ a.w.stride * (a.nw - 1) := Nat.mul_le_mul_right _ hs
    simp only [View.pos]
    omega
  · intro i hi
    simp only [View.pos] at hi
    rcases Nat.eq_zero_or_pos i with rfl | hp
    · simp at hi
    · have : 2 * 1 ≤ a.w.stride * i := Nat.mul_le_mul hs hp
      omega
  · intro hne hw
    rw [(k 1 (by omega)).2.2.1, one_mul] at hw
    exact hne (by linarith)

/-- Two weights in every second place, with gradients 1. -/
def exStrided : AdamArgs := ⟨⟨0, 2⟩, ⟨0, 1⟩, ⟨0, 1⟩, ⟨0, 1⟩, 2, 2, 2, 2⟩

/-- All weights and moments are zero, all gradients are 1. -/
def exBufs : AdamBufs := ⟨fun _ => 0, fun _ => 1, fun _ => 0, fun _ => 0⟩

/-- A concrete case: the promised step is not what happens. -/
theorem C143_strided_example_wrong : ∃ B', numpyAdamView 0 0 1 1 1 exStrided exBufs = .ok B' ∧ ¬ AdamStep 0 0 1 1 1 exStrided exBufs B' := by
  obtain ⟨B', e, hl, _, _⟩ := C143_strided_wrong 0 0 1 1 1 exStrided exBufs (by simp [AdamArgs.Same, exStrided]) (by simp [exStrided]) (by simp [exStrided])
  refine ⟨B', e, fun s => ?_⟩
  have hw := s.w 1 (by simp [exStrided])
  have h1 := s.m1 1 (by simp [exStrided])
  have h2 := s.m2 1 (by simp [exStrided])
  have hl' : B'.w (exStrided.w.pos 1) = exBufs.w (exStrided.w.pos 1) := hl
  rw [hl', h1, h2] at hw
  norm_num [exBufs] at hw

/-- **C143**, where the code falls short: `NumpyOps.adam` ignores `mod_rate`, so that its step is the promised one for at most the rate 1. -/
theorem C143_mod_rate_wrong :
    (∀ (b1 b2 eps lr r r' : ℝ) (a : AdamArgs) (B : AdamBufs), numpyAdamView b1 b2 eps lr r a B = numpyAdamView b1 b2 eps lr r' a B) ∧
    ∃ a B B', a.Same ∧ a.Contiguous ∧ numpyAdamView 0 0 1 1 2 a B = .ok B' ∧ ¬ AdamStep 0 0 1 1 2 a B B' := by
  refine ⟨fun _ _ _ _ _ _ _ _ => rfl, ⟨⟨0, 1⟩, ⟨0, 1⟩, ⟨0, 1⟩, ⟨0, 1⟩, 1, 1, 1, 1⟩, exBufs, ?_⟩
  obtain ⟨B', e, s, _, _⟩ := C143_numpy_partial 0 0 1 1 ⟨⟨0, 1⟩, ⟨0, 1⟩, ⟨0, 1⟩, ⟨0, 1⟩, 1, 1, 1, 1⟩ exBufs (by simp [AdamArgs.Same])
    (by simp [AdamArgs.Contiguous])
  refine ⟨B', by simp [AdamArgs.Same], by simp [AdamArgs.Contiguous], e, fun s' => ?_⟩
  have h := s.w 0 (by simp)
  have h' := s'.w 0 (by simp)
  rw [h, s.m1 0 (by simp), s.m2 0 (by simp)] at h'
  norm_num [exBufs] at h'

/-- **C143**: the two backends leave different gradients behind: one unchanged, the other zero. -/
theorem C143_gradient_wrong (b1 b2 eps lr : ℝ) (a : AdamArgs) (B : AdamBufs) (h : a.Same) (hc : a.Contiguous) (i : Nat) (hi : i < a.nw)
    (hg : B.g (a.g.pos i) ≠ 0) :
    ∃ B₁ B₂, opsAdamView b1 b2 eps lr 1 a B = .ok B₁ ∧ numpyAdamView b1 b2 eps lr 1 a B = .ok B₂ ∧
      B₁.g (a.g.pos i) ≠ B₂.g (a.g.pos i) := by
  obtain ⟨cw, cg, c1, c2⟩ := id hc
  obtain ⟨B₁, e1, _, g1⟩ := C143_generic b1 b2 eps lr 1 a B h (by omega) (by omega) (by omega)
  obtain ⟨B₂, e2, _, g2, _⟩ := C143_numpy_partial b1 b2 eps lr a B h hc
  exact ⟨B₁, B₂, e1, e2, by rw [g1, g2 i hi]; exact hg⟩

end Thinc
