import Verif.Lemmas.Maxout
import Verif.Props.PoolMax
/-!
# C41 Maxout
-/
namespace Thinc
open Finset Spec
variable {K : Type}

/-- **C41** (`maxout`): whatever the number of pieces, the result holds per unit the first largest
piece and its value.  The kernel stays inside its buffers and no uninitialised value is returned. -/
theorem C41_maxout [LinearOrder K] (junk : Nat → K) (junkW : Nat → Int) (X : Cube K)
    (hO : 0 < X.d1) (hP : 0 < X.d2) :
    ∃ best which, maxout junk junkW X = .ok (best, which) ∧
      best.rows = X.d0 ∧ best.cols = X.d1 ∧ which.rows = X.d0 ∧ which.cols = X.d1 ∧
      ∀ b < X.d0, ∀ o < X.d1, ∃ w, firstMax (fun p => X.at b o p) X.d2 w ∧
        which.at b o = w ∧ best.at b o = X.at b o w := by
  unfold maxout
  by_cases hB : 0 < X.d0
  · rw [if_pos hB]
    obtain ⟨P, hP'⟩ : ∃ P, X.d2 = P + 1 := ⟨X.d2 - 1, by omega⟩
    simp only [Cube.pointer, if_pos (And.intro hB (And.intro hO hP)), bind, Except.bind]
    obtain ⟨best, which, h1, h2⟩ := cpuMaxout_spec ⟨X.d0 * X.d1, junk⟩ ⟨X.d0 * X.d1, junkW⟩ X.buf
      X.d0 X.d1 P rfl rfl (by simp only [Cube.buf, hP'])
    rw [hP', h1]
    refine ⟨_, _, rfl, rfl, rfl, rfl, rfl, fun b hb o ho => ?_⟩
    obtain ⟨w, a1, a2, a3⟩ := h2 (b * X.d1 + o) (rowMajor_lt hb ho)
    rw [← hP'] at a1 a3
    exact ⟨w, by rw [← hP']; exact a1, a2, a3⟩
  · rw [if_neg hB]
    exact ⟨_, _, rfl, rfl, rfl, rfl, rfl, fun b hb => absurd hb (by omega)⟩

/-- **C41** (`backprop_maxout`): for a non-empty gradient and piece numbers that are not negative, the
gradient of each unit goes to the piece named by `which` and to no other; a piece number that is too
large raises IndexError.  Missing: gradients without elements (`C41_backprop_empty_raises`) and
negative piece numbers (`C41_negative_which`). -/
theorem C41_backprop_maxout_partial [Zero K] (dY : Mat K) (which : Mat Int) (P : Nat)
    (hB : 0 < dY.rows) (hO : 0 < dY.cols) (hr : which.rows = dY.rows) (hc : which.cols = dY.cols)
    (hnn : ∀ b < dY.rows, ∀ o < dY.cols, 0 ≤ which.at b o) :
    ((∀ b < dY.rows, ∀ o < dY.cols, which.at b o < P) →
      ∃ dX, backpropMaxout dY which P = .ok dX ∧ dX.d0 = dY.rows ∧ dX.d1 = dY.cols ∧ dX.d2 = P ∧
        ∀ b < dY.rows, ∀ o < dY.cols, ∀ p < P,
          dX.at b o p = if which.at b o = p then dY.at b o else 0) ∧
    ((∃ b < dY.rows, ∃ o < dY.cols, (P : Int) ≤ which.at b o) →
      backpropMaxout dY which P = .error .indexError) := by
  have hdm : ∀ i < dY.rows * dY.cols, i / dY.cols < dY.rows ∧ i % dY.cols < dY.cols ∧
      which.val i = which.at (i / dY.cols) (i % dY.cols) := by
    intro i hi
    refine ⟨Nat.div_lt_of_lt_mul (by rw [Nat.mul_comm]; exact hi), Nat.mod_lt _ hO, ?_⟩
    simp only [Mat.at, hc, Nat.div_add_mod']
  have key := cpuBackpropMaxout_spec ⟨dY.rows * dY.cols * P, fun _ => (0 : K)⟩ dY.buf which.buf
    dY.rows dY.cols P rfl rfl (by simp only [Mat.buf, hr, hc]) (fun _ => rfl) (by
      intro i hi
      obtain ⟨a, b, c⟩ := hdm i hi
      rw [show which.buf.val i = _ from c]
      exact hnn _ a _ b)
  unfold backpropMaxout
  rw [pointer_ok dY hB hO, pointer_ok which (by omega) (by omega)]
  simp only [bind, Except.bind]
  rcases key with ⟨⟨i, hi, hi2⟩, herr⟩ | ⟨hall, dX, hok, hval⟩
  · rw [herr]
    refine ⟨fun h => ?_, fun _ => rfl⟩
    obtain ⟨a, b, c⟩ := hdm i hi
    have := h _ a _ b
    rw [show which.buf.val i = _ from c] at hi2
    omega
  · rw [hok]
    refine ⟨fun _ => ⟨_, rfl, rfl, rfl, rfl, fun b hb o ho p hp => ?_⟩, fun h => ?_⟩
    · have := hval (b * dY.cols + o) (rowMajor_lt hb ho) p hp
      simp only [Cube.at, Mat.at, hc]
      exact this
    · obtain ⟨b, hb, o, ho, h⟩ := h
      have := hall (b * dY.cols + o) (rowMajor_lt hb ho)
      simp only [Mat.at, hc] at h
      simp only [Mat.buf] at this
      omega

/-- **C41**: forward and backward together.  The gradient given back for the input of `maxout` is the
output gradient at the first largest piece and zero at the other pieces, so the two passes agree:
the inner product of the input with its gradient is the inner product of the output with the
output's gradient. -/
theorem C41_forward_backward [CommRing K] [LinearOrder K] (junk : Nat → K) (junkW : Nat → Int) (X : Cube K)
    (dY : Mat K) (hB : 0 < X.d0) (hO : 0 < X.d1) (hP : 0 < X.d2) (hr : dY.rows = X.d0)
    (hc : dY.cols = X.d1) :
    ∃ best which dX, maxout junk junkW X = .ok (best, which) ∧
      backpropMaxout dY which X.d2 = .ok dX ∧ dX.d0 = X.d0 ∧ dX.d1 = X.d1 ∧ dX.d2 = X.d2 ∧
      (∀ b < X.d0, ∀ o < X.d1, ∀ w, firstMax (fun p => X.at b o p) X.d2 w → ∀ p < X.d2,
        dX.at b o p = if p = w then dY.at b o else 0) ∧
      inner X.d0 X.d1 best.at dY.at =
        ∑ b ∈ range X.d0, ∑ o ∈ range X.d1, ∑ p ∈ range X.d2, X.at b o p * dX.at b o p := by
  obtain ⟨best, which, h1, h2, h3, h4, h5, h6⟩ := C41_maxout junk junkW X hO hP
  have hnn : ∀ b < dY.rows, ∀ o < dY.cols, 0 ≤ which.at b o := by
    intro b hb o ho
    obtain ⟨w, _, a, _⟩ := h6 b (by omega) o (by omega)
    omega
  obtain ⟨g1, _⟩ := C41_backprop_maxout_partial dY which X.d2 (by omega) (by omega) (by omega) (by omega) hnn
  obtain ⟨dX, k1, k2, k3, k4, k5⟩ := g1 (by
    intro b hb o ho
    obtain ⟨w, hw, a, _⟩ := h6 b (by omega) o (by omega)
    have := hw.1
    omega)
  refine ⟨best, which, dX, h1, k1, by omega, by omega, k4, ?_, ?_⟩
  · intro b hb o ho w hw p hp
    rw [k5 b (by omega) o (by omega) p hp]
    obtain ⟨w', hw', a, _⟩ := h6 b hb o ho
    have hww : w = w' := by
      obtain ⟨P, hP'⟩ : ∃ P, X.d2 = P + 1 := ⟨X.d2 - 1, by omega⟩
      rw [hP'] at hw hw'
      rw [← argmaxTo_unique _ P w hw, ← argmaxTo_unique _ P w' hw']
    rw [a, hww]
    by_cases hpw : p = w'
    · rw [if_pos hpw, if_pos (by omega)]
    · rw [if_neg hpw, if_neg (by omega)]
  · simp only [Spec.inner]
    refine Finset.sum_congr rfl fun b hb => Finset.sum_congr rfl fun o ho => ?_
    rw [Finset.mem_range] at hb ho
    obtain ⟨w, hw, a1, a2⟩ := h6 b hb o ho
    rw [a2, Finset.sum_eq_single w]
    · rw [k5 b (by omega) o (by omega) w hw.1, if_pos a1]
    · intro p hp hpw
      rw [Finset.mem_range] at hp
      rw [k5 b (by omega) o (by omega) p hp, if_neg (by omega), mul_zero]
    · intro hno
      exact absurd (Finset.mem_range.2 hw.1) hno

/-- A `2 × 1 × 3` array with a tie. -/
def exCube : Cube ℚ := ⟨2, 1, 3, fun k => [1, 5, 5, 7, 2, 0].getD k 0⟩

example : 0 < exCube.d0 ∧ 0 < exCube.d1 ∧ 0 < exCube.d2 ∧ (Mat.zeros 2 1 : Mat ℚ).rows = exCube.d0 ∧
    (Mat.zeros 2 1 : Mat ℚ).cols = exCube.d1 ∧
    firstMax (fun p => exCube.at 0 0 p) exCube.d2 1 := by
  refine ⟨by decide, by decide, by decide, rfl, rfl, by decide, ?_, ?_⟩ <;> decide +kernel

example : let which : Mat Int := ⟨2, 1, fun k => [1, 0].getD k 0⟩
    (∀ b < 2, ∀ o < 1, 0 ≤ which.at b o) ∧ (∀ b < 2, ∀ o < 1, which.at b o < 3) ∧
    (∃ b < 2, ∃ o < 1, ((1 : Nat) : Int) ≤ which.at b o) := by decide

/-- **C41**: an array with rows but no units or no pieces raises IndexError. -/
theorem C41_empty_units_raise [LinearOrder K] (junk : Nat → K) (junkW : Nat → Int) (X : Cube K)
    (hB : 0 < X.d0) (h : X.d1 = 0 ∨ X.d2 = 0) : maxout junk junkW X = .error .indexError := by
  unfold maxout
  rw [if_pos hB]
  simp only [Cube.pointer, if_neg (show ¬ (0 < X.d0 ∧ 0 < X.d1 ∧ 0 < X.d2) by omega), bind, Except.bind]

example : let X : Cube ℚ := ⟨1, 0, 2, fun _ => 0⟩
    0 < X.d0 ∧ (X.d1 = 0 ∨ X.d2 = 0) := by decide

/-- **C41**, where the claim fails: an empty batch passes `maxout` but its backward pass raises
IndexError. -/
theorem C41_backprop_empty_raises [LinearOrder K] [Zero K] (junk : Nat → K) (junkW : Nat → Int) (X : Cube K)
    (hB : X.d0 = 0) (dY : Mat K) (hr : dY.rows = 0) :
    ∃ best which, maxout junk junkW X = .ok (best, which) ∧ best.rows = 0 ∧
      backpropMaxout dY which X.d2 = .error .indexError := by
  refine ⟨⟨X.d0, X.d1, junk⟩, ⟨X.d0, X.d1, junkW⟩, ?_, hB, ?_⟩
  · unfold maxout
    rw [if_neg (by omega)]
    rfl
  · unfold backpropMaxout
    simp only [Mat.pointer, if_pos (Or.inl hr : dY.rows = 0 ∨ dY.cols = 0), bind, Except.bind]

/-- **C41**, where the claim fails: a negative piece number is not rejected.  For the first unit it
makes the kernel write before the start of the array; for a later one the gradient silently lands
in another unit. -/
theorem C41_negative_which :
    errOf (backpropMaxout (Mat.zeros 1 1 : Mat ℚ) ⟨1, 1, fun _ => -1⟩ 2) = some .outOfBounds ∧
    (∃ dX, backpropMaxout (⟨2, 1, fun _ => 1⟩ : Mat ℚ) ⟨2, 1, fun k => [0, -1].getD k 0⟩ 2 = .ok dX ∧
      dX.at 0 0 1 = 1 ∧ dX.at 1 0 0 = 0 ∧ dX.at 1 0 1 = 0) := by
  refine ⟨by decide +kernel, ?_⟩
  have h : ∃ v, (match backpropMaxout (⟨2, 1, fun _ => 1⟩ : Mat ℚ) ⟨2, 1, fun k => [0, -1].getD k 0⟩ 2 with
      | .ok dX => some (dX.at 0 0 1, dX.at 1 0 0, dX.at 1 0 1)
      | .error _ => none) = some v ∧ v = (1, 0, 0) := ⟨(1, 0, 0), by decide +kernel, rfl⟩
  obtain ⟨v, h1, h2⟩ := h
  split at h1
  · rename_i dX hdX
    refine ⟨dX, hdX, ?_⟩
    rw [h2] at h1
    simp only [Option.some.injEq, Prod.mk.injEq] at h1
    exact h1
  · cases h1

/-- **C41** (generic backend): the same results as the NumPy backend, also for empty batches. -/
theorem C41_generic [LinearOrder K] [Zero K] (X : Cube K) (hP : 0 < X.d2) (dY : Mat K) (W : Mat Int) (P : Nat)
    (hr : W.rows = dY.rows) (hc : W.cols = dY.cols)
    (hW : ∀ b < dY.rows, ∀ o < dY.cols, 0 ≤ W.at b o ∧ W.at b o < P) :
    (∃ best which, opsMaxout X = .ok (best, which) ∧
      best.rows = X.d0 ∧ best.cols = X.d1 ∧ which.rows = X.d0 ∧ which.cols = X.d1 ∧
      ∀ b < X.d0, ∀ o < X.d1, ∃ w, firstMax (fun p => X.at b o p) X.d2 w ∧
        which.at b o = w ∧ best.at b o = X.at b o w) ∧
    (∃ dX, opsBackpropMaxout dY W P = .ok dX ∧ dX.d0 = dY.rows ∧ dX.d1 = dY.cols ∧ dX.d2 = P ∧
      ∀ b < dY.rows, ∀ o < dY.cols, ∀ p < P, dX.at b o p = if W.at b o = p then dY.at b o else 0) := by
  constructor
  · unfold opsMaxout
    rw [if_neg (by omega)]
    refine ⟨_, _, rfl, rfl, rfl, rfl, rfl, fun b hb o ho => ?_⟩
    obtain ⟨P', hP'⟩ : ∃ P', X.d2 = P' + 1 := ⟨X.d2 - 1, by omega⟩
    refine ⟨argmaxTo (fun p => X.at b o p) P', ?_, ?_, ?_⟩
    · rw [hP']
      exact argmaxTo_spec _ P'
    · simp only [Mat.at, hP', listArgmax_map, Cube.at]
    · simp only [Mat.at, hP', listArgmax_map, Cube.at]
  · obtain ⟨v, h1, h2, h3⟩ := forN_nested dY.rows dY.cols (fun (v : Nat → K) b o =>
        if ¬ (b < W.rows ∧ o < W.cols) then .error .indexError
        else
          let w := W.at b o
          if ¬ (-(P : Int) ≤ w ∧ w < P) then .error .indexError
          else
            let w' := (if w < 0 then w + P else w).toNat
            .ok (fun k => if k = (b * dY.cols + o) * P + w' then dY.at b o else v k))
      (fun n v => (∀ k, n * P ≤ k → v k = 0) ∧
        ∀ b < dY.rows, ∀ o < dY.cols, b * dY.cols + o < n → ∀ p < P,
          v ((b * dY.cols + o) * P + p) = if W.at b o = p then dY.at b o else 0)
      (fun _ => 0) ⟨fun _ _ => rfl, fun _ _ _ _ h => absurd h (by omega)⟩
      (by
        rintro b hb o ho v ⟨h1, h2⟩
        obtain ⟨hw1, hw2⟩ := hW b hb o ho
        obtain ⟨w, hwv⟩ := Int.eq_ofNat_of_zero_le hw1
        simp only
        rw [if_neg (by omega), if_neg (by omega)]
        have hw' : (if W.at b o < 0 then W.at b o + P else W.at b o).toNat = w := by
          rw [if_neg (by omega)]
          omega
        rw [hw']
        refine ⟨_, rfl, ?_, ?_⟩
        · intro k hk
          rw [Nat.add_mul, Nat.one_mul] at hk
          rw [if_neg (by omega)]
          exact h1 k (by omega)
        · intro b' hb' o' ho' hlt p hp
          by_cases heq : b' * dY.cols + o' = b * dY.cols + o
          · have e1 : b' = b := by
              rw [← rowMajor_div _ b' o' ho', heq, rowMajor_div _ b o ho]
            have e2 : o' = o := by
              rw [← rowMajor_mod _ b' o' ho', heq, rowMajor_mod _ b o ho]
            subst e1 e2
            by_cases hpw : p = w
            · rw [if_pos (by omega), if_pos (by omega)]
            · rw [if_neg (by omega), if_neg (by omega)]
              exact h1 _ (by omega)
          · have : (b' * dY.cols + o') * P + p < (b * dY.cols + o) * P := rowMajor_lt (by omega) hp
            rw [if_neg (by omega)]
            exact h2 b' hb' o' ho' (by omega) p hp)
    refine ⟨⟨dY.rows, dY.cols, P, v⟩, ?_, rfl, rfl, rfl, fun b hb o ho p hp =>
      h3 b hb o ho (rowMajor_lt hb ho) p hp⟩
    unfold opsBackpropMaxout
    rw [h1]
    rfl

end Thinc
