import Verif.Props.Float
import Mathlib.Analysis.Complex.ExponentialBounds
import Mathlib.Analysis.SpecialFunctions.Trigonometric.DerivHyp
/-!
# C126: formats that meet the assumptions, and functions that make infinities or NaN out of finite numbers
-/
namespace Thinc
open Spec

/-- Exact arithmetic, but with a largest number, that of float32 about. -/
noncomputable def exactBase : FloatLib := ⟨id, 2 ^ 128, Real.exp, Real.tanh, Real.log, fun _ => .nan⟩

/-- The same, with a sum that goes from the right to the left. -/
noncomputable def exactLib : FloatLib := { exactBase with sum := fun xs => xs.foldr exactBase.add (.fin 0) }

/-- The numbers of float32 that are not negative, without a largest exponent. -/
def grid : Set ℝ := {y | ∃ m e : ℕ, m ≤ 2 ^ 24 ∧ y = m * 2 ^ e / 2 ^ 149}

/-- The largest number of float32 that is not larger than the given one. -/
noncomputable def roundDown (x : ℝ) : ℝ := sSup {y | y ∈ grid ∧ y ≤ x}

/-- Rounding towards zero. -/
noncomputable def rndZero (x : ℝ) : ℝ := open Classical in if 0 ≤ x then roundDown x else -roundDown (-x)

/-- Arithmetic with the numbers of float32, rounded towards zero. -/
noncomputable def float32Base : FloatLib := ⟨rndZero, (2 ^ 24 - 1) * 2 ^ 104, Real.exp, Real.tanh, Real.log, fun _ => .nan⟩

/-- The same, with a sum that goes from the right to the left. -/
noncomputable def float32Lib : FloatLib := { float32Base with sum := fun xs => xs.foldr float32Base.add (.fin 0) }

theorem add_congr {L L' : FloatLib} (h1 : L.rnd = L'.rnd) (h2 : L.big = L'.big) : L.add = L'.add := by
  have h : L.round = L'.round := by
    funext x
    unfold FloatLib.round
    rw [h1, h2]
  funext a b
  cases a <;> cases b <;> simp [FloatLib.add, h]

theorem sums_foldr {L L' : FloatLib} (h : L.add = L'.add) (xs : List Fl) : Sums L xs (xs.foldr L'.add (.fin 0)) := by
  induction xs with
  | nil => exact .zero
  | cons x xs ih =>
    have := Sums.add (zs := x :: xs) (Sums.one x) ih (List.Perm.refl _)
    rw [h] at this
    exact this

theorem exp_twenty : Real.exp 20 ≤ 3 ^ 20 := by
  have h : Real.exp 20 = Real.exp 1 ^ 20 := by rw [← Real.exp_nat_mul]; norm_num
  rw [h]
  exact pow_le_pow_left₀ (Real.exp_pos 1).le (by linarith [Real.exp_one_lt_d9]) 20

theorem tanh_bound (x : ℝ) : |Real.tanh x| ≤ 1 := (Real.abs_tanh_lt_one x).le

/-- Exact arithmetic with a largest number meets the assumptions. -/
theorem exactLib_ok : IsFloatLib exactLib (2 ^ 24) where
  mono := monotone_id
  odd := fun _ => rfl
  idem := fun _ => rfl
  rndBig := rfl
  nat := fun _ _ => rfl
  large := by norm_num [exactLib, exactBase]
  half := rfl
  thousand := by norm_num
  fine := by norm_num [exactLib, exactBase]
  expMono := Real.exp_monotone
  expNonneg := fun x => (Real.exp_pos x).le
  expZero := Real.exp_zero
  expTwenty := by
    show Real.exp 20 + 1 ≤ 2 ^ 128
    have := exp_twenty
    linarith [show (3 : ℝ) ^ 20 + 1 ≤ 2 ^ 128 by norm_num]
  tanh := tanh_bound
  sum := sums_foldr (add_congr rfl rfl)

theorem grid_zero : (0 : ℝ) ∈ grid := ⟨0, 0, by norm_num, by norm_num⟩

theorem roundDown_bdd (x : ℝ) : BddAbove {y | y ∈ grid ∧ y ≤ x} := ⟨x, fun _ h => h.2⟩

theorem roundDown_grid {x : ℝ} (h : x ∈ grid) : roundDown x = x :=
  IsGreatest.csSup_eq ⟨⟨h, le_refl x⟩, fun _ hy => hy.2⟩

theorem roundDown_le {x : ℝ} (h : 0 ≤ x) : roundDown x ≤ x := csSup_le ⟨0, grid_zero, h⟩ fun _ hy => hy.2

theorem roundDown_nonneg {x : ℝ} (h : 0 ≤ x) : 0 ≤ roundDown x := le_csSup (roundDown_bdd x) ⟨grid_zero, h⟩

theorem roundDown_mono {x y : ℝ} (h0 : 0 ≤ x) (h : x ≤ y) : roundDown x ≤ roundDown y :=
  csSup_le_csSup (roundDown_bdd y) ⟨0, grid_zero, h0⟩ fun _ hz => ⟨hz.1, hz.2.trans h⟩

theorem roundDown_idem {x : ℝ} (h : 0 ≤ x) : roundDown (roundDown x) = roundDown x := by
  have : {y | y ∈ grid ∧ y ≤ roundDown x} = {y | y ∈ grid ∧ y ≤ x} := by
    ext y
    exact ⟨fun hy => ⟨hy.1, hy.2.trans (roundDown_le h)⟩, fun hy => ⟨hy.1, le_csSup (roundDown_bdd x) hy⟩⟩
  exact congrArg sSup this

theorem rndZero_pos {x : ℝ} (h : 0 ≤ x) : rndZero x = roundDown x := if_pos h

theorem rndZero_neg {x : ℝ} (h : x ≤ 0) : rndZero x = -roundDown (-x) := by
  rcases lt_or_eq_of_le h with h | rfl
  · exact if_neg (not_le.2 h)
  · rw [rndZero_pos (le_refl 0), neg_zero, roundDown_grid grid_zero, neg_zero]

theorem grid_nat {k : ℕ} (h : k ≤ 2 ^ 24) : (k : ℝ) ∈ grid := ⟨k, 149, h, by field_simp⟩

/-- The numbers of float32 with rounding towards zero meet the assumptions. -/
theorem float32Lib_ok : IsFloatLib float32Lib (2 ^ 24) where
  mono := by
    intro x y h
    show rndZero x ≤ rndZero y
    rcases le_total 0 x with hx | hx
    · rw [rndZero_pos hx, rndZero_pos (hx.trans h)]
      exact roundDown_mono hx h
    · rw [rndZero_neg hx]
      rcases le_total 0 y with hy | hy
      · rw [rndZero_pos hy]
        linarith [roundDown_nonneg hy, roundDown_nonneg (neg_nonneg.2 hx)]
      · rw [rndZero_neg hy]
        exact neg_le_neg (roundDown_mono (neg_nonneg.2 hy) (neg_le_neg h))
  odd := by
    intro x
    show rndZero (-x) = -rndZero x
    rcases le_total 0 x with hx | hx
    · rw [rndZero_pos hx, rndZero_neg (neg_nonpos.2 hx), neg_neg]
    · rw [rndZero_neg hx, rndZero_pos (neg_nonneg.2 hx), neg_neg]
  idem := by
    intro x
    show rndZero (rndZero x) = rndZero x
    rcases le_total 0 x with hx | hx
    · rw [rndZero_pos hx, rndZero_pos (roundDown_nonneg hx), roundDown_idem hx]
    · have h := neg_nonneg.2 hx
      rw [rndZero_neg hx, rndZero_neg (neg_nonpos.2 (roundDown_nonneg h)), neg_neg, roundDown_idem h]
  rndBig := by
    show rndZero ((2 ^ 24 - 1) * 2 ^ 104) = (2 ^ 24 - 1) * 2 ^ 104
    rw [rndZero_pos (by norm_num)]
    exact roundDown_grid ⟨2 ^ 24 - 1, 253, by norm_num, by norm_num⟩
  nat := fun k hk => by
    show rndZero k = k
    rw [rndZero_pos (Nat.cast_nonneg k)]
    exact roundDown_grid (grid_nat hk)
  large := by norm_num [float32Lib, float32Base]
  half := by
    show rndZero (1 / 2) = 1 / 2
    rw [rndZero_pos (by norm_num)]
    exact roundDown_grid ⟨1, 148, by norm_num, by norm_num⟩
  thousand := by norm_num
  fine := by
    show 0 < rndZero (1 / ((2 ^ 24 : ℕ) : ℝ))
    rw [rndZero_pos (by positivity), roundDown_grid ⟨1, 125, by norm_num, by norm_num⟩]
    positivity
  expMono := Real.exp_monotone
  expNonneg := fun x => (Real.exp_pos x).le
  expZero := Real.exp_zero
  expTwenty := by
    show rndZero (Real.exp 20) + 1 ≤ (2 ^ 24 - 1) * 2 ^ 104
    rw [rndZero_pos (Real.exp_pos 20).le]
    have h1 := roundDown_le (Real.exp_pos 20).le
    have := exp_twenty
    linarith [show (3 : ℝ) ^ 20 + 1 ≤ (2 ^ 24 - 1) * 2 ^ 104 by norm_num]
  tanh := tanh_bound
  sum := sums_foldr (add_congr rfl rfl)

/-- `C126_softmax_partial` for three classes, in float32, at the temperature 2. -/
example : ∃ ys, float32Lib.softmaxRow (.fin 2) [.fin (1000 : ℕ), .fin (3 : ℕ), .fin (0 : ℕ)] = .ok ys ∧ ys.length = 3 ∧ ∀ y ∈ ys, Between float32Lib 0 1 y := by
  obtain ⟨ys, h1, h2, h3, -⟩ := C126_softmax_partial float32Lib_ok (T := 2) (by norm_num) [.fin (1000 : ℕ), .fin (3 : ℕ), .fin (0 : ℕ)] (by simp) (by norm_num)
    (fun x hx => by
      simp only [List.mem_cons, List.not_mem_nil, or_false] at hx
      rcases hx with rfl | rfl | rfl
      · exact (natF float32Lib_ok 1000 (by norm_num)).2.2
      · exact (natF float32Lib_ok 3 (by norm_num)).2.2
      · exact (natF float32Lib_ok 0 (by norm_num)).2.2)
  exact ⟨ys, h1, h2, h3⟩

/-- `C126_sigmoid` at minus infinity, and the derivative there. -/
example : IsFinite float32Lib (float32Lib.backpropSigmoid (.fin (7 : ℕ)) (float32Lib.sigmoid (.inf true))) :=
  C126_backprop_sigmoid float32Lib_ok (natF float32Lib_ok 7 (by norm_num)).2.2
    ((C126_sigmoid float32Lib_ok).1 _ (fun h => by cases h) (fun _ h => by cases h))

/-- The largest number of the format. -/
theorem largest_finite {L : FloatLib} {count : ℕ} (ok : IsFloatLib L count) : IsFinite L (.fin L.big) :=
  ⟨_, rfl, ok.rndBig, by rw [abs_of_nonneg (by linarith [ok.bigBound])]⟩

/-- The others at the largest number of the format. -/
example : IsFinite float32Lib (float32Lib.swish (.fin float32Lib.big)) ∧ IsFinite float32Lib (float32Lib.geluApprox (.fin float32Lib.big)) ∧
    IsFinite float32Lib (float32Lib.mish (.fin float32Lib.big) (.fin 20)) :=
  ⟨(C126_swish float32Lib_ok (largest_finite float32Lib_ok)).1, C126_gelu_approx float32Lib_ok (largest_finite float32Lib_ok),
    C126_mish float32Lib_ok (largest_finite float32Lib_ok) _⟩

example (x : ℝ) : Between float32Lib 0 1 (float32Lib.clippedLinear (.fin x) (.fin 5) (.fin 2) (.fin 0) (.fin 1)) :=
  C126_clipped_linear float32Lib_ok (Or.inl ⟨x, rfl⟩) (by norm_num) (by exact_mod_cast (natF float32Lib_ok 0 (by norm_num)).2.2)
    (by exact_mod_cast (natF float32Lib_ok 1 (by norm_num)).2.2)

example (x : Fl) : IsFinite float32Lib (float32Lib.backpropClippedLinear (.fin float32Lib.big) x (.fin 1) (.fin 0) (.fin 1)) :=
  C126_backprop_clipped_linear float32Lib_ok (largest_finite float32Lib_ok)
    ⟨1, rfl, float32Lib_ok.one, by norm_num; linarith [float32Lib_ok.bigBound], by norm_num, le_refl _⟩

example := C126_clip_gradient float32Lib_ok (g := [.fin float32Lib.big, .fin float32Lib.big])
  (fun x hx => by
    simp only [List.mem_cons, List.not_mem_nil, or_false, or_self] at hx
    subst hx
    exact largest_finite float32Lib_ok) (t := 1) (by norm_num)

theorem exact_fin {x : ℝ} (h : |x| ≤ 2 ^ 128) : exactLib.round x = .fin x := if_pos h

theorem exact_inf {x : ℝ} (h : 2 ^ 128 < |x|) : exactLib.round x = .inf (decide (x < 0)) := if_neg (not_le.2 h)

theorem exact_finite {x : ℝ} (h : |x| ≤ 2 ^ 128) : IsFinite exactLib (.fin x) := ⟨x, rfl, rfl, h⟩

theorem exact_square : exactLib.mul (.fin (2 ^ 100)) (.fin (2 ^ 100)) = .inf false := by
  show exactLib.round (2 ^ 100 * 2 ^ 100) = _
  rw [exact_inf (by norm_num)]
  norm_num

/-- C126 fails for `backprop_dish`: the square of a large finite number overflows, and infinity divided by infinity is NaN.  This is so even if all other results
are exact. -/
theorem C126_backprop_dish_wrong : IsFinite exactLib (.fin (2 ^ 100)) ∧ exactLib.backpropDish (.fin 1) (.fin (2 ^ 100)) = .nan := by
  refine ⟨exact_finite (by norm_num), ?_⟩
  have h1 : exactLib.round 0.5 = .fin 0.5 := exact_fin (by norm_num)
  have h2 : exactLib.mul (.fin 0.5) (.fin (2 ^ 100)) = .fin (0.5 * 2 ^ 100) := exact_fin (by norm_num)
  have h3 : exactLib.mul (.fin (0.5 * 2 ^ 100)) (.inf false) = .inf false := by
    show (if (0.5 * 2 ^ 100 : ℝ) = 0 then _ else _) = _
    rw [if_neg (by norm_num)]
    norm_num
  unfold FloatLib.backpropDish
  simp only [exact_square, h1, h2]
  rw [show exactLib.add (.inf false) (.fin 1) = .inf false from rfl, h3]
  rfl

/-- C126 (`dish`): the result is finite but wrong by a factor of two, for the same reason. -/
theorem C126_dish_wrong : exactLib.dish (.fin (2 ^ 100)) = .fin (2 ^ 99) ∧
    (3 / 4) * (2 : ℝ) ^ 100 ≤ 2 ^ 100 * ((2 ^ 100 / Real.sqrt ((2 ^ 100) ^ 2 + 1) + 1) * (1 / 2)) := by
  constructor
  · have h1 : exactLib.round 0.5 = .fin 0.5 := exact_fin (by norm_num)
    unfold FloatLib.dish
    rw [exact_square, h1]
    have h2 : exactLib.add (exactLib.div (.fin (2 ^ 100)) (exactLib.sqrt (exactLib.add (.inf false) (.fin 1)))) (.fin 1) = .fin (0 + 1) :=
      exact_fin (by norm_num)
    rw [h2]
    have h3 : exactLib.mul (.fin (0 + 1)) (.fin 0.5) = .fin ((0 + 1) * 0.5) := exact_fin (by norm_num)
    rw [h3]
    refine (exact_fin (x := 2 ^ 100 * ((0 + 1) * 0.5)) (by norm_num)).trans ?_
    norm_num
  · have h : Real.sqrt ((2 ^ 100) ^ 2 + 1) ≤ 2 * 2 ^ 100 := Real.sqrt_le_iff.2 ⟨by norm_num, by norm_num⟩
    have h0 : 0 < Real.sqrt ((2 ^ 100) ^ 2 + 1) := Real.sqrt_pos.2 (by norm_num)
    have : (1 : ℝ) / 2 ≤ 2 ^ 100 / Real.sqrt ((2 ^ 100) ^ 2 + 1) := by
      rw [div_le_div_iff₀ (by norm_num) h0]
      linarith
    have h4 : (3 : ℝ) / 4 ≤ (2 ^ 100 / Real.sqrt ((2 ^ 100) ^ 2 + 1) + 1) * (1 / 2) := by linarith
    calc (3 / 4) * (2 : ℝ) ^ 100 = 2 ^ 100 * (3 / 4) := by norm_num
      _ ≤ _ := mul_le_mul_of_nonneg_left h4 (by norm_num)

/-- C126 fails for `backprop_mish`: the gradient at a large negative number, where the function is flat, is infinite. -/
theorem C126_backprop_mish_wrong : IsFinite exactLib (.fin (-2 ^ 127)) ∧ exactLib.backpropMish (.fin 1) (.fin (-2 ^ 127)) (.fin 20) = .inf true := by
  refine ⟨exact_finite (by norm_num), ?_⟩
  have e : ∀ x : ℝ, x ≤ 0 → exactLib.exp (.fin x) = .fin (Real.exp x) := fun x hx => by
    refine exact_fin (x := Real.exp x) ?_
    rw [abs_of_nonneg (Real.exp_pos x).le]
    have := Real.exp_le_one_iff.2 hx
    linarith [show (1 : ℝ) ≤ 2 ^ 128 by norm_num]
  have h4 : exactLib.round 4 = .fin 4 := exact_fin (by norm_num)
  have h2 : exactLib.round 2 = .fin 2 := exact_fin (by norm_num)
  have h3 : exactLib.round 3 = .fin 3 := exact_fin (by norm_num)
  have h6 : exactLib.round 6 = .fin 6 := exact_fin (by norm_num)
  have a1 : exactLib.add (.fin (-2 ^ 127)) (.fin 1) = .fin (-2 ^ 127 + 1) := exact_fin (by norm_num)
  have a2 : exactLib.mul (.fin 4) (.fin (-2 ^ 127 + 1)) = .inf true := by
    refine (exact_inf (x := 4 * (-2 ^ 127 + 1)) (by norm_num)).trans ?_
    norm_num
  have a3 : exactLib.mul (.fin 2) (.fin (-2 ^ 127)) = .fin (2 * -2 ^ 127) := exact_fin (by norm_num)
  have a4 : exactLib.mul (.fin 3) (.fin (-2 ^ 127)) = .inf true := by
    refine (exact_inf (x := 3 * -2 ^ 127) (by norm_num)).trans ?_
    norm_num
  have a5 : exactLib.mul (.fin 4) (.fin (-2 ^ 127)) = .inf true := by
    refine (exact_inf (x := 4 * -2 ^ 127) (by norm_num)).trans ?_
    norm_num
  have l : (Fl.fin (-2 ^ 127)).lt (.fin 20) := by
    show (-2 ^ 127 : ℝ) < 20
    norm_num
  have x0 := Real.exp_pos (-2 ^ 127)
  have x1 : Real.exp (-2 ^ 127) ≤ 1 := Real.exp_le_one_iff.2 (by norm_num)
  have y0 := Real.exp_pos (2 * -2 ^ 127)
  have y1 : Real.exp (2 * -2 ^ 127) ≤ 1 := Real.exp_le_one_iff.2 (by norm_num)
  have a6 : exactLib.mul (.fin 4) (.fin (Real.exp (2 * -2 ^ 127))) = .fin (4 * Real.exp (2 * -2 ^ 127)) := by
    refine exact_fin ?_
    rw [abs_of_nonneg (by linarith)]
    linarith [show (4 : ℝ) ≤ 2 ^ 128 by norm_num]
  have a7 : exactLib.mul (.fin (Real.exp (-2 ^ 127))) (.inf true) = .inf true := by
    show (if Real.exp (-2 ^ 127) = 0 then _ else _) = _
    rw [if_neg x0.ne', decide_eq_false (not_lt.2 x0.le)]
    rfl
  have d1 : exactLib.add (.fin (Real.exp (-2 ^ 127))) (.fin 1) = .fin (Real.exp (-2 ^ 127) + 1) := by
    refine exact_fin ?_
    rw [abs_of_nonneg (by linarith)]
    linarith [show (4 : ℝ) ≤ 2 ^ 128 by norm_num]
  unfold FloatLib.backpropMish
  rw [if_pos l]
  simp only [h2, h3, h4, h6, a1, a2, a3, a4, a5, e (-2 ^ 127) (by norm_num), e (2 * -2 ^ 127) (by norm_num), a6, d1,
    show exactLib.exp (.inf true) = .fin 0 from rfl, show ∀ y, exactLib.add (.inf true) (.fin y) = .inf true from fun _ => rfl, a7]
  generalize Real.exp (-2 ^ 127) = z at *
  have q1 : exactLib.mul (.fin (z + 1)) (.fin (z + 1)) = .fin ((z + 1) * (z + 1)) := by
    refine exact_fin ?_
    rw [abs_of_nonneg (mul_self_nonneg _)]
    nlinarith [show (4 : ℝ) ≤ 2 ^ 128 by norm_num]
  have q2 : exactLib.add (.fin ((z + 1) * (z + 1))) (.fin 1) = .fin ((z + 1) * (z + 1) + 1) := by
    refine exact_fin ?_
    rw [abs_of_nonneg (by nlinarith [mul_self_nonneg (z + 1)])]
    nlinarith [show (5 : ℝ) ≤ 2 ^ 128 by norm_num]
  have q3 : exactLib.mul (.fin ((z + 1) * (z + 1) + 1)) (.fin ((z + 1) * (z + 1) + 1)) =
      .fin (((z + 1) * (z + 1) + 1) * ((z + 1) * (z + 1) + 1)) := by
    refine exact_fin ?_
    rw [abs_of_nonneg (mul_self_nonneg _)]
    have b1 : (z + 1) * (z + 1) + 1 ≤ 5 := by nlinarith
    have b0 : 0 ≤ (z + 1) * (z + 1) + 1 := by nlinarith [mul_self_nonneg (z + 1)]
    nlinarith [show (25 : ℝ) ≤ 2 ^ 128 by norm_num]
  have q4 : exactLib.add (.inf true) (.inf true) = .inf true := by simp [FloatLib.add]
  simp only [q1, q2, q3, q4, a7, show ∀ y, exactLib.add (.inf true) (.fin y) = .inf true from fun _ => rfl]
  have q5 : ¬ ((z + 1) * (z + 1) + 1) * ((z + 1) * (z + 1) + 1) < 0 := not_lt.2 (mul_self_nonneg _)
  simp [FloatLib.div, FloatLib.mul, q5]

/-- C126 fails for `softmax` at temperatures below one: the scores overflow when they are divided by the temperature, and the result is NaN. -/
theorem C126_softmax_temperature_wrong : IsFinite exactLib (.fin (2 ^ 128)) ∧ IsFinite exactLib (.fin 0) ∧
    exactLib.softmaxRow (.fin (1 / 2)) [.fin (2 ^ 128), .fin 0] = .ok [.nan, .nan] := by
  refine ⟨exact_finite (by norm_num), exact_finite (by norm_num), ?_⟩
  have h1 : exactLib.div (.fin (2 ^ 128)) (.fin (1 / 2)) = .inf false := by
    refine (if_neg (by norm_num)).trans ((exact_inf (x := 2 ^ 128 / (1 / 2)) (by norm_num)).trans ?_)
    norm_num
  have h2 : exactLib.div (.fin 0) (.fin (1 / 2)) = .fin 0 := by
    refine (if_neg (by norm_num)).trans ((exact_fin (x := 0 / (1 / 2)) (by norm_num)).trans ?_)
    norm_num
  have ht : exactLib.tempered (.fin (1 / 2)) [.fin (2 ^ 128), .fin 0] = [.inf false, .fin 0] := by
    unfold FloatLib.tempered
    rw [if_neg (by simp)]
    simp only [List.map_cons, List.map_nil, h1, h2]
  have hm : Fl.rowMax [.inf false, .fin 0] = .ok (.inf false) := by simp [Fl.rowMax, Fl.max, Fl.le]
  have hs : exactLib.sub (.inf false) (.inf false) = .nan := by simp [FloatLib.sub, FloatLib.neg, FloatLib.add]
  have hs' : exactLib.sub (.fin 0) (.inf false) = .inf true := rfl
  have hsum : exactLib.sum [.nan, .fin 0] = .nan := rfl
  unfold FloatLib.softmaxRow
  rw [ht, hm]
  simp only [bind, Except.bind, pure, Except.pure, List.map_cons, List.map_nil, hs, hs', show exactLib.exp .nan = .nan from rfl,
    show exactLib.exp (.inf true) = .fin 0 from rfl, hsum]
  rfl

/-- C126 (`clip_gradient`): the clipped gradient is finite, but it is zero if the sum of the squares overflows; the direction is lost. -/
theorem C126_clip_gradient_wrong : exactLib.clipGradient [.fin (2 ^ 100)] (.fin 1) = [.fin 0] := by
  have hn : exactLib.norm [.fin (2 ^ 100)] = .inf false := by
    unfold FloatLib.norm
    simp only [List.map_cons, List.map_nil, exact_square]
    rfl
  unfold FloatLib.clipGradient
  rw [hn, if_pos (by trivial)]
  have : exactLib.mul (.fin (2 ^ 100)) (exactLib.div (.fin 1) (.inf false)) = .fin (2 ^ 100 * 0) := exact_fin (by norm_num)
  simp only [List.map_cons, List.map_nil, this, mul_zero]

end Thinc
