import Verif.Spec.Initializers
import Mathlib.Data.List.GetD
/-!
# C103: what initializers return
-/
namespace Thinc
open Initializers Spec Container

variable {σ : Type}

/-! ### Draws -/

theorem drawMany_length (next : σ → ℝ × σ) (n : ℕ) (s : σ) : (drawMany next n s).1.length = n := by
  induction n generalizing s with
  | zero => rfl
  | succ n ih => simp [drawMany, ih]

theorem drawMany_after (next : σ → ℝ × σ) (n : ℕ) (s : σ) : (drawMany next n s).2 = afterDraws next n s := by
  induction n generalizing s with
  | zero => rfl
  | succ n ih => simp [drawMany, afterDraws, ih]

theorem drawMany_get (next : σ → ℝ × σ) (n : ℕ) (s : σ) (k : ℕ) (hk : k < n) :
    (drawMany next n s).1[k]? = some (nthDraw next k s) := by
  induction n generalizing s k with
  | zero => omega
  | succ n ih =>
    cases k with
    | zero => simp [drawMany, nthDraw]
    | succ k => simpa [drawMany, nthDraw] using ih (next s).2 k (by omega)

theorem npNormal_ok (rng : Rng σ) (scale : ℝ) (h : 0 ≤ scale) (shape : List ℕ) (s : σ) :
    npNormal rng 0 scale shape s = .ok (⟨shape, (drawMany rng.normal shape.prod s).1.map fun z => scale * z⟩,
      afterDraws rng.normal shape.prod s) := by
  simp [npNormal, not_lt.2 h, drawMany_after]

theorem npUniform_sym (rng : Rng σ) (scale : ℝ) (shape : List ℕ) (s : σ) :
    npUniform rng (-scale) scale shape s = (⟨shape, (drawMany rng.uniform shape.prod s).1.map fun u => scale * (2 * u - 1)⟩,
      afterDraws rng.uniform shape.prod s) := by
  have : (fun u : ℝ => -scale + (scale - -scale) * u) = fun u => scale * (2 * u - 1) := by funext u; ring
  simp only [npUniform, this, drawMany_after]

theorem sqrtOver_ok (c : ℝ) (n : ℕ) (h : 0 < n) : sqrtOver c n = .ok √(c / n) := by
  simp [sqrtOver, show n ≠ 0 by omega]

/-- What a scheme returns, in terms of draws. -/
theorem scheme_run (sch : Scheme) (rng : Rng σ) (d0 d1 : ℕ) (rest : List ℕ) (h : 0 < d1) (s : σ) :
    sch.run rng (d0 :: d1 :: rest) s = .ok (⟨d0 :: d1 :: rest, (drawMany (sch.next rng) (d0 :: d1 :: rest).prod s).1.map
      (sch.weight (sch.variance d0 d1))⟩, afterDraws (sch.next rng) (d0 :: d1 :: rest).prod s) := by
  have e3 : ∀ a b : ℝ, 3 * (a / b) = 3 * a / b := fun a b => (mul_div_assoc 3 a b).symm
  cases sch
  · simp only [Scheme.run, lecunNormalInit, axisOf, List.getElem?_cons_succ, List.getElem?_cons_zero, bind, Except.bind,
      sqrtOver_ok _ _ h, npNormal_ok _ _ (Real.sqrt_nonneg _), Scheme.next, Scheme.variance]
    rfl
  · simp only [Scheme.run, heNormalInit, axisOf, List.getElem?_cons_succ, List.getElem?_cons_zero, bind, Except.bind,
      sqrtOver_ok _ _ h, npNormal_ok _ _ (Real.sqrt_nonneg _), Scheme.next, Scheme.variance]
    rfl
  · simp only [Scheme.run, glorotNormalInit, axisOf, List.getElem?_cons_succ, List.getElem?_cons_zero, bind, Except.bind,
      sqrtOver_ok _ (d1 + d0) (by omega), npNormal_ok _ _ (Real.sqrt_nonneg _), Scheme.next, Scheme.variance, Nat.cast_add]
    rfl
  · simp only [Scheme.run, lecunUniformInit, axisOf, List.getElem?_cons_succ, List.getElem?_cons_zero, bind, Except.bind,
      sqrtOver_ok _ _ h, npUniform_sym, Scheme.next, Scheme.variance]
    unfold Scheme.weight
    simp only [e3, mul_one]
  · simp only [Scheme.run, heUniformInit, axisOf, List.getElem?_cons_succ, List.getElem?_cons_zero, bind, Except.bind,
      sqrtOver_ok _ _ h, npUniform_sym, Scheme.next, Scheme.variance]
    unfold Scheme.weight
    simp only [e3, show (3 : ℝ) * 2 = 6 by norm_num]
  · simp only [Scheme.run, glorotUniformInit, axisOf, List.getElem?_cons_succ, List.getElem?_cons_zero, bind, Except.bind,
      sqrtOver_ok _ (d0 + d1) (by omega), npUniform_sym, Scheme.next, Scheme.variance, Nat.cast_add]
    unfold Scheme.weight
    simp only [e3, show (3 : ℝ) * 2 = 6 by norm_num, add_comm]

/-! ### C103 -/

/-- C103: for a shape with at least two axes, of which the second is not empty, the result has the shape that was asked for; every
entry is computed from a draw of its own, and the generator continues after these draws. -/
theorem C103_scheme (sch : Scheme) (rng : Rng σ) (d0 d1 : ℕ) (rest : List ℕ) (h : 0 < d1) (s : σ) :
    ∃ a, sch.run rng (d0 :: d1 :: rest) s = .ok (a, afterDraws (sch.next rng) (d0 :: d1 :: rest).prod s) ∧
      a.shape = d0 :: d1 :: rest ∧ WellShaped a ∧
      ∀ k (hk : k < a.data.length), a.data[k] = sch.weight (sch.variance d0 d1) (nthDraw (sch.next rng) k s) := by
  refine ⟨_, scheme_run sch rng d0 d1 rest h s, rfl, by simp [WellShaped, drawMany_length], fun k hk => ?_⟩
  simp only [List.length_map, drawMany_length] at hk
  have := drawMany_get (sch.next rng) _ s k hk
  simp only [List.getElem_map]
  rw [List.getElem?_eq_getElem (by rw [drawMany_length]; exact hk)] at this
  rw [Option.some.inj this]

/-- C103: the uniform schemes stay within their limits. -/
theorem C103_limit (sch : Scheme) (hs : sch = .lecunUniform ∨ sch = .heUniform ∨ sch = .glorotUniform) (rng : Rng σ)
    (hr : ∀ s, 0 ≤ (rng.uniform s).1 ∧ (rng.uniform s).1 < 1) (d0 d1 : ℕ) (rest : List ℕ) (s s' : σ) (a : NdArray ℝ)
    (ha : sch.run rng (d0 :: d1 :: rest) s = .ok (a, s')) : ∀ x ∈ a.data, -sch.limit d0 d1 ≤ x ∧ x ≤ sch.limit d0 d1 := by
  have hd : ∀ n s, ∀ u ∈ (drawMany rng.uniform n s).1, 0 ≤ u ∧ u < 1 := by
    intro n
    induction n with
    | zero => intro s u hu; simp [drawMany] at hu
    | succ n ih =>
      intro s u hu
      rcases List.mem_cons.1 hu with rfl | hu
      · exact hr s
      · exact ih _ u hu
  have key : ∀ (scale : ℝ), 0 ≤ scale → ∀ x ∈ (npUniform rng (-scale) scale (d0 :: d1 :: rest) s).1.data, -scale ≤ x ∧ x ≤ scale := by
    intro scale h0 x hx
    obtain ⟨u, hu, rfl⟩ := List.mem_map.1 hx
    obtain ⟨h1, h2⟩ := hd _ _ u hu
    constructor <;> nlinarith
  have pos : ∀ (c : ℝ) (n : ℕ) (r : ℝ), sqrtOver c n = .ok r → r = √(c / n) := by
    intro c n r h
    by_cases h0 : n = 0
    · simp [sqrtOver, h0] at h
    · rw [sqrtOver, if_neg h0] at h; exact (Except.ok.inj h).symm
  rcases hs with rfl | rfl | rfl
  · simp only [Scheme.run, lecunUniformInit, axisOf, List.getElem?_cons_succ, List.getElem?_cons_zero, bind, Except.bind] at ha
    cases hq : sqrtOver 3 d1 with
    | error e => rw [hq] at ha; simp at ha
    | ok r =>
      rw [hq] at ha
      simp only [Except.ok.injEq] at ha
      have := key r (by rw [pos _ _ _ hq]; exact Real.sqrt_nonneg _)
      rw [ha, pos _ _ _ hq] at this
      exact this
  · simp only [Scheme.run, heUniformInit, axisOf, List.getElem?_cons_succ, List.getElem?_cons_zero, bind, Except.bind] at ha
    cases hq : sqrtOver 6 d1 with
    | error e => rw [hq] at ha; simp at ha
    | ok r =>
      rw [hq] at ha
      simp only [Except.ok.injEq] at ha
      have := key r (by rw [pos _ _ _ hq]; exact Real.sqrt_nonneg _)
      rw [ha, pos _ _ _ hq] at this
      exact this
  · simp only [Scheme.run, glorotUniformInit, axisOf, List.getElem?_cons_succ, List.getElem?_cons_zero, bind, Except.bind] at ha
    cases hq : sqrtOver 6 (d0 + d1) with
    | error e => rw [hq] at ha; simp at ha
    | ok r =>
      rw [hq] at ha
      simp only [Except.ok.injEq] at ha
      have := key r (by rw [pos _ _ _ hq]; exact Real.sqrt_nonneg _)
      rw [ha, pos _ _ _ hq, Nat.cast_add, add_comm] at this
      exact this

/-- C103: `uniform_init` has the shape that was asked for, with entries between `lo` and `hi`. -/
theorem C103_uniform (rng : Rng σ) (hr : ∀ s, 0 ≤ (rng.uniform s).1 ∧ (rng.uniform s).1 < 1) (lo hi : ℝ) (h : lo ≤ hi)
    (shape : List ℕ) (s : σ) :
    (uniformInit rng lo hi shape s).1.shape = shape ∧ WellShaped (uniformInit rng lo hi shape s).1 ∧
      (∀ x ∈ (uniformInit rng lo hi shape s).1.data, lo ≤ x ∧ x ≤ hi) ∧
      (uniformInit rng lo hi shape s).2 = afterDraws rng.uniform shape.prod s := by
  refine ⟨rfl, by simp [uniformInit, npUniform, WellShaped, drawMany_length], ?_, drawMany_after _ _ _⟩
  have hd : ∀ n s, ∀ u ∈ (drawMany rng.uniform n s).1, 0 ≤ u ∧ u < 1 := by
    intro n
    induction n with
    | zero => intro s u hu; simp [drawMany] at hu
    | succ n ih =>
      intro s u hu
      rcases List.mem_cons.1 hu with rfl | hu
      · exact hr s
      · exact ih _ u hu
  intro x hx
  obtain ⟨u, hu, rfl⟩ := List.mem_map.1 hx
  obtain ⟨h1, h2⟩ := hd _ _ u hu
  constructor <;> nlinarith

/-- C103: `zero_init` gives zeros and draws nothing. -/
theorem C103_zero (shape : List ℕ) (s : σ) :
    (zeroInit shape s).1.shape = shape ∧ WellShaped (zeroInit shape s).1 ∧ (∀ x ∈ (zeroInit shape s).1.data, x = 0) ∧
      (zeroInit shape s).2 = s := by
  refine ⟨rfl, by simp [zeroInit, WellShaped], ?_, rfl⟩
  intro x hx
  exact (List.mem_replicate.1 hx).2

/-- C103 fails for shapes with one axis, or none: all initializers that take their scale from the shape raise `IndexError`. -/
theorem C103_one_axis_violated (sch : Scheme) (rng : Rng σ) (shape : List ℕ) (h : shape.length ≤ 1) (s : σ) :
    sch.run rng shape s = .error .indexError := by
  have h1 : shape[1]? = none := List.getElem?_eq_none h
  rcases h0 : shape[0]? with _ | d
  all_goals cases sch <;> simp [Scheme.run, lecunNormalInit, heNormalInit, glorotNormalInit, lecunUniformInit, heUniformInit,
      glorotUniformInit, axisOf, h1, h0, bind, Except.bind]

/-- `reshape` to a shape with as many entries. -/
theorem reshape_nat {α : Type} (a : NdArray α) (shape : List ℕ) (h : a.data.length = shape.prod) :
    a.reshape (shape.map Int.ofNat) = .ok ⟨shape, a.data⟩ := by
  have h1 : (shape.map Int.ofNat).any (· < -1) = false := by
    simp only [List.any_eq_false, List.mem_map]
    rintro _ ⟨x, -, rfl⟩
    simp only [Int.ofNat_eq_natCast, decide_eq_true_eq, not_lt]
    omega
  have h2 : (shape.map Int.ofNat).count (-1) = 0 := by
    rw [List.count_eq_zero]
    simp only [List.mem_map, not_exists, not_and]
    intro x _ he
    simp only [Int.ofNat_eq_natCast] at he
    omega
  have h3 : (shape.map Int.ofNat).filter (· ≠ -1) = shape.map Int.ofNat := by
    rw [List.filter_eq_self]
    simp only [List.mem_map]
    rintro _ ⟨x, -, rfl⟩
    simp only [Int.ofNat_eq_natCast, ne_eq, decide_eq_true_eq]
    omega
  have h4 : (shape.map Int.ofNat).map Int.toNat = shape := by
    rw [List.map_map]; exact (List.map_congr_left fun _ _ => rfl).trans (List.map_id _)
  simp only [NdArray.reshape, h1, Bool.false_eq_true, if_false, h2, if_true, h3, h4, h]

/-- C103: `normal_init` has the shape that was asked for, and draws of its own for all entries: but they are multiplied by `mean`. -/
theorem C103_normal_partial (rng : Rng σ) (mean : ℝ) (h : 0 ≤ mean) (shape : List ℕ) (s : σ) :
    ∃ a, normalInit rng mean shape s = .ok (a, afterDraws rng.normal shape.prod s) ∧ a.shape = shape ∧ WellShaped a ∧
      ∀ k (hk : k < a.data.length), a.data[k] = mean * nthDraw rng.normal k s := by
  have hp : [shape.prod].prod = shape.prod := by simp
  refine ⟨⟨shape, (drawMany rng.normal shape.prod s).1.map fun z => mean * z⟩, ?_, rfl, by simp [WellShaped, drawMany_length], ?_⟩
  · simp only [normalInit, npNormal_ok rng mean h, bind, Except.bind, hp]
    rw [reshape_nat _ _ (by simp [drawMany_length])]
  · intro k hk
    simp only [List.length_map, drawMany_length] at hk
    have := drawMany_get rng.normal _ s k hk
    rw [List.getElem?_eq_getElem (by rw [drawMany_length]; exact hk)] at this
    simp only [List.getElem_map]
    rw [Option.some.inj this]

/-- C103 fails for `normal_init`: with the default `mean = 0` all entries are zero. -/
theorem C103_normal_violated (rng : Rng σ) (shape : List ℕ) (s : σ) :
    ∃ a s', normalInit rng 0 shape s = .ok (a, s') ∧ a.shape = shape ∧ ∀ x ∈ a.data, x = 0 := by
  obtain ⟨a, h1, h2, -, h4⟩ := C103_normal_partial rng 0 le_rfl shape s
  refine ⟨a, _, h1, h2, fun x hx => ?_⟩
  obtain ⟨k, hk, rfl⟩ := List.getElem_of_mem hx
  rw [h4 k hk, zero_mul]

/-- C103 fails for `normal_init` with a negative mean: it raises. -/
theorem C103_negative_mean_violated (rng : Rng σ) (mean : ℝ) (h : mean < 0) (shape : List ℕ) (s : σ) :
    normalInit rng mean shape s = .error .valueError := by
  simp [normalInit, npNormal, h, bind, Except.bind]

/-! ### The hypotheses can be met -/

/-- A generator that counts: its draws are 0, 1/2, 2/3, ... -/
noncomputable def InitCase.counter : Rng ℕ := ⟨fun n => (1 - 1 / (n + 1), n + 1), fun n => (n, n + 1)⟩

theorem InitCase.counter_range (n : ℕ) : 0 ≤ (counter.uniform n).1 ∧ (counter.uniform n).1 < 1 := by
  have h1 : (0 : ℝ) < 1 / ((n : ℝ) + 1) := by positivity
  have h2 : 1 / ((n : ℝ) + 1) ≤ 1 := by rw [div_le_one (by positivity)]; linarith [(Nat.cast_nonneg n : (0 : ℝ) ≤ n)]
  constructor <;> simp only [counter] <;> linarith

/-- He initialization of six weights: the limit is 1, the second weight is 0, and the generator has moved by six draws. -/
example : ∃ a, heUniformInit InitCase.counter [1, 6] 0 = .ok (a, 6) ∧ a.shape = [1, 6] ∧ a.data[1]? = some 0 ∧
    ∀ x ∈ a.data, -1 ≤ x ∧ x ≤ 1 := by
  obtain ⟨a, h1, h2, h3, h4⟩ := C103_scheme .heUniform InitCase.counter 1 6 [] (by norm_num) 0
  have hl := C103_limit .heUniform (Or.inr (Or.inl rfl)) InitCase.counter InitCase.counter_range 1 6 [] 0 _ a h1
  refine ⟨a, h1, h2, ?_, ?_⟩
  · have h5 : a.data.length = 6 := by rw [h3, h2]; rfl
    rw [List.getElem?_eq_getElem (by omega), h4 1 (by omega)]
    simp [Scheme.weight, Scheme.next, nthDraw, InitCase.counter]
    right
    norm_num
  · simpa [Scheme.limit] using hl

/-- `normal_init` for six weights with mean 2. -/
example : ∃ a, normalInit InitCase.counter 2 [2, 3] 1 = .ok (a, 7) ∧ a.shape = [2, 3] ∧ a.data[4]? = some 10 := by
  obtain ⟨a, h1, h2, h3, h4⟩ := C103_normal_partial InitCase.counter 2 (by norm_num) [2, 3] 1
  refine ⟨a, h1, h2, ?_⟩
  have h5 : a.data.length = 6 := by rw [h3, h2]; rfl
  rw [List.getElem?_eq_getElem (by omega), h4 4 (by omega)]
  simp [nthDraw, InitCase.counter]
  norm_num

end Thinc
