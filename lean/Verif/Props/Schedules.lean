import Verif.Model.Schedules
import Mathlib.Tactic.Linarith
import Mathlib.Tactic.Ring
import Mathlib.Tactic.FieldSimp
import Mathlib.Tactic.NormNum
import Mathlib.Tactic.Positivity
import Mathlib.Algebra.Order.Floor.Semiring
import Mathlib.Data.Rat.Floor
/-!
# C22 - C26: schedules
-/
namespace Thinc
variable {E α : Type}

/-! ### C23 -/

/-- A negative step is rejected with ValueError by every schedule. -/
theorem C23_negative_step (s : Schedule E α) (step : Int) (x : E) (h : step < 0) :
    s.call step x = .error .valueError := by
  simp [Schedule.call, h]

/-- A non-negative step is passed on: the call never adds an exception of its own. -/
theorem C23_nonneg_step (s : Schedule E α) (step : Int) (x : E) (h : 0 ≤ step) :
    s.call step x = s.run step x := by
  simp [Schedule.call, not_lt.2 h]

/-- `to_generator` raises ValueError exactly for a negative start or step size, and otherwise its
`k`-th item is what the schedule gives at `start + k * step_size`, as long as none of the earlier
items raised. -/
theorem C23_to_generator (s : Schedule E α) (start size : Int) (x : E) :
    ((start < 0 ∨ size < 0) → s.toGenerator start size x = .error .valueError) ∧
    (0 ≤ start → 0 ≤ size → ∃ g, s.toGenerator start size x = .ok g ∧
      ∀ k : Nat, (∀ j < k, ∃ v, s.call (start + j * size) x = .ok v) →
        g.nth k = s.call (start + k * size) x) := by
  constructor
  · intro h
    unfold Schedule.toGenerator
    rcases h with h | h
    · simp [h]
    · simp [h]
  · intro h1 h2
    refine ⟨⟨s, x, size, some start⟩, by simp [Schedule.toGenerator, not_lt.2 h1, not_lt.2 h2], ?_⟩
    intro k
    clear h1
    induction k generalizing start with
    | zero =>
      intro _
      simp only [Schedule.Gen.nth, Schedule.Gen.step, Nat.cast_zero, zero_mul, add_zero]
      cases s.call start x <;> rfl
    | succ k ih =>
      intro hk
      have h0 := hk 0 (Nat.succ_pos k)
      simp only [Nat.cast_zero, zero_mul, add_zero] at h0
      obtain ⟨v, hv⟩ := h0
      have := ih (start + size) (fun j hj => by
        have := hk (j + 1) (Nat.succ_lt_succ hj)
        push_cast at this
        rwa [show start + size + (j : Int) * size = start + ((j : Int) + 1) * size by ring])
      simp only [Schedule.Gen.nth, Schedule.Gen.step, hv]
      rw [this]
      push_cast
      rw [show start + size + (k : Int) * size = start + ((k : Int) + 1) * size by ring]

/-- Once an item raised, the generator is finished. -/
theorem C23_generator_closed (s : Schedule E α) (start size : Int) (x : E) (g) (e)
    (hg : s.toGenerator start size x = .ok g) (he : s.call start x = .error e) (k : Nat) :
    g.nth (k + 1) = .error .stopIteration := by
  unfold Schedule.toGenerator at hg
  split at hg; · cases hg
  split at hg; · cases hg
  cases hg
  simp only [Schedule.Gen.nth, Schedule.Gen.step, he]
  induction k with
  | zero => simp [Schedule.Gen.nth, Schedule.Gen.step]
  | succ k ih => simpa [Schedule.Gen.nth, Schedule.Gen.step] using ih

example : ((warmupLinear (1 : ℚ) 2 10 : Schedule Unit ℚ).call 3 ()).toOption = some (7/8) := by
  decide +kernel

/-! ### C26 -/

section
variable {K : Type} [Field K] [LinearOrder K] [IsStrictOrderedRing K] [FloorRing K]

theorem pyDiv_ok {K : Type} [Field K] [LinearOrder K] {a b : K} (h : b ≠ 0) : pyDiv a b = .ok (a / b) := by simp [pyDiv, h]

/-- `decaying(base, decay, t)` at step `s` is `base / (1 + decay * (s + t))`; it is non-negative,
non-increasing in the step, and at most `base`. -/
theorem C26_decaying (base decay t : K) (hb : 0 ≤ base) (hd : 0 ≤ decay) (ht : 0 ≤ t) (x : E)
    (s : Int) (hs : 0 ≤ s) :
    (decaying base decay t : Schedule E K).call s x = .ok (base / (1 + decay * ((s : K) + t))) ∧
    (0 < base → 0 < base / (1 + decay * ((s : K) + t))) ∧
    base / (1 + decay * ((s : K) + t)) ≤ base ∧
    (∀ s' : Int, s ≤ s' →
      base / (1 + decay * ((s' : K) + t)) ≤ base / (1 + decay * ((s : K) + t))) := by
  have hs' : (0 : K) ≤ s := by exact_mod_cast hs
  have hnn : 0 ≤ decay * ((s : K) + t) := mul_nonneg hd (add_nonneg hs' ht)
  have hpos : 0 < 1 + decay * ((s : K) + t) := by linarith
  refine ⟨?_, fun h => div_pos h hpos, div_le_self hb (by linarith), fun s' hss => ?_⟩
  · simp only [Schedule.call, not_lt.2 hs, if_false, decaying, pyDiv_ok hpos.ne']
    show Except.ok (base * (1 / _)) = _
    rw [mul_one_div]
  · have : (s : K) ≤ s' := by exact_mod_cast hss
    exact div_le_div_of_nonneg_left hb hpos (by nlinarith)

example : ((decaying (1 : ℚ) 1 0 : Schedule Unit ℚ).call 3 ()).toOption = some (1/4) := by
  decide +kernel

end

/-- `constant_then(rate, n, inner)` is `rate` for the steps `0 .. n-1`, and from step `n` on exactly
what the inner schedule gives at the same step. -/
theorem C26_constant_then (rate : α) (n : Int) (inner : Schedule E α) (x : E) (s : Int)
    (hs : 0 ≤ s) :
    (s < n → (constantThen rate n inner).call s x = .ok rate) ∧
    (n ≤ s → (constantThen rate n inner).call s x = inner.call s x) := by
  constructor
  · intro h; simp [Schedule.call, constantThen, not_lt.2 hs, h]
  · intro h; simp [Schedule.call, constantThen, not_lt.2 hs, not_lt.2 h]

/-- The constant schedule. -/
theorem C26_constant (rate : α) (x : E) (s : Int) (hs : 0 ≤ s) :
    (constant rate : Schedule E α).call s x = .ok rate := by
  simp [Schedule.call, constant, not_lt.2 hs]

/-- "before starting a schedule": the inner schedule is not started from its step 0 after the
constant phase. -/
theorem C26_inner_not_restarted :
    ∃ (inner : Schedule Unit ℚ) (n : Int), 0 < n ∧
      (constantThen 1 n inner).call n () ≠ inner.call 0 () := by
  refine ⟨decaying 1 1 0, 3, by decide, ?_⟩
  decide +kernel

/-! ### C24 -/

/-- The value of `compounding` is its start at the first step when `t = 0`; it never passes `stop`;
with a growth rate that moves it toward `stop` it is monotone and stays between `start` and `stop`. -/
theorem C24_compounding_up (start stop c t : ℝ) (h0 : 0 ≤ start) (hss : start ≤ stop) (hc : 1 ≤ c)
    (ht : 0 ≤ t) (x : E) :
    ∃ v : Int → ℝ, (∀ s, 0 ≤ s → (compounding start stop c t : Schedule E ℝ).call s x = .ok (v s)) ∧
      (t = 0 → v 0 = start) ∧
      (∀ s, 0 ≤ s → start ≤ v s ∧ v s ≤ stop) ∧
      (∀ s s', 0 ≤ s → s ≤ s' → v s ≤ v s') ∧
      (∀ s, 0 ≤ s → v s < stop → v (s + 1) = min (c * v s) stop) ∧
      (1 < c → 0 < start → ∃ s₀ : Int, 0 ≤ s₀ ∧ ∀ s, s₀ ≤ s → v s = stop) := by
  have hc0 : 0 < c := by linarith
  refine ⟨fun s => min (start * c ^ ((s : ℝ) + t)) stop, ?_, ?_, ?_, ?_, ?_, ?_⟩
  · intro s hs
    simp [Schedule.call, not_lt.2 hs, compounding, clipTo, not_lt.2 hss]
  · rintro rfl; simp [hss]
  · intro s hs
    have hs' : (0 : ℝ) ≤ s := by exact_mod_cast hs
    refine ⟨le_min ?_ hss, min_le_right _ _⟩
    have : 1 ≤ c ^ ((s : ℝ) + t) := Real.one_le_rpow hc (by linarith)
    nlinarith
  · intro s s' _ hss'
    have hs' : (s : ℝ) ≤ s' := by exact_mod_cast hss'
    apply min_le_min_right
    exact mul_le_mul_of_nonneg_left (Real.rpow_le_rpow_of_exponent_le hc (by linarith)) h0
  · intro s hs hlt
    have hlt' : start * c ^ ((s : ℝ) + t) < stop := by
      by_contra hcon
      simp only [min_eq_right (not_lt.1 hcon), lt_irrefl] at hlt
    simp only [min_eq_left hlt'.le]
    congr 1
    push_cast
    rw [show (s : ℝ) + 1 + t = (s + t) + 1 by ring, Real.rpow_add hc0, Real.rpow_one]
    ring
  · intro hc1 hst
    obtain ⟨n, hn⟩ := pow_unbounded_of_one_lt (stop / start) hc1
    refine ⟨n, by positivity, fun s hs => min_eq_right ?_⟩
    have hs' : (n : ℝ) ≤ s := by exact_mod_cast hs
    have h1 : c ^ (n : ℝ) ≤ c ^ ((s : ℝ) + t) := Real.rpow_le_rpow_of_exponent_le hc (by linarith)
    rw [Real.rpow_natCast] at h1
    rw [div_lt_iff₀ hst] at hn
    nlinarith

/-- The mirrored case: shrinking from `start` down to `stop`. -/
theorem C24_compounding_down (start stop c t : ℝ) (h0 : 0 ≤ stop) (hss : stop < start) (hc : 0 < c)
    (hc1 : c ≤ 1) (ht : 0 ≤ t) (x : E) :
    ∃ v : Int → ℝ, (∀ s, 0 ≤ s → (compounding start stop c t : Schedule E ℝ).call s x = .ok (v s)) ∧
      (t = 0 → v 0 = start) ∧
      (∀ s, 0 ≤ s → stop ≤ v s ∧ v s ≤ start) ∧
      (∀ s s', 0 ≤ s → s ≤ s' → v s' ≤ v s) ∧
      (∀ s, 0 ≤ s → stop < v s → v (s + 1) = max (c * v s) stop) := by
  refine ⟨fun s => max (start * c ^ ((s : ℝ) + t)) stop, ?_, ?_, ?_, ?_, ?_⟩
  · intro s hs
    simp [Schedule.call, not_lt.2 hs, compounding, clipTo, hss]
  · rintro rfl; simp [hss.le]
  · intro s hs
    have hs' : (0 : ℝ) ≤ s := by exact_mod_cast hs
    refine ⟨le_max_right _ _, max_le ?_ hss.le⟩
    have : c ^ ((s : ℝ) + t) ≤ 1 := Real.rpow_le_one hc.le hc1 (by linarith)
    nlinarith
  · intro s s' _ hss'
    have hs' : (s : ℝ) ≤ s' := by exact_mod_cast hss'
    apply max_le_max_right
    exact mul_le_mul_of_nonneg_left (Real.rpow_le_rpow_of_exponent_ge hc hc1 (by linarith))
      (by linarith)
  · intro s hs hlt
    have hlt' : stop < start * c ^ ((s : ℝ) + t) := by
      by_contra hcon
      simp only [max_eq_right (not_lt.1 hcon), lt_irrefl] at hlt
    simp only [max_eq_left hlt'.le]
    congr 1
    push_cast
    rw [show (s : ℝ) + 1 + t = (s + t) + 1 by ring, Real.rpow_add hc, Real.rpow_one]
    ring

/-- Whatever the rate, the value never passes `stop`. -/
theorem C24_never_passes_stop (start stop c t : ℝ) (s : Int) (x : E) (v : ℝ)
    (h : (compounding start stop c t : Schedule E ℝ).call s x = .ok v) :
    (start ≤ stop → v ≤ stop) ∧ (stop ≤ start → start = stop ∨ stop ≤ v) := by
  unfold Schedule.call compounding at h
  split at h; · cases h
  cases h
  constructor
  · intro hss; simp [clipTo, not_lt.2 hss]
  · intro hss
    rcases hss.lt_or_eq with h | h
    · right; simp [clipTo, h]
    · left; exact h.symm

example : (0 : ℝ) ≤ 1 ∧ (1 : ℝ) ≤ 16 ∧ (1 : ℝ) ≤ 1.01 := by norm_num

/-! ### C25 -/

section
variable {K : Type} [Field K] [LinearOrder K] [IsStrictOrderedRing K] [FloorRing K]

/-- `warmup_linear(rate, w, total)`, with `w < total`: `rate * s / w` up to step `w` (where it is
`rate`), then `rate * (total - s) / (total - w)` down to 0 at step `total`, and 0 from there on. -/
theorem C25_warmup_shape (rate : K) (w total : Int) (hw : 0 ≤ w) (hwt : w < total) (x : E)
    (s : Int) (hs : 0 ≤ s) :
    (s ≤ w → w ≠ 0 → (warmupLinear rate w total : Schedule E K).call s x = .ok (rate * (s / w))) ∧
    (w ≤ s → s ≤ total → (warmupLinear rate w total : Schedule E K).call s x
        = .ok (rate * ((total - s) / (total - w)))) ∧
    (total ≤ s → (warmupLinear rate w total : Schedule E K).call s x = .ok 0) := by
  have hd1 : (1 : K) ≤ ((total - w : Int) : K) := by exact_mod_cast (by omega : 1 ≤ total - w)
  have hd : (0 : K) < ((total - w : Int) : K) := by linarith
  have key : w ≤ s → (warmupLinear rate w total : Schedule E K).call s x
      = .ok (max 0 (((total - s : Int) : K) / ((total - w : Int) : K)) * rate) := by
    intro h
    simp only [Schedule.call, not_lt.2 hs, if_false, warmupLinear, not_lt.2 h, max_eq_right hd1,
      pyDiv_ok hd.ne']
    rfl
  refine ⟨fun h hne => ?_, fun h1 h2 => ?_, fun h => ?_⟩
  · have hw1 : 1 ≤ w := by omega
    have hwK : (0 : K) < (w : K) := by exact_mod_cast (by omega : 0 < w)
    rcases h.lt_or_eq with h | h
    · simp only [Schedule.call, not_lt.2 hs, if_false, warmupLinear, h, if_true, max_eq_right hw1,
        pyDiv_ok hwK.ne']
      show Except.ok (_ * rate) = _
      rw [mul_comm]
    · subst h
      rw [key le_rfl, div_self hd.ne', div_self hwK.ne']
      simp
  · rw [key h1]
    have : (0 : K) ≤ ((total - s : Int) : K) := by exact_mod_cast (by omega : 0 ≤ total - s)
    rw [max_eq_right (div_nonneg this hd.le)]
    push_cast
    rw [mul_comm]
  · rw [key (by omega)]
    have : ((total - s : Int) : K) ≤ 0 := by exact_mod_cast (by omega : total - s ≤ 0)
    rw [max_eq_left (div_nonpos_of_nonpos_of_nonneg this hd.le), zero_mul]

/-- `warmup_linear` never leaves `[0, rate]`, for any configuration. -/
theorem C25_warmup_bounds (rate : K) (hr : 0 ≤ rate) (w total : Int) (x : E) (s : Int)
    (hs : 0 ≤ s) :
    ∃ v, (warmupLinear rate w total : Schedule E K).call s x = .ok v ∧ 0 ≤ v ∧ v ≤ rate := by
  have hsK : (0 : K) ≤ (s : K) := by exact_mod_cast hs
  by_cases h : s < w
  · have hw1 : 1 ≤ w := by omega
    have hwK : (0 : K) < (w : K) := by exact_mod_cast (by omega : 0 < w)
    refine ⟨s / w * rate, ?_, by positivity, ?_⟩
    · simp only [Schedule.call, not_lt.2 hs, if_false, warmupLinear, h, if_true, max_eq_right hw1,
        pyDiv_ok hwK.ne']
      rfl
    · have : (s : K) / w ≤ 1 := by
        rw [div_le_one hwK]; exact_mod_cast h.le
      nlinarith
  · have hm : (0 : K) < max 1 ((total - w : Int) : K) := lt_max_of_lt_left one_pos
    refine ⟨max 0 (((total - s : Int) : K) / max 1 ((total - w : Int) : K)) * rate, ?_,
      mul_nonneg (le_max_left _ _) hr, ?_⟩
    · simp only [Schedule.call, not_lt.2 hs, if_false, warmupLinear, h, pyDiv_ok hm.ne']
      rfl
    · have : max 0 (((total - s : Int) : K) / max 1 ((total - w : Int) : K)) ≤ 1 := by
        apply max_le zero_le_one
        rw [div_le_one hm]
        apply le_max_of_le_right
        exact_mod_cast (by omega : total - s ≤ total - w)
      nlinarith

example : (List.range 11).map (fun i => ((warmupLinear (1 : ℚ) 2 10 : Schedule Unit ℚ).call i ()).toOption)
    = [0, 1/2, 1, 7/8, 3/4, 5/8, 1/2, 3/8, 1/4, 1/8, 0].map some := by decide +kernel

/-- `cyclic_triangular(lo, hi, p)` at step `s` is the triangle wave in `m = (s + 1) mod 2p`: rising
linearly from `lo` at `m = 0` to `hi` at `m = p` and falling linearly back to `lo` at `m = 2p`. -/
theorem C25_cyclic_shape (lo hi : K) (p : Int) (hp : 0 < p) (x : E) (s : Int) (hs : 0 ≤ s) :
    let m := (s + 1) % (2 * p)
    (m ≤ p → (cyclicTriangular lo hi p : Schedule E K).call s x = .ok (lo + (hi - lo) * (m / p))) ∧
    (p ≤ m → (cyclicTriangular lo hi p : Schedule E K).call s x
        = .ok (lo + (hi - lo) * ((2 * p - m) / p))) := by
  intro m
  have hpK : (0 : K) < (p : K) := by exact_mod_cast hp
  have h2p : (0 : K) < ((2 * p : Int) : K) := by exact_mod_cast (by omega : 0 < 2 * p)
  have hm0 : 0 ≤ m := Int.emod_nonneg _ (by omega)
  have hm1 : m < 2 * p := Int.emod_lt_of_pos _ (by omega)
  have hdecomp : s + 1 = 2 * p * ((s + 1) / (2 * p)) + m := (Int.mul_ediv_add_emod _ _).symm
  set q := (s + 1) / (2 * p) with hq
  have hmK : (0 : K) ≤ (m : K) := by exact_mod_cast hm0
  have hmK2 : (m : K) < 2 * (p : K) := by exact_mod_cast hm1
  have hdecK : ((s + 1 : Int) : K) = 2 * p * q + m := by rw [hdecomp]; push_cast; ring
  have hfl : ⌊1 + ((s + 1 : Int) : K) / ((2 * p : Int) : K)⌋ = 1 + q := by
    rw [Int.floor_eq_iff, hdecK]
    push_cast
    rw [add_div, mul_div_cancel_left₀ _ (by positivity : (2 * (p : K)) ≠ 0)]
    have h1 : (0 : K) ≤ m / (2 * p) := by positivity
    have h2 : (m : K) / (2 * p) < 1 := by rw [div_lt_one (by positivity)]; exact hmK2
    constructor <;> linarith
  have hx : ((s + 1 : Int) : K) / (p : K) - 2 * ((1 + q : Int) : K) + 1 = m / p - 1 := by
    rw [hdecK]; push_cast; field_simp; ring
  have hval : (cyclicTriangular lo hi p : Schedule E K).call s x
      = .ok (lo + (hi - lo) * max 0 (1 - |(m : K) / p - 1|)) := by
    simp only [Schedule.call, not_lt.2 hs, if_false, cyclicTriangular, pyDiv_ok h2p.ne',
      pyDiv_ok hpK.ne']
    show Except.ok _ = _
    simp only [hfl, hx]
  have hdp : (0 : K) ≤ m / p := by positivity
  constructor
  · intro h
    have h' : (m : K) / p ≤ 1 := by rw [div_le_one hpK]; exact_mod_cast h
    rw [hval, abs_of_nonpos (by linarith), max_eq_right (by linarith)]
    congr 2; ring
  · intro h
    have h' : 1 ≤ (m : K) / p := by rw [one_le_div hpK]; exact_mod_cast h
    have h2 : (m : K) / p < 2 := by rw [div_lt_iff₀ hpK]; exact hmK2
    rw [hval, abs_of_nonneg (by linarith), max_eq_right (by linarith), sub_div,
      mul_div_cancel_right₀ _ hpK.ne']
    congr 2; ring

/-- `cyclic_triangular` stays within `[min_lr, max_lr]`. -/
theorem C25_cyclic_bounds (lo hi : K) (hlh : lo ≤ hi) (p : Int) (hp : 0 < p) (x : E) (s : Int)
    (hs : 0 ≤ s) :
    ∃ v, (cyclicTriangular lo hi p : Schedule E K).call s x = .ok v ∧ lo ≤ v ∧ v ≤ hi := by
  have hpK : (0 : K) < (p : K) := by exact_mod_cast hp
  have hm0 : 0 ≤ (s + 1) % (2 * p) := Int.emod_nonneg _ (by omega)
  have hm1 : (s + 1) % (2 * p) < 2 * p := Int.emod_lt_of_pos _ (by omega)
  have hsh := C25_cyclic_shape (K := K) lo hi p hp x s hs
  simp only at hsh
  generalize (s + 1) % (2 * p) = m at *
  have hmK : (0 : K) ≤ (m : K) := by exact_mod_cast hm0
  have hmK2 : (m : K) < 2 * (p : K) := by exact_mod_cast hm1
  rcases le_total m p with h | h
  · refine ⟨_, hsh.1 h, ?_, ?_⟩
    · have : (0 : K) ≤ m / p := by positivity
      nlinarith
    · have : (m : K) / p ≤ 1 := by rw [div_le_one hpK]; exact_mod_cast h
      nlinarith
  · refine ⟨_, hsh.2 h, ?_, ?_⟩
    · have : (0 : K) ≤ (2 * p - m) / p := div_nonneg (by linarith) hpK.le
      nlinarith
    · have : (2 * (p : K) - m) / p ≤ 1 := by
        rw [div_le_one hpK]
        have : (p : K) ≤ m := by exact_mod_cast h
        linarith
      nlinarith

/-- `cyclic_triangular` repeats every `2 * period` steps. -/
theorem C25_cyclic_periodic (lo hi : K) (p : Int) (hp : 0 < p) (x : E) (s : Int) (hs : 0 ≤ s) :
    (cyclicTriangular lo hi p : Schedule E K).call (s + 2 * p) x
      = (cyclicTriangular lo hi p : Schedule E K).call s x := by
  have h1 := C25_cyclic_shape (K := K) lo hi p hp x s hs
  have h2 := C25_cyclic_shape (K := K) lo hi p hp x (s + 2 * p) (by omega)
  simp only at h1 h2
  rw [show s + 2 * p + 1 = s + 1 + 2 * p by ring, Int.add_emod_right] at h2
  generalize (s + 1) % (2 * p) = m at *
  rcases le_total m p with h | h
  · rw [h1.1 h, h2.1 h]
  · rw [h1.2 h, h2.2 h]

end

/-- The argument called `period` is half the period of `cyclic_triangular`. -/
theorem C25_cyclic_period_is_half : ∃ (p : Int) (s : Int), 0 < p ∧ 0 ≤ s ∧
    (cyclicTriangular (0 : ℚ) 1 p : Schedule Unit ℚ).call (s + p) ()
      ≠ (cyclicTriangular (0 : ℚ) 1 p : Schedule Unit ℚ).call s () := by
  refine ⟨2, 1, by decide, by decide, ?_⟩
  decide +kernel

section
variable {K : Type} [Field K] [LinearOrder K] [IsStrictOrderedRing K] [FloorRing K]

/-- `slanted_triangular` stays within `[max_rate / ratio, max_rate]` as long as the step is at most
`cut / cut_frac - 1`, where `cut` is the number of warmup steps; it rises linearly until the cut
and falls linearly after it.
Missing from the full property: later steps (see `C25_slanted_leaves_bounds`). -/
theorem C25_slanted_partial (maxRate : K) (hmr : 0 ≤ maxRate) (n : Int) (cf : K) (hcf : 0 < cf)
    (hcf1 : cf < 1) (ratio : Int) (hr : 1 ≤ ratio) (t : K) (ht : 0 ≤ t) (cut : Int)
    (hcut : cut = ⌊(n : K) * cf⌋) (hcut0 : 0 < cut) (x : E) (s : Int) (hs : 0 ≤ s)
    (hlast : (s : K) + t + 1 ≤ cut / cf) :
    ∃ v, (slantedTriangular maxRate n cf ratio t : Schedule E K).call s x = .ok v ∧
      maxRate / ratio ≤ v ∧ v ≤ maxRate ∧
      ((s : K) + t + 1 ≤ cut → v = maxRate / ratio
          + (maxRate - maxRate / ratio) * (((s : K) + t + 1) / cut)) ∧
      ((cut : K) ≤ (s : K) + t + 1 → v = maxRate
          - (maxRate - maxRate / ratio) * (((s : K) + t + 1 - cut) / (cut / cf - cut))) := by
  have hsK : (0 : K) ≤ (s : K) := by exact_mod_cast hs
  have hcK : (0 : K) < (cut : K) := by exact_mod_cast hcut0
  have hrK : (1 : K) ≤ (ratio : K) := by exact_mod_cast hr
  have hr0 : (0 : K) < (ratio : K) := by linarith
  have hinv : 1 < 1 / cf := by rw [lt_div_iff₀ hcf]; linarith
  have hden : 0 < (cut : K) * (1 / cf - 1) := mul_pos hcK (by linarith)
  have hden' : (cut : K) * (1 / cf - 1) = cut / cf - cut := by ring
  set u := (s : K) + t + 1 with hu
  have hu0 : 0 < u := by rw [hu]; linarith
  have hfrac : maxRate / ratio ≤ maxRate := div_le_self hmr hrK
  by_cases h : u < (cut : K)
  · refine ⟨maxRate * (1 + u / cut * ((ratio : K) - 1)) * (1 / ratio), ?_, ?_⟩
    · simp only [Schedule.call, not_lt.2 hs, if_false, slantedTriangular, ← hcut, ← hu, h, if_true,
        pyDiv_ok hcK.ne', pyDiv_ok hr0.ne']
      rfl
    · have hv : maxRate * (1 + u / cut * ((ratio : K) - 1)) * (1 / ratio)
          = maxRate / ratio + (maxRate - maxRate / ratio) * (u / cut) := by field_simp
      have h1 : 0 ≤ u / cut := by positivity
      have h2 : u / cut ≤ 1 := by rw [div_le_one hcK]; exact h.le
      rw [hv]
      exact ⟨by nlinarith, by nlinarith, fun _ => rfl, fun h' => absurd h (not_lt.2 h')⟩
  · refine ⟨maxRate * (1 + (1 - (u - cut) / (cut * (1 / cf - 1))) * ((ratio : K) - 1)) * (1 / ratio),
      ?_, ?_⟩
    · simp only [Schedule.call, not_lt.2 hs, if_false, slantedTriangular, ← hcut, ← hu, h,
        pyDiv_ok hcf.ne']
      show (do let p ← (do let q ← pyDiv (u - (cut : K)) ((cut : K) * (1 / cf - 1)); _); _) = _
      rw [pyDiv_ok hden.ne', pyDiv_ok hr0.ne']
      rfl
    · have hv : maxRate * (1 + (1 - (u - cut) / (cut * (1 / cf - 1))) * ((ratio : K) - 1)) * (1 / ratio)
          = maxRate - (maxRate - maxRate / ratio) * ((u - cut) / (cut / cf - cut)) := by
        rw [hden']
        generalize (u - (cut : K)) / (cut / cf - cut) = z
        field_simp; ring
      have hle := not_lt.1 h
      have h1 : 0 ≤ (u - cut) / (cut / cf - cut) := by
        rw [← hden']; exact div_nonneg (by linarith) hden.le
      have h2 : (u - cut) / (cut / cf - cut) ≤ 1 := by
        rw [← hden', div_le_one hden, hden']; linarith
      rw [hv]
      refine ⟨by nlinarith, by nlinarith, fun h' => ?_, fun _ => rfl⟩
      have : u = cut := le_antisymm h' hle
      rw [this, sub_self, zero_div, div_self hcK.ne']; ring

end

/-- Within the requested number of steps `slanted_triangular` can fall below `max_rate / ratio`, and
even below 0: `cut` is truncated, so the decline ends before `num_steps`, and nothing stops it. -/
theorem C25_slanted_leaves_bounds : ∃ (n s : Int) (v : ℚ), 0 ≤ s ∧ s < n ∧
    (slantedTriangular 1 n (1/10) 32 0 : Schedule Unit ℚ).call s () = .ok v ∧ v < 0 := by
  refine ⟨19, 15, -59/96, by decide, by decide, ?_, by norm_num⟩
  decide +kernel

/-- After `num_steps` steps it keeps falling below its lower bound even without truncation. -/
theorem C25_slanted_after_end : ∃ (v : ℚ),
    (slantedTriangular 1 20 (1/10) 32 0 : Schedule Unit ℚ).call 30 () = .ok v ∧ v < 0 := by
  refine ⟨-323/576, ?_, by norm_num⟩
  decide +kernel

/-- With fewer than `1 / cut_frac` steps `cut` is 0 and every call raises ZeroDivisionError. -/
theorem C25_slanted_few_steps {K : Type} [Field K] [LinearOrder K] [IsStrictOrderedRing K]
    [FloorRing K] (maxRate : K) (n : Int) (hn : 0 ≤ n) (cf : K) (hcf : 0 < cf) (h : n * cf < 1)
    (ratio : Int) (t : K) (ht : 0 ≤ t) (x : E) (s : Int) (hs : 0 ≤ s) :
    (slantedTriangular maxRate n cf ratio t : Schedule E K).call s x = .error .zeroDivisionError := by
  have hnK : (0 : K) ≤ (n : K) := by exact_mod_cast hn
  have hsK : (0 : K) ≤ (s : K) := by exact_mod_cast hs
  have hc : ⌊(n : K) * cf⌋ = 0 := by
    rw [Int.floor_eq_zero_iff]; exact ⟨by positivity, h⟩
  have hnot : ¬ ((s : K) + t + 1 < 0) := by push Not; linarith
  simp only [Schedule.call, not_lt.2 hs, if_false, slantedTriangular, hc, Int.cast_zero, hnot,
    pyDiv_ok hcf.ne']
  show (do let p ← (do let q ← pyDiv _ ((0 : K) * (1 / cf - 1)); _); _) = _
  simp only [zero_mul, pyDiv, if_true]
  rfl

/-! ### C22 -/

namespace Spec
/-- An infinite generator. -/
def infinite (f : Nat → α) : PyGen α := ⟨fun n => some (f n), 0⟩
end Spec

/-- A count limited by the length of the generator. -/
def capLen : Option Nat → Nat → Nat
  | none, k => k
  | some n, k => min k n

/-- The invariant: `last_value` is the item for `last_step`, and the generator has been advanced by
exactly the items for the steps so far (or to its end). -/
structure WrapInv (val : Nat → Option α) (len : Option Nat) (item : Nat → α) (w : WrapState α) :
    Prop where
  vals : w.gen.val = val
  step : -1 ≤ w.lastStep
  pos : w.gen.pos = capLen len (w.lastStep + 1).toNat
  value : w.lastValue = item w.lastStep.toNat

/-- The items `item` of a generator with `len` values (`none`: infinitely many), extended by
repeating the last one. -/
structure ItemsOf (val : Nat → Option α) (len : Option Nat) (item : Nat → α) : Prop where
  lt : ∀ i, (∀ n, len = some n → i < n) → val i = some (item i)
  ge : ∀ n, len = some n → val n = none ∧ 0 < n ∧ ∀ i, n ≤ i → item i = item (n - 1)

theorem advance_spec {val : Nat → Option α} {len item} (it : ItemsOf val len item)
    (n : Nat) (k : Nat) (p : Nat) (v : α)
    (hv : 0 < k → v = item (k - 1)) (hk0 : k = 0 → 0 < n ∨ v = item 0)
    (hp : p = capLen len k) :
    advance n v ⟨val, p⟩ = (item (n + k - 1), ⟨val, capLen len (n + k)⟩) := by
  induction n generalizing k p v with
  | zero =>
    simp only [advance, Nat.zero_add]
    rcases Nat.eq_zero_or_pos k with h | h
    · rcases hk0 h with h' | h'
      · omega
      · subst h; rw [h', hp]
    · rw [hv h, hp]
  | succ n ih =>
    simp only [advance, PyGen.next]
    by_cases hlt : ∀ m, len = some m → k < m
    · have hpk : p = k := by
        rw [hp]; cases len with
        | none => rfl
        | some m => have := hlt m rfl; exact Nat.min_eq_left (by omega)
      rw [hpk, it.lt k hlt]
      simp only
      rw [ih (k + 1) (k + 1) (item k) (fun _ => rfl) (fun h => absurd h (by omega))]
      · rw [show n + 1 + k = n + (k + 1) by omega]
      · cases len with
        | none => rfl
        | some m => have := hlt m rfl; exact (Nat.min_eq_left (by omega)).symm
    · push Not at hlt
      obtain ⟨m, hm, hkm⟩ := hlt
      obtain ⟨h1, h2, h3⟩ := it.ge m hm
      subst hm
      have hpm : p = m := by rw [hp]; exact Nat.min_eq_right hkm
      rw [hpm, h1]
      simp only
      simp only [capLen]
      rw [hv (by omega), Nat.min_eq_right (by omega)]
      rcases Nat.lt_or_ge (k - 1) m with hh | hh
      · rw [h3 (n + 1 + k - 1) (by omega), show k - 1 = m - 1 by omega]
      · rw [h3 (n + 1 + k - 1) (by omega), h3 (k - 1) hh]

theorem WrapInv.call {val : Nat → Option α} {len item} (it : ItemsOf val len item) {w : WrapState α}
    (i : WrapInv val len item w) (step : Int) :
    (step < 0 ∨ step < w.lastStep → wrapCall w step = (w, .error .valueError)) ∧
    (0 ≤ step → w.lastStep ≤ step → ∃ w', wrapCall w step = (w', .ok (item step.toNat)) ∧
      WrapInv val len item w' ∧ w'.lastStep = step) := by
  constructor
  · rintro (h | h)
    · simp [wrapCall, h]
    · simp only [wrapCall]; split
      · rfl
      · simp [h]
  · intro h0 h1
    obtain ⟨ls, lv, ⟨gv, gp⟩⟩ := w
    obtain ⟨iv, istep, ipos, ival⟩ := i
    simp only at iv istep ipos ival h1
    subst iv
    have hadv := advance_spec it (step - ls).toNat (ls + 1).toNat gp lv
      (fun h => by rw [ival]; congr 1; omega)
      (fun h => by
        left; omega)
      ipos
    refine ⟨⟨step, item step.toNat, ⟨gv, capLen len (step + 1).toNat⟩⟩, ?_, ?_, ?_⟩
    · simp only [wrapCall, not_lt.2 h0, not_lt.2 h1, if_false, hadv]
      have e1 : (step - ls).toNat + (ls + 1).toNat = (step + 1).toNat := by omega
      rw [e1, show (step + 1).toNat - 1 = step.toNat by omega]
    · exact ⟨rfl, by simp only; omega, rfl, rfl⟩
    · rfl

/-- What a history of requested steps should return: ValueError for a negative step or one smaller
than the last accepted step, and item number `step` otherwise. -/
def Spec.stepReads (item : Nat → α) : Int → List Int → List (Except PyErr α)
  | _, [] => []
  | last, s :: ss =>
    if s < 0 ∨ s < last then .error .valueError :: Spec.stepReads item last ss
    else .ok (item s.toNat) :: Spec.stepReads item s ss

theorem wrapRun_spec {val : Nat → Option α} {len item} (it : ItemsOf val len item) {w : WrapState α}
    (i : WrapInv val len item w) (ss : List Int) :
    (wrapRun w ss).2 = Spec.stepReads item w.lastStep ss := by
  induction ss generalizing w with
  | nil => rfl
  | cons s ss ih =>
    simp only [wrapRun, Spec.stepReads]
    obtain ⟨h1, h2⟩ := i.call it s
    split
    · next h => rw [h1 h]; simp only; rw [ih i]
    · next h =>
      push Not at h
      obtain ⟨w', hw, hi, hl⟩ := h2 h.1 h.2
      rw [hw]; simp only; rw [ih hi, hl]

/-- A hyperparameter given as a list: at step `s` it is `vs[s]`, and the last element of the list
once `s` is past its end; asking again at the same step gives the same value; a step smaller than
the last one (or negative) raises ValueError and changes nothing.  An empty list is rejected. -/
theorem C22_list {E : Type} (vs : List α) :
    (vs = [] → (setAttrOrSchedule (.list vs : HyperArg E α)) = .error .valueError) ∧
    (∀ h : vs ≠ [], ∃ w, setAttrOrSchedule (.list vs : HyperArg E α) = .ok (.wrapped w) ∧
      ∀ ss, (wrapRun w ss).2 =
        Spec.stepReads (fun s => vs[min s (vs.length - 1)]'(by
          have := List.length_pos_iff.2 h; omega)) (-1) ss) := by
  constructor
  · rintro rfl; rfl
  · intro h
    have hl := List.length_pos_iff.2 h
    have h0 : vs[0]? = some vs[0] := List.getElem?_eq_getElem hl
    refine ⟨⟨-1, vs[0], PyGen.ofList vs⟩, ?_, fun ss => ?_⟩
    · simp only [setAttrOrSchedule, wrapGenerator, PyGen.next, PyGen.ofList, h0]
      rfl
    · refine wrapRun_spec (val := fun n => vs[n]?) (len := some vs.length)
        (item := fun s => vs[min s (vs.length - 1)]'(by omega)) ⟨?_, ?_⟩ ⟨rfl, by simp, ?_, ?_⟩ ss
      · intro i hi
        have := hi _ rfl
        simp only [List.getElem?_eq_getElem this]
        congr 2; omega
      · intro n hn
        cases hn
        refine ⟨by simp, hl, fun i hi => ?_⟩
        congr 1; omega
      · simp [PyGen.ofList, capLen]
      · simp

/-- A hyperparameter given as an infinite generator: at step `s` it is item number `s`, however
the steps are requested. -/
theorem C22_generator {E : Type} (f : Nat → α) :
    ∃ w, setAttrOrSchedule (.generator (Spec.infinite f) : HyperArg E α) = .ok (.wrapped w) ∧
      ∀ ss, (wrapRun w ss).2 = Spec.stepReads f (-1) ss := by
  refine ⟨⟨-1, f 0, Spec.infinite f⟩, rfl, fun ss => ?_⟩
  refine wrapRun_spec (val := fun n => some (f n)) (len := none) (item := f) ⟨?_, ?_⟩
    ⟨rfl, by simp, ?_, ?_⟩ ss
  · intro i _; rfl
  · intro n hn; cases hn
  · simp [Spec.infinite, capLen]
  · simp

/-- Numbers and schedules are used as they are; anything else is rejected. -/
theorem C22_other_kinds {E : Type} (v : α) (s : Schedule E α) :
    (∃ h, setAttrOrSchedule (.number v : HyperArg E α) = .ok h ∧
      ∀ step x, 0 ≤ step → (h.call step x).2 = .ok v) ∧
    setAttrOrSchedule (.schedule s) = .ok (.plain s) ∧
    setAttrOrSchedule (.other : HyperArg E α) = .error .valueError := by
  refine ⟨⟨.plain (constant v), rfl, fun step x h => ?_⟩, rfl, rfl⟩
  exact C26_constant v x step h

example : ((wrapGenerator (PyGen.ofList [10, 20, 30])).toOption.map
    fun w => (wrapRun w [0, 0, 2, 1, 7, 7]).2)
    = some [.ok 10, .ok 10, .ok 30, .error .valueError, .ok 30, .ok 30] := by decide

end Thinc
