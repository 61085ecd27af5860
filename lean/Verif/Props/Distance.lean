import Verif.Props.CrossentropyGrad
import Mathlib.Algebra.Order.Chebyshev
/-! # C48 L2 distance.  C49 Cosine distance -/
namespace Thinc
open Real Spec Finset

/-! ## C48 -/

/-- The sum of squared differences. -/
noncomputable def sqDist {n m : Nat} (G T : Fin n → Fin m → ℝ) : ℝ := ∑ i, ∑ k, (G i k - T i k) ^ 2

theorem total_toMat {n m : Nat} (A : Mat ℝ) (h1 : A.rows = n) (h2 : A.cols = m) (f : Fin n → Fin m → ℝ)
    (h : ∀ (i : Fin n) (k : Fin m), A.at i k = f i k) : A.total = ∑ i, ∑ k, f i k := by
  subst h1 h2
  unfold Mat.total
  rw [← Fin.sum_univ_eq_sum_range (fun i => ∑ j ∈ range A.cols, A.at i j)]
  refine Finset.sum_congr rfl fun i _ => ?_
  rw [← Fin.sum_univ_eq_sum_range (fun j => A.at i j)]
  exact Finset.sum_congr rfl fun k _ => h i k

/-- The divisor of the differences. -/
noncomputable def l2Divisor (normalize : Bool) (n : Nat) : ℝ := if normalize then n else 1

theorem l2_ok {n m : Nat} (normalize : Bool) (G T : Fin n → Fin m → ℝ) :
    ∃ D, l2Grad normalize (toMat G) (toMat T) = .ok D ∧ D.rows = n ∧ D.cols = m ∧
      (∀ (i : Fin n) (k : Fin m), D.at i k = (G i k - T i k) / l2Divisor normalize n) ∧
      l2Loss normalize (toMat G) (toMat T) = .ok (sqDist G T / l2Divisor normalize n ^ 2) := by
  have key : ∃ D, l2Grad normalize (toMat G) (toMat T) = .ok D ∧ D.rows = n ∧ D.cols = m ∧
      (∀ (i : Fin n) (k : Fin m), D.at i k = (G i k - T i k) / l2Divisor normalize n) := by
    unfold l2Grad
    rw [if_neg (by rintro (h | h) <;> exact h rfl)]
    cases normalize with
    | true =>
      refine ⟨_, rfl, rfl, rfl, fun i k => ?_⟩
      simp only [if_true]
      rw [map_at, ofFn_at _ _ _ _ _ (show k.val < (toMat G).cols from k.2), toMat_at, toMat_at]
      rfl
    | false =>
      refine ⟨_, rfl, rfl, rfl, fun i k => ?_⟩
      simp only [Bool.false_eq_true, if_false]
      rw [ofFn_at _ _ _ _ _ (show k.val < (toMat G).cols from k.2), toMat_at, toMat_at]
      simp [l2Divisor]
  obtain ⟨D, d1, d2, d3, d4⟩ := key
  refine ⟨D, d1, d2, d3, d4, ?_⟩
  unfold l2Loss
  rw [if_neg (by rintro (h | h) <;> exact h rfl), d1]
  simp only [bind, Except.bind, pure, Except.pure]
  rw [total_toMat (D.map (· ^ 2)) d2 d3 (fun i k => ((G i k - T i k) / l2Divisor normalize n) ^ 2)
    (fun i k => by rw [map_at, d4 i k])]
  unfold sqDist
  simp only [Finset.sum_div, div_pow]

/-- **C48** (loss).  The loss is the sum of the squared differences (each divided by the number of rows if
`normalize` is set), it is never negative, and it is zero exactly if guesses and targets are equal. -/
theorem C48_loss {n m : Nat} (normalize : Bool) (G T : Fin n → Fin m → ℝ) :
    ∃ l, l2Loss normalize (toMat G) (toMat T) = .ok l ∧
      l = (∑ i, ∑ k, (G i k - T i k) ^ 2) / (if normalize then (n : ℝ) else 1) ^ 2 ∧ 0 ≤ l ∧ (l = 0 ↔ G = T) := by
  obtain ⟨_, _, _, _, _, h⟩ := l2_ok normalize G T
  refine ⟨_, h, rfl, ?_, ?_⟩
  · unfold sqDist
    positivity
  constructor
  · intro e
    funext i k
    have hd : l2Divisor normalize n ≠ 0 := by
      unfold l2Divisor
      split
      · have := i.pos
        positivity
      · norm_num
    rw [div_eq_zero_iff] at e
    have e2 := e.resolve_right (pow_ne_zero 2 hd)
    unfold sqDist at e2
    rw [Finset.sum_eq_zero_iff_of_nonneg (fun i _ => Finset.sum_nonneg fun k _ => sq_nonneg _)] at e2
    have e3 := e2 i (mem_univ i)
    rw [Finset.sum_eq_zero_iff_of_nonneg (fun k _ => sq_nonneg _)] at e3
    have := pow_eq_zero_iff (two_ne_zero) |>.1 (e3 k (mem_univ k))
    linarith
  · rintro rfl
    simp [sqDist]

theorem IsVJP_sqDist {n m : Nat} (G T : Fin n → Fin m → ℝ) (c : ℝ) :
    IsVJP (fun G => sqDist G T / c) G (fun dl i k => dl * (2 * (G i k - T i k) / c)) := by
  have h1 : ∀ i : Fin n, IsVJP (fun g : Fin m → ℝ => ∑ k, (g k - T i k) ^ 2) (G i) (fun dl k => dl * (2 * (G i k - T i k))) := by
    intro i
    refine IsVJP_congr₂ (IsVJP_comp (IsVJP_sum _) (IsVJP_pi (f := fun k y => (y - T i k) ^ 2)
      (b := fun k dy => dy * (2 * (G i k - T i k))) fun k => ?_)) (fun _ => rfl) (fun _ => rfl)
    refine IsVJP_of_hasDerivAt (HasDerivAt.congr_deriv (((hasDerivAt_id (G i k)).sub_const (T i k)).pow 2) ?_)
    simp
  have h2 := IsVJP_comp (IsVJP_sum _) (IsVJP_pi h1)
  have h3 : IsVJP (fun x : ℝ => x / c) (sqDist G T) (fun dy => dy * (1 / c)) :=
    IsVJP_of_hasDerivAt ((hasDerivAt_id _).div_const _)
  refine IsVJP_congr₂ (IsVJP_comp h3 h2) (fun _ => rfl) (fun dl => ?_)
  funext i k
  simp only
  ring

/-- **C48** (gradient, without `normalize`).  The gradient of the loss with respect to the guesses is twice the
returned array; so the returned array is half of it.
Missing: with `normalize` the factor is different, see `C48_normalized_scale`. -/
theorem C48_gradient_partial {n m : Nat} (G T : Fin n → Fin m → ℝ) :
    ∃ (D : Mat ℝ) (ℓ : (Fin n → Fin m → ℝ) → ℝ), l2Grad false (toMat G) (toMat T) = .ok D ∧
      (∀ G', l2Loss false (toMat G') (toMat T) = .ok (ℓ G')) ∧
      IsVJP ℓ G (fun dl i k => dl * (2 * D.at i k)) := by
  obtain ⟨D, d1, d2, d3, d4, d5⟩ := l2_ok false G T
  refine ⟨D, fun G' => sqDist G' T / 1, d1, fun G' => ?_, ?_⟩
  · obtain ⟨_, _, _, _, _, h⟩ := l2_ok false G' T
    simpa [l2Divisor] using h
  · refine IsVJP_congr₂ (IsVJP_sqDist G T 1) (fun _ => rfl) (fun dl => ?_)
    funext i k
    rw [d4 i k]
    simp [l2Divisor]

/-- **C48** (found by the model): with `normalize` and `n` rows the gradient of the loss is `2 / n` times the returned
array, so the returned array is `n / 2` times the gradient, not half of it. -/
theorem C48_normalized_scale {n m : Nat} (hn : 0 < n) (G T : Fin n → Fin m → ℝ) :
    ∃ (D : Mat ℝ) (ℓ : (Fin n → Fin m → ℝ) → ℝ), l2Grad true (toMat G) (toMat T) = .ok D ∧
      (∀ G', l2Loss true (toMat G') (toMat T) = .ok (ℓ G')) ∧
      IsVJP ℓ G (fun dl i k => dl * (2 / (n : ℝ) * D.at i k)) := by
  obtain ⟨D, d1, d2, d3, d4, d5⟩ := l2_ok true G T
  refine ⟨D, fun G' => sqDist G' T / l2Divisor true n ^ 2, d1, fun G' => ?_, ?_⟩
  · obtain ⟨_, _, _, _, _, h⟩ := l2_ok true G' T
    exact h
  · refine IsVJP_congr₂ (IsVJP_sqDist G T _) (fun _ => rfl) (fun dl => ?_)
    funext i k
    rw [d4 i k]
    have : (n : ℝ) ≠ 0 := by positivity
    simp only [l2Divisor, if_true]
    field_simp

/-- **C48** (found by the model): so with three rows the returned array is not half the gradient of the loss. -/
theorem C48_normalized_not_half :
    ∃ (D : Mat ℝ) (ℓ : (Fin 3 → Fin 1 → ℝ) → ℝ),
      l2Grad true (toMat (fun (_ : Fin 3) (_ : Fin 1) => (1 : ℝ))) (toMat fun (_ : Fin 3) (_ : Fin 1) => (0 : ℝ)) = .ok D ∧
      (∀ G', l2Loss true (toMat G') (toMat fun (_ : Fin 3) (_ : Fin 1) => (0 : ℝ)) = .ok (ℓ G')) ∧
      ¬ IsVJP ℓ (fun _ _ => 1) (fun dl i k => dl * (2 * D.at i k)) := by
  obtain ⟨D, ℓ, d1, d2, d3⟩ := C48_normalized_scale (n := 3) (m := 1) (by decide) (fun _ _ => 1) (fun _ _ => 0)
  refine ⟨D, ℓ, d1, d2, fun h => ?_⟩
  obtain ⟨D', e1, _, _, e4, _⟩ := l2_ok true (fun (_ : Fin 3) (_ : Fin 1) => (1 : ℝ)) (fun _ _ => 0)
  have hD : D = D' := Except.ok.inj (d1.symm.trans e1)
  have e := congrFun (congrFun (congrFun (IsVJP_unique h d3) 1) 0) 0
  simp only [hD, e4 0 0, l2Divisor] at e
  norm_num at e

/-- **C48** (errors): different shapes are a ValueError. -/
theorem C48_shape_mismatch (normalize : Bool) (G T : Mat ℝ) (h : G.rows ≠ T.rows ∨ G.cols ≠ T.cols) :
    l2Grad normalize G T = .error .valueError ∧ l2Loss normalize G T = .error .valueError := by
  simp only [l2Grad, l2Loss, if_pos h, and_self]

/-! ## C49 -/

/-- The cosine of the angle between two vectors. -/
noncomputable def cosine {m : Nat} (a b : Fin m → ℝ) : ℝ :=
  (∑ k, a k * b k) / (√(∑ k, a k ^ 2) * √(∑ k, b k ^ 2))

/-- The offset the code adds to every entry. -/
noncomputable def shift {m : Nat} (a : Fin m → ℝ) : Fin m → ℝ := fun k => a k + 1e-8

theorem abs_dot_le {m : Nat} (a b : Fin m → ℝ) : |∑ k, a k * b k| ≤ √(∑ k, a k ^ 2) * √(∑ k, b k ^ 2) := by
  rw [← Real.sqrt_mul (Finset.sum_nonneg fun k _ => sq_nonneg _)]
  exact Real.abs_le_sqrt (Finset.sum_mul_sq_le_sq_mul_sq _ _ _)

theorem abs_cosine_le {m : Nat} (a b : Fin m → ℝ) : |cosine a b| ≤ 1 := by
  unfold cosine
  rw [abs_div, abs_of_nonneg (by positivity : 0 ≤ √(∑ k, a k ^ 2) * √(∑ k, b k ^ 2))]
  exact div_le_one_of_le₀ (abs_dot_le a b) (by positivity)

theorem IsVJP_mul {E : Type} [NormedAddCommGroup E] [NormedSpace ℝ E] [Tensor E] {f g : E → ℝ} {x : E} {bf bg : ℝ → E} (hf : IsVJP f x bf) (hg : IsVJP g x bg) :
    IsVJP (fun x => f x * g x) x (fun dy => bf (dy * g x) + bg (dy * f x)) := by
  obtain ⟨f', hf', ef⟩ := hf
  obtain ⟨g', hg', eg⟩ := hg
  refine ⟨_, hf'.mul hg', fun dy v => ?_⟩
  rw [Tensor.dot_add_left, ef, eg]
  simp only [dot_real, add_apply, smul_apply, smul_eq_mul]
  ring

theorem IsVJP_cosine {m : Nat} (a b : Fin m → ℝ) (ha : a ≠ 0) (hb : b ≠ 0) :
    IsVJP (fun a => cosine a b) a (fun dy k => dy * (b k / (√(∑ k, a k ^ 2) * √(∑ k, b k ^ 2)) -
      cosine a b * (a k / √(∑ k, a k ^ 2) ^ 2))) := by
  have pos : ∀ c : Fin m → ℝ, c ≠ 0 → 0 < ∑ k, c k ^ 2 := by
    intro c hc
    obtain ⟨k, hk⟩ := Function.ne_iff.1 hc
    exact Finset.sum_pos' (fun k _ => sq_nonneg _) ⟨k, mem_univ k, by have : c k ≠ 0 := hk; positivity⟩
  have hq := pos a ha
  have hB := Real.sqrt_pos.2 (pos b hb)
  have hS := Real.sqrt_pos.2 hq
  set S := √(∑ k, a k ^ 2) with hSdef
  set B := √(∑ k, b k ^ 2) with hBdef
  have h1 : IsVJP (fun a : Fin m → ℝ => ∑ k, a k * b k) a (fun dy k => dy * b k) := by
    refine IsVJP_congr₂ (IsVJP_comp (IsVJP_sum _) (IsVJP_pi (f := fun k y => y * b k)
      (b := fun k dy => dy * b k) fun k => ?_)) (fun _ => rfl) (fun _ => rfl)
    refine IsVJP_of_hasDerivAt (HasDerivAt.congr_deriv ((hasDerivAt_id (a k)).mul_const (b k)) ?_)
    simp
  have h2 : IsVJP (fun a : Fin m → ℝ => ∑ k, a k ^ 2) a (fun dy k => dy * (2 * a k)) := by
    refine IsVJP_congr₂ (IsVJP_comp (IsVJP_sum _) (IsVJP_pi (f := fun _ y => y ^ 2)
      (b := fun k dy => dy * (2 * a k)) fun k => ?_)) (fun _ => rfl) (fun _ => rfl)
    refine IsVJP_of_hasDerivAt (HasDerivAt.congr_deriv ((hasDerivAt_id (a k)).pow 2) ?_)
    simp
  have h3 : IsVJP (fun q : ℝ => (√q * B)⁻¹) (∑ k, a k ^ 2) (fun dy => dy * (-(1 / (2 * S) * B) / (S * B) ^ 2)) := by
    refine IsVJP_of_hasDerivAt (HasDerivAt.inv ?_ (by positivity))
    exact (Real.hasDerivAt_sqrt hq.ne').mul_const B
  refine IsVJP_congr₂ (IsVJP_mul h1 (IsVJP_comp h3 h2)) (fun a' => ?_) (fun dy => ?_)
  · unfold cosine
    rw [div_eq_mul_inv]
  · funext k
    simp only [Pi.add_apply, cosine, ← hSdef, ← hBdef]
    field_simp
    ring

theorem range_sum {m : Nat} (f : Nat → ℝ) : ∑ j ∈ range m, f j = ∑ k : Fin m, f k :=
  (Fin.sum_univ_eq_sum_range f m).symm

theorem rowNorm_shift {n m : Nat} (G : Fin n → Fin m → ℝ) (i : Fin n) :
    ((toMat G).map (· + 1e-8)).rowNorm i = √(∑ k, shift (G i) k ^ 2) := by
  unfold Mat.rowNorm
  congr 1
  show ∑ j ∈ range m, _ = _
  rw [range_sum]
  refine Finset.sum_congr rfl fun k _ => ?_
  rw [map_at, toMat_at]
  rfl

theorem dot_shift {n m : Nat} (G T : Fin n → Fin m → ℝ) (i : Fin n) :
    ∑ j ∈ range ((toMat G).map (· + (1e-8 : ℝ))).cols, ((toMat G).map (· + 1e-8)).at i j * ((toMat T).map (· + 1e-8)).at i j =
      ∑ k, shift (G i) k * shift (T i) k := by
  show ∑ j ∈ range m, _ = _
  rw [range_sum]
  refine Finset.sum_congr rfl fun k _ => ?_
  rw [map_at, map_at, toMat_at, toMat_at]
  rfl

theorem zeroRow_iff {n m : Nat} (T : Fin n → Fin m → ℝ) (i : Fin n) : (toMat T).zeroRow i ↔ T i = 0 := by
  unfold Mat.zeroRow
  have e : ∑ j ∈ range (toMat T).cols, |(toMat T).at i j| = ∑ k, |T i k| := by
    show ∑ j ∈ range m, _ = _
    rw [range_sum]
    exact Finset.sum_congr rfl fun k _ => by rw [toMat_at]
  rw [e, Finset.sum_eq_zero_iff_of_nonneg (fun k _ => abs_nonneg _)]
  constructor
  · intro h
    funext k
    exact abs_eq_zero.1 (h k (mem_univ k))
  · intro h k _
    rw [h]
    simp

open Classical in
/-- The loss of one batch: the sum of `1 - cos` over the rows that are not ignored. -/
noncomputable def cosineBatch {n m : Nat} (normalize ignoreZeros : Bool) (T G : Fin n → Fin m → ℝ) : ℝ :=
  ∑ i, if ignoreZeros ∧ T i = 0 then 0 else (1 - cosine (shift (G i)) (shift (T i))) / (if normalize then (n : ℝ) else 1)

theorem cosineLoss_ok {n m : Nat} (normalize ignoreZeros : Bool) (G T : Fin n → Fin m → ℝ) :
    cosineLoss normalize ignoreZeros (toMat G) (toMat T) = .ok (cosineBatch normalize ignoreZeros T G) := by
  classical
  unfold cosineLoss cosineSimilarity cosineBatch
  rw [if_neg (by rintro (h | h) <;> exact h rfl)]
  simp only [bind, Except.bind, pure, Except.pure]
  congr 1
  show ∑ i ∈ range n, _ = _
  rw [range_sum]
  refine Finset.sum_congr rfl fun i _ => ?_
  rw [dot_shift, rowNorm_shift, rowNorm_shift, zeroRow_iff]
  have hc := abs_cosine_le (shift (G i)) (shift (T i))
  have e : |(∑ k, shift (G i) k * shift (T i) k) / (√(∑ k, shift (G i) k ^ 2) * √(∑ k, shift (T i) k ^ 2)) - 1| =
      1 - cosine (shift (G i)) (shift (T i)) := by
    show |cosine (shift (G i)) (shift (T i)) - 1| = _
    rw [abs_of_nonpos (by linarith [(abs_le.1 hc).2])]
    ring
  rw [e]
  cases normalize <;> by_cases h : ignoreZeros = true ∧ T i = 0 <;> simp [h]
  all_goals rfl

/-- **C49** (loss).  When no row is zero after the small offset is added to every entry, the loss is the sum of
`1 - cos` between the rows of guesses and targets (with the offset), divided by the number of rows if `normalize` is
set; each term is between 0 and 2; with `ignore_zeros` all-zero target rows do not count. -/
theorem C49_loss {n m : Nat} (normalize ignoreZeros : Bool) (G T : Fin n → Fin m → ℝ)
    (_hG : ∀ i, shift (G i) ≠ 0) (_hT : ∀ i, shift (T i) ≠ 0) :
    ∃ term : Fin n → ℝ, cosineLoss normalize ignoreZeros (toMat G) (toMat T) =
        .ok ((∑ i, term i) / (if normalize then (n : ℝ) else 1)) ∧
      (∀ i, 0 ≤ term i ∧ term i ≤ 2) ∧
      (∀ i, ignoreZeros = true → T i = 0 → term i = 0) ∧
      (∀ i, ¬ (ignoreZeros = true ∧ T i = 0) → term i = 1 - cosine (shift (G i)) (shift (T i))) := by
  classical
  refine ⟨fun i => if ignoreZeros ∧ T i = 0 then 0 else 1 - cosine (shift (G i)) (shift (T i)), ?_, fun i => ?_,
    fun i h1 h2 => if_pos ⟨h1, h2⟩, fun i h => if_neg h⟩
  · rw [cosineLoss_ok]
    unfold cosineBatch
    rw [Finset.sum_div]
    congr 1
    refine Finset.sum_congr rfl fun i _ => ?_
    by_cases h : ignoreZeros = true ∧ T i = 0
    · rw [if_pos h, if_pos h, zero_div]
    · rw [if_neg h, if_neg h]
  · simp only
    have := abs_le.1 (abs_cosine_le (shift (G i)) (shift (T i)))
    split
    · norm_num
    · constructor <;> linarith [this.1, this.2]

/-- **C49** (gradient).  Under the same hypothesis the returned array is the gradient of the loss with respect to the
guesses, and zero in the ignored rows. -/
theorem C49_gradient {n m : Nat} (normalize ignoreZeros : Bool) (G T : Fin n → Fin m → ℝ)
    (hG : ∀ i, shift (G i) ≠ 0) (hT : ∀ i, shift (T i) ≠ 0) :
    ∃ (D : Mat ℝ) (ℓ : (Fin n → Fin m → ℝ) → ℝ), cosineGrad normalize ignoreZeros (toMat G) (toMat T) = .ok D ∧
      (∀ G', cosineLoss normalize ignoreZeros (toMat G') (toMat T) = .ok (ℓ G')) ∧
      IsVJP ℓ G (fun dl i k => dl * D.at i k) ∧
      ∀ (i : Fin n) (k : Fin m), ignoreZeros = true → T i = 0 → D.at i k = 0 := by
  classical
  have hD : ∃ D, cosineGrad normalize ignoreZeros (toMat G) (toMat T) = .ok D ∧ ∀ (i : Fin n) (k : Fin m),
      D.at i k = -(if ignoreZeros = true ∧ T i = 0 then 0 else
        (shift (T i) k / (√(∑ k, shift (G i) k ^ 2) * √(∑ k, shift (T i) k ^ 2)) -
          cosine (shift (G i)) (shift (T i)) * (shift (G i) k / √(∑ k, shift (G i) k ^ 2) ^ 2)) /
          (if normalize then (n : ℝ) else 1)) := by
    unfold cosineGrad
    rw [if_neg (by rintro (h | h) <;> exact h rfl)]
    refine ⟨_, rfl, fun i k => ?_⟩
    rw [ofFn_at _ _ _ _ _ (show k.val < (toMat G).cols from k.2)]
    have e1 : ∀ i : Fin n, ∑ j ∈ range ((toMat G).map (· + (1e-8 : ℝ))).cols, ((toMat G).map (· + 1e-8)).at i j *
        ((toMat T).map (· + 1e-8)).at i j = ∑ k, shift (G i) k * shift (T i) k := dot_shift G T
    have e2 : ((toMat G).map (· + (1e-8 : ℝ))).at i k = shift (G i) k := by rw [map_at, toMat_at]; rfl
    have e3 : ((toMat T).map (· + (1e-8 : ℝ))).at i k = shift (T i) k := by rw [map_at, toMat_at]; rfl
    beta_reduce
    rw [e1, e2, e3, rowNorm_shift, rowNorm_shift, zeroRow_iff]
    rw [show (toMat G).rows = n from rfl]
    cases normalize <;> by_cases h : ignoreZeros = true ∧ T i = 0 <;> simp [h, cosine]
  obtain ⟨D, d1, d2⟩ := hD
  refine ⟨D, cosineBatch normalize ignoreZeros T, d1, fun G' => cosineLoss_ok normalize ignoreZeros G' T, ?_, ?_⟩
  · unfold cosineBatch
    refine IsVJP_congr₂ (IsVJP_comp (IsVJP_sum _) (IsVJP_pi (f := fun (i : Fin n) (g : Fin m → ℝ) =>
      if ignoreZeros = true ∧ T i = 0 then 0 else (1 - cosine (shift g) (shift (T i))) / (if normalize then (n : ℝ) else 1))
      (b := fun i dy k => dy * D.at i k) fun i => ?_)) (fun _ => rfl) (fun _ => rfl)
    by_cases h : ignoreZeros = true ∧ T i = 0
    · simp only [if_pos h]
      refine IsVJP_congr₂ (IsVJP_const (0 : ℝ) (G i)) (fun _ => rfl) (fun dl => ?_)
      funext k
      rw [d2 i k, if_pos h]
      simp
    · simp only [if_neg h]
      have hs : IsVJP (shift (m := m)) (G i) (fun dy => dy) := by
        unfold shift
        exact IsVJP_pi (f := fun _ y => y + 1e-8) (b := fun _ dy => dy) fun k =>
          IsVJP_congr₂ (IsVJP_of_hasDerivAt ((hasDerivAt_id (G i k)).add_const 1e-8)) (fun _ => rfl) (fun dy => by simp)
      have hc := IsVJP_comp (IsVJP_cosine (shift (G i)) (shift (T i)) (hG i) (hT i)) hs
      have h3 : IsVJP (fun x : ℝ => (1 - x) / (if normalize then (n : ℝ) else 1)) (cosine (shift (G i)) (shift (T i)))
          (fun dy => dy * (-1 / (if normalize then (n : ℝ) else 1))) :=
        IsVJP_of_hasDerivAt (((hasDerivAt_id _).const_sub 1).div_const _)
      refine IsVJP_congr₂ (IsVJP_comp h3 hc) (fun _ => rfl) (fun dl => ?_)
      funext k
      rw [d2 i k, if_neg h]
      ring
  · intro i k h1 h2
    rw [d2 i k, if_pos ⟨h1, h2⟩, neg_zero]

/-- Rows that meet the hypotheses: an all-zero target row is allowed. -/
example : (∀ i : Fin 2, shift ((fun _ _ => 1 : Fin 2 → Fin 3 → ℝ) i) ≠ 0) ∧
    (∀ i : Fin 2, shift ((fun i _ => i : Fin 2 → Fin 3 → ℝ) i) ≠ 0) := by
  refine ⟨fun i h => ?_, fun i h => ?_⟩ <;> have := congrFun h 0
  · norm_num [shift] at this
  · have h0 : (0 : ℝ) ≤ (i : Nat) := by positivity
    simp only [shift, Pi.zero_apply] at this
    linarith

/-- **C49** (errors): different shapes are a ValueError. -/
theorem C49_shape_mismatch (normalize ignoreZeros : Bool) (G T : Mat ℝ) (h : G.rows ≠ T.rows ∨ G.cols ≠ T.cols) :
    cosineGrad normalize ignoreZeros G T = .error .valueError ∧
      cosineLoss normalize ignoreZeros G T = .error .valueError ∧ errOf (cosineSimilarity G T) = some .valueError := by
  simp [cosineGrad, cosineLoss, cosineSimilarity, if_pos h, bind, Except.bind, errOf]

end Thinc
