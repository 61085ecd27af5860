import Verif.Lemmas.FloatAcc
import Verif.Props.Float
/-!
# What `softmax` computes, step by step
-/
namespace Thinc
open Spec
variable {L : FloatLib} {N : ℕ} {u η v : ℝ}

theorem tempered_finite (ok : IsFloatLib L N) {T : ℝ} (hT : 1 ≤ T) {row : List Fl} (hrow : ∀ x ∈ row, IsFinite L x) :
    (L.tempered (.fin T) row).length = row.length ∧ ∀ x ∈ L.tempered (.fin T) row, IsFinite L x := by
  unfold FloatLib.tempered
  split
  · exact ⟨rfl, hrow⟩
  · refine ⟨by simp, fun x hx => ?_⟩
    obtain ⟨a, ha, rfl⟩ := List.mem_map.1 hx
    obtain ⟨y, rfl, h1, h2⟩ := hrow a ha
    obtain ⟨e, h3, h4⟩ := tempered_one ok hT h1 h2
    exact ⟨_, e, h3, h4⟩

/-- The exponentials are between 0 and 1, one of them is 1, their computed sum is at least one and close to their sum, and the results are the
rounded quotients. -/
theorem softmax_steps (ok : IsFloatLib L N) (ac : Accurate L u η v) {row : List Fl} {T : Fl} {n : ℕ} (hlen : (L.tempered T row).length = n)
    (hn : n ≤ N) (hn0 : 0 < n) (hrow : ∀ x ∈ L.tempered T row, IsFinite L x) :
    ∃ (m s : ℝ) (e : ℝ → ℝ), .fin m ∈ L.tempered T row ∧ (∀ y, .fin y ∈ L.tempered T row → y ≤ m) ∧ e m = 1 ∧
      (∀ y, y ≤ m → L.exp (L.sub (.fin y) (.fin m)) = .fin (e y) ∧ 0 ≤ e y ∧ e y ≤ 1) ∧ 1 ≤ s ∧
      (1 - u) ^ n * ((L.tempered T row).map fun x => e x.val).sum ≤ s ∧ s ≤ (1 + u) ^ n * ((L.tempered T row).map fun x => e x.val).sum ∧
      L.softmaxRow T row = .ok ((L.tempered T row).map fun x => .fin (L.rnd (e x.val / s))) := by
  generalize hrt : L.tempered T row = rt at *
  obtain ⟨x0, rest, hr⟩ : ∃ x0 rest, rt = x0 :: rest := by
    cases rt with
    | nil => simp at hlen; omega
    | cons x xs => exact ⟨x, xs, rfl⟩
  obtain ⟨m, hm1, hm2, hm3⟩ := foldl_max L rest x0 (hrow x0 (by simp [hr])) (fun y hy => hrow y (by simp [hr, hy]))
  rw [← hr] at hm2 hm3
  have hmax : Fl.rowMax rt = .ok (.fin m) := by
    rw [hr]
    exact congrArg Except.ok hm1
  obtain ⟨e, he1, he2, he3, he4⟩ := exp_shifted ok (m := m)
  have hexp : (rt.map fun x => L.exp (L.sub x (.fin m))) = rt.map fun x => .fin (e x.val) := by
    refine List.map_congr_left fun x hx => ?_
    obtain ⟨z, rfl, -⟩ := hrow x hx
    exact he3 z (hm3 z hx)
  have heb : ∀ x ∈ rt.map fun x => Fl.fin (e x.val), Between L 0 1 x := by
    intro x hx
    obtain ⟨a, ha, rfl⟩ := List.mem_map.1 hx
    obtain ⟨z, rfl, -⟩ := hrow a ha
    exact he2 z (hm3 z ha)
  have hS := ok.sum (rt.map fun x => Fl.fin (e x.val))
  obtain ⟨s, hs1, hs2, hs3, hs4, hs5⟩ := sums_unit ok hS (by simpa [hlen] using hn) heb
  obtain ⟨s', hs1', -, -, hs6, hs7⟩ := sums_near ok ac hS (by simpa [hlen] using hn) heb
  rw [hs1] at hs1'
  cases hs1'
  have hs8 : 1 ≤ s := hs5 1 (List.mem_map.2 ⟨.fin m, hm2, by simp [Fl.val, he1]⟩)
  have hval : ((rt.map fun x => Fl.fin (e x.val)).map Fl.val) = rt.map fun x => e x.val := by
    rw [List.map_map]
    rfl
  rw [hval, List.length_map, hlen] at hs6 hs7
  have hb : ∀ y, y ≤ m → 0 ≤ e y ∧ e y ≤ 1 := fun y hy => by
    obtain ⟨_, h, -, -, h1, h2⟩ := he2 y hy
    cases h
    exact ⟨h1, h2⟩
  refine ⟨m, s, e, hm2, hm3, he1, fun y hy => ⟨he3 y hy, hb y hy⟩, hs8, hs6, hs7, ?_⟩
  unfold FloatLib.softmaxRow
  rw [hrt, hmax]
  simp only [bind, Except.bind, pure, Except.pure, hexp, hs1]
  rw [List.map_map]
  refine congrArg Except.ok (List.map_congr_left fun x hx => ?_)
  obtain ⟨z, rfl, -⟩ := hrow x hx
  obtain ⟨h1, h2⟩ := hb z (hm3 z hx)
  show (if s = 0 then _ else L.round (e z / s)) = _
  rw [if_neg (by linarith)]
  refine round_fin ok ?_
  rw [abs_of_nonneg (div_nonneg h1 (by linarith))]
  have : e z / s ≤ 1 := (div_le_one (by linarith)).2 (by linarith)
  linarith [ok.bigBound]

theorem mul_exp_neg_le {t : ℝ} (h : 0 ≤ t) : t * Real.exp (-t) ≤ 1 / 2 := by
  have h1 : 1 + t + t ^ 2 / 2 ≤ Real.exp t := Real.quadratic_le_exp_of_nonneg h
  have h2 : 2 * t ≤ Real.exp t := by nlinarith [sq_nonneg (t - 1)]
  rw [Real.exp_neg, ← div_eq_mul_inv, div_le_iff₀ (Real.exp_pos t)]
  linarith

/-- The exponential of a difference that is not positive, computed with rounding. -/
theorem exp_near (ok : IsFloatLib L N) (ac : Accurate L u η v) {x m y : ℝ} (hxm : x ≤ m)
    (he : L.exp (L.sub (.fin x) (.fin m)) = .fin y) : |y - Real.exp (x - m)| ≤ 2 * u + v + 3 * η := by
  have hu := ac.uNonneg
  have hu2 := ac.uHalf
  have hη := ac.etaNonneg
  have hv := ac.vNonneg
  set a := x - m with ha
  have ha0 : a ≤ 0 := by linarith
  have hsub : L.sub (.fin x) (.fin m) = L.round a := by
    show L.round (x + -m) = _
    rw [ha, sub_eq_add_neg]
  rw [hsub] at he
  rcases round_cases L a with ⟨e, hb⟩ | ⟨e, hb⟩ <;> rw [e] at he
  · set b := L.rnd a with hbd
    have hb0 : b ≤ 0 := ok.nonpos ha0
    have hn := ac.near a
    rw [← hbd, abs_of_nonpos ha0] at hn
    have he1 : L.expR b ≤ 1 := ok.expZero ▸ ok.expMono hb0
    have hf : L.exp (.fin b) = .fin (L.rnd (L.expR b)) := by
      refine round_fin ok ?_
      rw [abs_of_nonneg (ok.expNonneg b)]
      linarith [ok.bigBound]
    rw [hf] at he
    cases he
    have h1 := ac.near (L.expR b)
    rw [abs_of_nonneg (ok.expNonneg b)] at h1
    have h2 := ac.expNear b
    have hEb : Real.exp b ≤ 1 := Real.exp_le_one_iff.2 hb0
    have hEa : Real.exp a ≤ 1 := Real.exp_le_one_iff.2 ha0
    have h3 : |Real.exp b - Real.exp a| ≤ u + 2 * η := by
      have key : ∀ p q : ℝ, p ≤ q → Real.exp q - Real.exp p ≤ (q - p) * Real.exp q := by
        intro p q _
        have := Real.add_one_le_exp (p - q)
        have e1 : Real.exp p = Real.exp (p - q) * Real.exp q := by rw [← Real.exp_add]; ring_nf
        rw [e1]
        nlinarith [Real.exp_pos q]
      rcases le_total a b with hab | hab
      · rw [abs_of_nonneg (by linarith [Real.exp_le_exp.2 hab])]
        refine (key a b hab).trans ?_
        rw [abs_of_nonneg (by linarith)] at hn
        have hm := mul_exp_neg_le (neg_nonneg.2 hb0)
        rw [neg_neg] at hm
        have hE := Real.exp_pos b
        -- |a| ≤ 2 (|b| + η), as u ≤ 1/2
        have h5 : -a ≤ 2 * (-b + η) := by nlinarith
        have h6 : b - a ≤ u * (2 * (-b + η)) + η := by nlinarith
        have h7 : (b - a) * Real.exp b ≤ (u * (2 * (-b + η)) + η) * Real.exp b := mul_le_mul_of_nonneg_right h6 hE.le
        have h8 : u * (-b * Real.exp b) ≤ u * (1 / 2) := mul_le_mul_of_nonneg_left hm hu
        have h9 : (2 * u * η + η) * Real.exp b ≤ 2 * u * η + η := mul_le_of_le_one_right (by positivity) hEb
        have h10 : 2 * u * η ≤ η := by nlinarith
        nlinarith
      · rw [abs_of_nonpos (by linarith [Real.exp_le_exp.2 hab]), neg_sub]
        refine (key b a hab).trans ?_
        rw [abs_of_nonpos (by linarith), neg_sub] at hn
        have hm := mul_exp_neg_le (neg_nonneg.2 ha0)
        rw [neg_neg] at hm
        have hE := Real.exp_pos a
        have h7 : (a - b) * Real.exp a ≤ (u * -a + η) * Real.exp a := mul_le_mul_of_nonneg_right hn hE.le
        have h8 : u * (-a * Real.exp a) ≤ u * (1 / 2) := mul_le_mul_of_nonneg_left hm hu
        have h9 : η * Real.exp a ≤ η := mul_le_of_le_one_right hη hEa
        nlinarith
    have h4 : u * L.expR b ≤ u := mul_le_of_le_one_right hu he1
    have h5 : v * Real.exp b ≤ v := mul_le_of_le_one_right hv hEb
    rw [abs_le] at *
    constructor <;> linarith [h1.1, h1.2, h2.1, h2.2, h3.1, h3.2]
  · have hne : a < 0 := by
      rcases lt_or_eq_of_le ha0 with h | h
      · exact h
      · exfalso
        rw [h, ok.zero, abs_zero] at hb
        linarith [ok.bigBound]
    have hy : y = 0 := by
      simp only [hne, decide_true] at he
      cases he
      rfl
    subst hy
    have hba : L.big < -a := by
      by_contra h
      have : |L.rnd a| ≤ L.big := ok.abs_le ok.rndBig (by rw [abs_of_nonpos ha0]; linarith)
      linarith
    have hbig := ok.bigBound
    have h1 : Real.exp a ≤ u := by
      have h2 := Real.add_one_le_exp (-a)
      have h3 : Real.exp a * Real.exp (-a) = 1 := by rw [← Real.exp_add]; simp
      have h4 := ac.wide
      have hE := Real.exp_pos a
      have h5 : Real.exp a * L.big ≤ 1 := by
        rw [← h3]
        exact mul_le_mul_of_nonneg_left (by linarith) hE.le
      have h6 : Real.exp a * L.big ≤ u * L.big := h5.trans h4
      exact le_of_mul_le_mul_right h6 (by linarith)
    rw [zero_sub, abs_neg, abs_of_nonneg (Real.exp_pos a).le]
    linarith

end Thinc
