import Verif.Lemmas.SoftmaxAcc
/-!
# C127: how far rounding takes `softmax` and `sigmoid` from their mathematical values
-/
namespace Thinc
open Spec
variable {L : FloatLib} {count : ℕ} {u η v : ℝ}

theorem sum_rnd_near (ac : Accurate L u η v) {α : Type} (xs : List α) (f : α → ℝ) (h : ∀ x ∈ xs, 0 ≤ f x) :
    (1 - u) * (xs.map f).sum - xs.length * η ≤ (xs.map fun x => L.rnd (f x)).sum ∧
    (xs.map fun x => L.rnd (f x)).sum ≤ (1 + u) * (xs.map f).sum + xs.length * η := by
  induction xs with
  | nil => simp
  | cons x xs ih =>
    obtain ⟨h1, h2⟩ := ih fun y hy => h y (by simp [hy])
    have h3 := ac.near (f x)
    rw [abs_of_nonneg (h x (by simp)), abs_le] at h3
    simp only [List.map_cons, List.sum_cons, List.length_cons]
    push_cast
    constructor <;> nlinarith [h3.1, h3.2]

/-- C127 (probabilities sum to one).  For all rows of finite numbers and all temperatures of at least one, the exact sum of the numbers that `softmax` returns is one,
up to the given error: about `n` times the precision `u` of the format for `n` classes. -/
theorem C127_softmax_sum (ok : IsFloatLib L count) (ac : Accurate L u η v) {T : ℝ} (hT : 1 ≤ T) (row : List Fl) (hne : row ≠ [])
    (hlen : row.length ≤ count) (hrow : ∀ x ∈ row, IsFinite L x) :
    ∃ ps : List ℝ, L.softmaxRow (.fin T) row = .ok (ps.map .fin) ∧ ps.length = row.length ∧
      (1 - u) / (1 + u) ^ row.length - row.length * η ≤ ps.sum ∧ ps.sum ≤ (1 + u) / (1 - u) ^ row.length + row.length * η := by
  obtain ⟨hl, hf⟩ := tempered_finite ok hT hrow
  obtain ⟨m, s, e, h1, h2, h3, h4, h5, h6, h7, h8⟩ := softmax_steps ok ac hl hlen (List.length_pos_iff.2 hne) hf
  have hu := ac.uNonneg
  have hu2 := ac.uHalf
  refine ⟨(L.tempered (.fin T) row).map fun x => L.rnd (e x.val / s), ?_, by simp [hl], ?_⟩
  · rw [h8, List.map_map]
    rfl
  have h9 := sum_rnd_near ac (L.tempered (.fin T) row) (fun x => e x.val / s) (by
    intro x hx
    obtain ⟨z, rfl, -⟩ := hf x hx
    exact div_nonneg (h4 z (h2 z hx)).2.1 (by linarith))
  have h10 : ((L.tempered (.fin T) row).map fun x => e x.val / s).sum = ((L.tempered (.fin T) row).map fun x => e x.val).sum / s := by
    generalize L.tempered (.fin T) row = l
    induction l with
    | nil => simp
    | cons x xs ih => simp only [List.map_cons, List.sum_cons, ih, add_div]
  rw [h10, hl] at h9
  generalize ((L.tempered (.fin T) row).map fun x => e x.val).sum = E at *
  have hs : 0 < s := by linarith
  have p1 : 0 < (1 + u) ^ row.length := by positivity
  have p2 : 0 < (1 - u) ^ row.length := pow_pos (by linarith) _
  have q1 : 1 / (1 + u) ^ row.length ≤ E / s := by
    rw [div_le_div_iff₀ p1 hs]
    linarith
  have q2 : E / s ≤ 1 / (1 - u) ^ row.length := by
    rw [div_le_div_iff₀ hs p2]
    linarith
  have r1 : (1 - u) / (1 + u) ^ row.length ≤ (1 - u) * (E / s) := by
    rw [div_eq_mul_one_div]
    exact mul_le_mul_of_nonneg_left q1 (by linarith)
  have r2 : (1 + u) * (E / s) ≤ (1 + u) / (1 - u) ^ row.length := by
    rw [div_eq_mul_one_div (1 + u)]
    exact mul_le_mul_of_nonneg_left q2 (by linarith)
  exact ⟨by linarith [h9.1], by linarith [h9.2]⟩

theorem sum_exp_shift (xs : List ℝ) (m : ℝ) : (xs.map Real.exp).sum = Real.exp m * (xs.map fun x => Real.exp (x - m)).sum := by
  induction xs with
  | nil => simp
  | cons x xs ih =>
    simp only [List.map_cons, List.sum_cons, ih, mul_add]
    rw [← Real.exp_add, add_sub_cancel]

theorem sum_abs_sub (xs : List ℝ) (f g : ℝ → ℝ) (δ : ℝ) (h : ∀ x ∈ xs, |f x - g x| ≤ δ) :
    |(xs.map f).sum - (xs.map g).sum| ≤ xs.length * δ := by
  induction xs with
  | nil => simp
  | cons x xs ih =>
    have h1 := ih fun y hy => h y (by simp [hy])
    have h2 := h x (by simp)
    simp only [List.map_cons, List.sum_cons, List.length_cons]
    push_cast
    rw [abs_le] at *
    constructor <;> linarith [h1.1, h1.2, h2.1, h2.2]

theorem le_sum_of_mem_nonneg (xs : List ℝ) (f : ℝ → ℝ) (h : ∀ x ∈ xs, 0 ≤ f x) {x : ℝ} (hx : x ∈ xs) : f x ≤ (xs.map f).sum :=
  List.single_le_sum (fun y hy => by obtain ⟨z, hz, rfl⟩ := List.mem_map.1 hy; exact h z hz) _ (List.mem_map_of_mem hx)

/-- C127 (accuracy of softmax).  For all rows of finite numbers, each probability that `softmax` returns (at temperature one) is the mathematical one, up to the given
error: about `4 n` times the precision `u` of the format for `n` classes, however large the scores are. -/
theorem C127_softmax_accurate (ok : IsFloatLib L count) (ac : Accurate L u η v) (xs : List ℝ) (hne : xs ≠ [])
    (hlen : xs.length ≤ count) (hrow : ∀ x ∈ xs, IsFinite L (.fin x)) :
    ∃ ps : List ℝ, L.softmaxRow (.fin 1) (xs.map .fin) = .ok (ps.map .fin) ∧ ps.length = xs.length ∧
      ∀ (i : ℕ) p q, ps[i]? = some p → (softmaxReal xs)[i]? = some q →
        |p - q| ≤ u + η + (1 / (1 - u) ^ xs.length - 1) + (xs.length + 1) * (2 * u + v + 3 * η) := by
  have ht : L.tempered (.fin 1) (xs.map .fin) = xs.map .fin := if_pos rfl
  have hf : ∀ x ∈ xs.map Fl.fin, IsFinite L x := by
    intro x hx
    obtain ⟨z, hz, rfl⟩ := List.mem_map.1 hx
    exact hrow z hz
  have hst := softmax_steps ok ac (row := xs.map .fin) (T := .fin 1) (n := xs.length) (by simp [ht]) hlen (List.length_pos_iff.2 hne) (by rw [ht]; exact hf)
  rw [ht] at hst
  obtain ⟨m, s, e, h1, h2, h3, h4, h5, h6, h7, h8⟩ := hst
  have hmem : ∀ y, Fl.fin y ∈ xs.map Fl.fin ↔ y ∈ xs := by
    intro y
    simp
  have hmv : ((xs.map Fl.fin).map fun x => e x.val) = xs.map e := by
    rw [List.map_map]
    rfl
  rw [hmv] at h6 h7
  rw [hmem] at h1
  have hu := ac.uNonneg
  have hu2 := ac.uHalf
  have hη := ac.etaNonneg
  have hv := ac.vNonneg
  set δ := 2 * u + v + 3 * η with hδ
  have hle : ∀ y ∈ xs, y ≤ m := fun y hy => h2 y ((hmem y).2 hy)
  have hnear : ∀ y ∈ xs, |e y - Real.exp (y - m)| ≤ δ := fun y hy => exp_near ok ac (hle y hy) (h4 y (hle y hy)).1
  have hE : |(xs.map e).sum - (xs.map fun x => Real.exp (x - m)).sum| ≤ xs.length * δ := sum_abs_sub xs _ _ δ hnear
  have hE1 : 1 ≤ (xs.map e).sum := h3 ▸ le_sum_of_mem_nonneg xs e (fun x hx => (h4 x (hle x hx)).2.1) h1
  have hge : ∀ y ∈ xs, e y ≤ (xs.map e).sum := fun y hy => le_sum_of_mem_nonneg xs e (fun x hx => (h4 x (hle x hx)).2.1) hy
  have hgt : ∀ y ∈ xs, Real.exp (y - m) ≤ (xs.map fun x => Real.exp (x - m)).sum := fun y hy =>
    le_sum_of_mem_nonneg xs (fun x => Real.exp (x - m)) (fun x _ => (Real.exp_pos _).le) hy
  have hS1 : 0 < (xs.map fun x => Real.exp (x - m)).sum := lt_of_lt_of_le (Real.exp_pos _) (hgt m h1)
  have hshift := sum_exp_shift xs m
  refine ⟨xs.map fun x => L.rnd (e x / s), ?_, by simp, ?_⟩
  · rw [h8, List.map_map, List.map_map]
    rfl
  · intro i p q hp hq
    rw [List.getElem?_map] at hp
    unfold softmaxReal at hq
    rw [List.getElem?_map] at hq
    rcases hx : xs[i]? with _ | x <;> rw [hx] at hp hq
    · cases hp
    · cases hp
      cases hq
      have hxm := List.mem_of_getElem? hx
      beta_reduce
      have hqq : Real.exp x / (xs.map Real.exp).sum = Real.exp (x - m) / (xs.map fun x => Real.exp (x - m)).sum := by
        rw [hshift, Real.exp_sub, div_div]
      rw [hqq]
      have k1 := hnear x hxm
      have k2 := hge x hxm
      have k3 := hgt x hxm
      have k4 := (h4 x (hle x hxm)).2
      have k5 := Real.exp_pos (x - m)
      generalize (xs.map fun x => Real.exp (x - m)).sum = S at *
      generalize (xs.map e).sum = E at *
      generalize Real.exp (x - m) = t at *
      generalize e x = y at *
      have hs : 0 < s := by linarith
      have hEp : 0 < E := by linarith
      -- rounding of the quotient
      have a1 : |L.rnd (y / s) - y / s| ≤ u + η := by
        have := ac.near (y / s)
        rw [abs_of_nonneg (div_nonneg k4.1 hs.le)] at this
        have h : y / s ≤ 1 := (div_le_one hs).2 (by linarith [k4.2])
        have : u * (y / s) ≤ u := mul_le_of_le_one_right hu h
        linarith
      -- the error of the sum
      have p1 : 1 ≤ (1 + u) ^ xs.length := one_le_pow₀ (by linarith)
      have p2 : 0 < (1 - u) ^ xs.length := pow_pos (by linarith) _
      have p3 : (1 + u) ^ xs.length ≤ 1 / (1 - u) ^ xs.length := by
        rw [le_div_iff₀ p2, ← mul_pow]
        exact pow_le_one₀ (by nlinarith) (by nlinarith)
      have a2 : |y / s - y / E| ≤ 1 / (1 - u) ^ xs.length - 1 := by
        have e1 : y / s - y / E = y / E * (E / s - 1) := by
          field_simp
        have e2 : |y / E| ≤ 1 := by
          rw [abs_of_nonneg (div_nonneg k4.1 hEp.le)]
          exact (div_le_one hEp).2 k2
        have e3 : E / s ≤ 1 / (1 - u) ^ xs.length := by
          rw [div_le_div_iff₀ hs p2]
          linarith
        have e4 : 1 / (1 + u) ^ xs.length ≤ E / s := by
          rw [div_le_div_iff₀ (by linarith) hs]
          linarith
        have e5 : 2 - (1 + u) ^ xs.length ≤ 1 / (1 + u) ^ xs.length := by
          rw [le_div_iff₀ (by linarith)]
          nlinarith [sq_nonneg ((1 + u) ^ xs.length - 1)]
        have e6 : |E / s - 1| ≤ 1 / (1 - u) ^ xs.length - 1 := by
          rw [abs_le]
          constructor <;> linarith
        rw [e1, abs_mul]
        calc |y / E| * |E / s - 1| ≤ 1 * |E / s - 1| := mul_le_mul_of_nonneg_right e2 (abs_nonneg _)
          _ ≤ _ := by rw [one_mul]; exact e6
      -- the errors of the exponentials
      have a3 : |y / E - t / S| ≤ (xs.length + 1) * δ := by
        have e1 : y / E - t / S = ((y - t) + t / S * (S - E)) / E := by
          field_simp
          ring
        have e2 : |t / S| ≤ 1 := by
          rw [abs_of_nonneg (div_nonneg k5.le hS1.le)]
          exact (div_le_one hS1).2 k3
        have e3 : |t / S * (S - E)| ≤ xs.length * δ := by
          rw [abs_mul, abs_sub_comm S E]
          calc |t / S| * |E - S| ≤ 1 * |E - S| := mul_le_mul_of_nonneg_right e2 (abs_nonneg _)
            _ ≤ _ := by rw [one_mul]; exact hE
        rw [e1, abs_div, abs_of_pos hEp, div_le_iff₀ hEp]
        have e4 := (abs_add_le (y - t) (t / S * (S - E))).trans (add_le_add k1 e3)
        have e5 : 0 ≤ (xs.length + 1) * δ := by positivity
        nlinarith
      have b1 : L.rnd (y / s) - t / S = (L.rnd (y / s) - y / s) + (y / s - y / E) + (y / E - t / S) := by ring
      rw [b1]
      exact (abs_add_three _ _ _).trans (add_le_add (add_le_add a1 a2) a3)

/-- C127 (accuracy of sigmoid).  For all finite numbers `sigmoid` returns the value of the logistic function, up to `exp(-20)` for the clipping at 20 and about
four times the precision of the format. -/
theorem C127_sigmoid_accurate (ok : IsFloatLib L count) (ac : Accurate L u η v) (x : ℝ) :
    ∃ y, L.sigmoid (.fin x) = .fin y ∧ |y - logistic x| ≤ Real.exp (-20) + 4 * u + u * v + v + 2 * η := by
  obtain ⟨hp, hn⟩ := round_twenty ok
  have hu := ac.uNonneg
  have hu2 := ac.uHalf
  have hη := ac.etaNonneg
  have hv := ac.vNonneg
  unfold FloatLib.sigmoid
  rw [hp, hn, clip_fin (by norm_num)]
  set z := Min.min (Max.max x (-20)) 20 with hz
  have hz1 : -20 ≤ z := le_min (le_max_right _ _) (by norm_num)
  have hz2 : z ≤ 20 := min_le_right _ _
  obtain ⟨e, h1⟩ := sigmoid_core ok hz1
  refine ⟨_, e, ?_⟩
  -- clipping
  have hclip : |logistic z - logistic x| ≤ Real.exp (-20) := by
    unfold logistic
    have hX := Real.exp_pos (-x)
    have hZ := Real.exp_pos (-z)
    rcases le_total x (-20) with c | c
    · have : z = -20 := by rw [hz, max_eq_right c, min_eq_left (by norm_num)]
      rw [this, neg_neg]
      have h20 : Real.exp 20 ≤ Real.exp (-x) := Real.exp_le_exp.2 (by linarith)
      have hE := Real.exp_pos 20
      have a1 : 1 / (1 + Real.exp (-x)) ≤ 1 / (1 + Real.exp 20) := one_div_le_one_div_of_le (by linarith) (by linarith)
      have a2 : 1 / (1 + Real.exp 20) ≤ Real.exp (-20) := by
        rw [Real.exp_neg, ← one_div]
        exact one_div_le_one_div_of_le hE (by linarith)
      have a3 : 0 ≤ 1 / (1 + Real.exp (-x)) := by positivity
      rw [abs_le]
      constructor <;> linarith [Real.exp_pos (-20 : ℝ)]
    · rcases le_total x 20 with c' | c'
      · have : z = x := by rw [hz, max_eq_left c, min_eq_left c']
        rw [this, sub_self, abs_zero]
        exact (Real.exp_pos _).le
      · have : z = 20 := by rw [hz, max_eq_left c, min_eq_right c']
        rw [this]
        have h20 : Real.exp (-x) ≤ Real.exp (-20) := Real.exp_le_exp.2 (by linarith)
        have hE := Real.exp_pos (-20)
        have a1 : 1 - Real.exp (-20) ≤ 1 / (1 + Real.exp (-20)) := by
          rw [le_div_iff₀ (by linarith)]
          nlinarith
        have a2 : 1 / (1 + Real.exp (-20)) ≤ 1 / (1 + Real.exp (-x)) := one_div_le_one_div_of_le (by linarith) (by linarith)
        have a3 : 1 / (1 + Real.exp (-x)) ≤ 1 := (div_le_one (by linarith)).2 (by linarith)
        rw [abs_le]
        constructor <;> linarith
  -- rounding
  have hcore : |L.rnd (1 / L.rnd (1 + L.rnd (L.expR (-z)))) - logistic z| ≤ 4 * u + u * v + v + 2 * η := by
    unfold logistic
    have e0 := ok.expNonneg (-z)
    have e1 := ok.nonneg e0
    have n1 := ac.near (L.expR (-z))
    have n2 := ac.expNear (-z)
    have n3 := ac.addNear 1 (L.rnd (L.expR (-z))) ok.one (ok.idem _)
    have n4 := ac.near (1 / L.rnd (1 + L.rnd (L.expR (-z))))
    rw [abs_of_nonneg e0] at n1
    have hZ := Real.exp_pos (-z)
    generalize Real.exp (-z) = Z at *
    generalize L.expR (-z) = w at *
    generalize L.rnd w = q at *
    rw [abs_of_nonneg (by linarith : 0 ≤ 1 + q)] at n3
    generalize L.rnd (1 + q) = d at *
    have hd : 0 < d := by linarith
    rw [abs_of_nonneg (by positivity : 0 ≤ 1 / d)] at n4
    have hd1 : 1 / d ≤ 1 := (div_le_one hd).2 h1
    have m4 : |L.rnd (1 / d) - 1 / d| ≤ u + η := by
      have : u * (1 / d) ≤ u := mul_le_of_le_one_right hu hd1
      linarith
    rw [abs_le] at n1 n2 n3
    have hD : 0 < 1 + Z := by linarith
    have f1 : |q - Z| ≤ (u * (1 + v) + v) * Z + η := by
      have : w ≤ (1 + v) * Z := by linarith [n2.2]
      have : u * w ≤ u * ((1 + v) * Z) := mul_le_mul_of_nonneg_left this hu
      rw [abs_le]
      constructor <;> nlinarith [n1.1, n1.2, n2.1, n2.2]
    have f2 : |1 / d - 1 / (1 + Z)| ≤ 2 * u + (u * (1 + v) + v) + η := by
      have g1 : 1 / d - 1 / (1 + Z) = ((1 + Z) - d) / (d * (1 + Z)) := by
        field_simp
      have hdD : 0 < d * (1 + Z) := by positivity
      rw [g1, abs_div, abs_of_pos hdD, div_le_iff₀ hdD]
      -- |d - (1 + Z)| ≤ u (1 + q) + |q - Z|
      have g2 : |(1 + Z) - d| ≤ u * (1 + q) + ((u * (1 + v) + v) * Z + η) := by
        rw [abs_le] at f1 ⊢
        constructor <;> linarith [n3.1, n3.2, f1.1, f1.2]
      refine g2.trans ?_
      have g3 : 1 + q ≤ 2 * d := by nlinarith [n3.1]
      have g4 : u * (1 + q) ≤ 2 * u * (d * (1 + Z)) := by
        have : u * (1 + q) ≤ u * (2 * d) := mul_le_mul_of_nonneg_left g3 hu
        have : u * d ≤ u * (d * (1 + Z)) := mul_le_mul_of_nonneg_left (by nlinarith) hu
        linarith
      have hr : 0 ≤ u * (1 + v) + v := by positivity
      have g5 : (u * (1 + v) + v) * Z ≤ (u * (1 + v) + v) * (d * (1 + Z)) := mul_le_mul_of_nonneg_left (by nlinarith) hr
      have g6 : η ≤ η * (d * (1 + Z)) := le_mul_of_one_le_right hη (by nlinarith)
      nlinarith
    have b1 : L.rnd (1 / d) - 1 / (1 + Z) = (L.rnd (1 / d) - 1 / d) + (1 / d - 1 / (1 + Z)) := by ring
    rw [b1]
    refine (abs_add_le _ _).trans ?_
    linarith
  have b1 : ∀ a b c : ℝ, a - c = (a - b) + (b - c) := fun a b c => by ring
  rw [b1 _ (logistic z) _]
  refine (abs_add_le _ _).trans ?_
  linarith

end Thinc
