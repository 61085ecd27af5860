import Verif.Lemmas.FloatSum
/-!
# C126: no infinities or NaN out of finite numbers, in floating-point arithmetic
-/
namespace Thinc
open Spec
variable {L : FloatLib} {count : ℕ}

/-- A finite number divided by a temperature of at least one. -/
theorem tempered_one (ok : IsFloatLib L count) {T x : ℝ} (hT : 1 ≤ T) (h1 : L.rnd x = x) (h2 : |x| ≤ L.big) :
    L.div (.fin x) (.fin T) = .fin (L.rnd (x / T)) ∧ L.rnd (L.rnd (x / T)) = L.rnd (x / T) ∧ |L.rnd (x / T)| ≤ L.big := by
  have hT0 : 0 < T := by linarith
  have h : |x / T| ≤ |x| := by
    rw [abs_div, abs_of_pos hT0]
    exact div_le_self (abs_nonneg x) hT
  refine ⟨?_, ok.idem _, ok.abs_le ok.rndBig (h.trans h2)⟩
  show (if T = 0 then _ else L.round (x / T)) = _
  rw [if_neg hT0.ne', round_fin ok (h.trans h2)]

/-- `exp(x - m)` for `x ≤ m`: between 0 and 1, monotone in `x`, and 1 at `m`. -/
theorem exp_shifted (ok : IsFloatLib L count) {m : ℝ} : ∃ e : ℝ → ℝ, e m = 1 ∧ (∀ x, x ≤ m → Between L 0 1 (.fin (e x))) ∧
    (∀ x, x ≤ m → L.exp (L.sub (.fin x) (.fin m)) = .fin (e x)) ∧ ∀ x y, x ≤ y → y ≤ m → e x ≤ e y := by
  have h0 : ∀ z : ℝ, z ≤ 0 → L.expR z ≤ 1 := fun z hz => ok.expZero ▸ ok.expMono hz
  have hr : ∀ z : ℝ, z ≤ 0 → Between L 0 1 (L.round (L.expR z)) := fun z hz => by
    refine round_between ok ?_ ok.zero ok.one (ok.expNonneg z) (h0 z hz)
    rw [abs_of_nonneg (ok.expNonneg z)]
    linarith [h0 z hz, ok.bigBound]
  have hf : ∀ z : ℝ, z ≤ 0 → L.round (L.expR z) = .fin (L.rnd (L.expR z)) := fun z hz => by
    refine round_fin ok ?_
    rw [abs_of_nonneg (ok.expNonneg z)]
    linarith [h0 z hz, ok.bigBound]
  refine ⟨fun x => if |L.rnd (x + -m)| ≤ L.big then L.rnd (L.expR (L.rnd (x + -m))) else 0, ?_, ?_, ?_, ?_⟩
  · have : L.rnd (m + -m) = 0 := by rw [add_neg_cancel, ok.zero]
    simp only [this, abs_zero, ok.expZero, ok.one]
    exact if_pos (by linarith [ok.bigBound])
  · intro x hx
    by_cases c : |L.rnd (x + -m)| ≤ L.big
    · simp only [if_pos c]
      have h1 : L.rnd (x + -m) ≤ 0 := ok.nonpos (by linarith)
      rw [← hf _ h1]
      exact hr _ h1
    · simp only [if_neg c]
      exact ⟨0, rfl, ok.zero, by simp; linarith [ok.bigBound], le_refl _, by norm_num⟩
  · intro x hx
    show L.exp (L.round (x + -m)) = _
    by_cases c : |L.rnd (x + -m)| ≤ L.big
    · have h1 : L.rnd (x + -m) ≤ 0 := ok.nonpos (by linarith)
      have e : L.round (x + -m) = .fin (L.rnd (x + -m)) := if_pos c
      rw [e]
      simp only [if_pos c]
      exact hf _ h1
    · have e : L.round (x + -m) = .inf (decide (x + -m < 0)) := if_neg c
      have hne : x + -m < 0 := by
        rcases lt_or_eq_of_le hx with h | h
        · linarith
        · exfalso
          rw [h, add_neg_cancel, ok.zero] at c
          exact c (by simp; linarith [ok.bigBound])
      rw [e]
      simp only [if_neg c, hne, decide_true]
      rfl
  · intro x y hxy hy
    have hm : L.rnd (x + -m) ≤ L.rnd (y + -m) := ok.mono (by linarith)
    have hy0 : L.rnd (y + -m) ≤ 0 := ok.nonpos (by linarith)
    by_cases c : |L.rnd (x + -m)| ≤ L.big
    · have c' : |L.rnd (y + -m)| ≤ L.big := by
        rw [abs_of_nonpos hy0]
        rw [abs_of_nonpos (hm.trans hy0)] at c
        linarith
      simp only [if_pos c, if_pos c']
      exact ok.mono (ok.expMono hm)
    · simp only [if_neg c]
      split
      · exact ok.nonneg (ok.expNonneg _)
      · exact le_refl _

/-- C126 (softmax; partial, the property is violated for temperatures below one, see `C126_softmax_temperature_wrong`).  In floating-point arithmetic, for all rows of finite numbers, however large, and all temperatures of at least one, `softmax` gives
finite numbers between 0 and 1; a larger score never gets a smaller probability; and the largest probability is not zero.  So no overflow in `exp`
and no division by zero, and the class with the largest score remains a class with the largest probability.  The order in which numpy sums does not matter. -/
theorem C126_softmax_partial (ok : IsFloatLib L count) {T : ℝ} (hT : 1 ≤ T) (row : List Fl) (hne : row ≠ []) (hlen : row.length ≤ count)
    (hrow : ∀ x ∈ row, IsFinite L x) :
    ∃ ys, L.softmaxRow (.fin T) row = .ok ys ∧ ys.length = row.length ∧ (∀ y ∈ ys, Between L 0 1 y) ∧ (∃ y ∈ ys, (Fl.fin 0).lt y) ∧
      ∀ (i j : ℕ) a b c d, row[i]? = some a → row[j]? = some b → ys[i]? = some c → ys[j]? = some d → a.le b → c.le d := by
  obtain ⟨t, ht, htf, htm⟩ : ∃ t : Fl → Fl, L.tempered (.fin T) row = row.map t ∧ (∀ x, IsFinite L x → IsFinite L (t x)) ∧
      ∀ x y x' y', IsFinite L (.fin x) → IsFinite L (.fin y) → x ≤ y → t (.fin x) = .fin x' → t (.fin y) = .fin y' → x' ≤ y' := by
    by_cases c : (Fl.fin T) = .fin 1
    · refine ⟨id, by simp [FloatLib.tempered, c], fun x h => h, fun x y x' y' _ _ h h1 h2 => ?_⟩
      cases h1
      cases h2
      exact h
    · refine ⟨fun x => L.div x (.fin T), by simp [FloatLib.tempered, c], ?_, ?_⟩
      · rintro _ ⟨x, rfl, h1, h2⟩
        obtain ⟨e, h3, h4⟩ := tempered_one ok hT h1 h2
        exact ⟨_, e, h3, h4⟩
      · rintro x y x' y' ⟨_, e1, h1, h2⟩ ⟨_, e2, h3, h4⟩ h e3 e4
        cases e1
        cases e2
        have f1 := (tempered_one ok hT h1 h2).1.symm.trans e3
        have f2 := (tempered_one ok hT h3 h4).1.symm.trans e4
        cases f1
        cases f2
        exact ok.mono (div_le_div_of_nonneg_right h (by linarith))
  obtain ⟨x0, rest, hr⟩ : ∃ x0 rest, row.map t = x0 :: rest := by
    cases row with
    | nil => exact absurd rfl hne
    | cons x xs => exact ⟨t x, xs.map t, rfl⟩
  have hfin : ∀ x ∈ x0 :: rest, IsFinite L x := by
    rw [← hr]
    intro x hx
    obtain ⟨a, ha, rfl⟩ := List.mem_map.1 hx
    exact htf a (hrow a ha)
  obtain ⟨m, hm1, hm2, hm3⟩ := foldl_max L rest x0 (hfin x0 (by simp)) (fun y hy => hfin y (by simp [hy]))
  have hmax : Fl.rowMax (row.map t) = .ok (.fin m) := by
    rw [hr]
    exact congrArg Except.ok hm1
  rw [← hr] at hm2 hm3 hfin
  obtain ⟨e, he1, he2, he3, he4⟩ := exp_shifted ok (m := m)
  have heb : ∀ x ∈ (row.map t).map fun x => L.exp (L.sub x (.fin m)), Between L 0 1 x := by
    intro x hx
    obtain ⟨a, ha, rfl⟩ := List.mem_map.1 hx
    obtain ⟨z, rfl, -⟩ := hfin a ha
    have := hm3 z ha
    show Between L 0 1 (L.exp (L.sub (.fin z) (.fin m)))
    rw [he3 z this]
    exact he2 z this
  obtain ⟨s, hs1, hs2, hs3, hs4, hs5⟩ := sums_unit ok (ok.sum ((row.map t).map fun x => L.exp (L.sub x (.fin m)))) (by simpa using hlen) heb
  have hs6 : 1 ≤ s := by
    refine hs5 1 (List.mem_map.2 ⟨.fin m, hm2, ?_⟩)
    rw [he3 m (le_refl m), he1]
  have hs0 : s ≠ 0 := by linarith
  have hdiv : ∀ y : ℝ, L.div (.fin y) (.fin s) = L.round (y / s) := fun y => if_neg hs0
  have hq : ∀ y : ℝ, 0 ≤ y → y ≤ 1 → 0 ≤ y / s ∧ y / s ≤ 1 := fun y h1 h2 =>
    ⟨div_nonneg h1 hs3, (div_le_one (by linarith)).2 (h2.trans hs6)⟩
  have hqf : ∀ y : ℝ, 0 ≤ y → y ≤ 1 → L.round (y / s) = .fin (L.rnd (y / s)) := fun y h1 h2 => by
    refine round_fin ok ?_
    rw [abs_of_nonneg (hq y h1 h2).1]
    linarith [(hq y h1 h2).2, ok.bigBound]
  refine ⟨row.map fun a => L.div (L.exp (L.sub (t a) (.fin m))) (.fin s), ?_, by simp, ?_, ?_, ?_⟩
  · unfold FloatLib.softmaxRow
    rw [ht, hmax]
    simp only [bind, Except.bind, pure, Except.pure, hs1]
    simp [List.map_map, Function.comp_def]
  · intro y hy
    obtain ⟨a, ha, rfl⟩ := List.mem_map.1 hy
    obtain ⟨z, hz, -⟩ := htf a (hrow a ha)
    have hz' := hm3 z (hz ▸ List.mem_map_of_mem ha)
    rw [hz, he3 z hz', hdiv]
    obtain ⟨w, hw, -, -, h1, h2⟩ := he2 z hz'
    cases hw
    refine round_between ok ?_ ok.zero ok.one (hq _ h1 h2).1 (hq _ h1 h2).2
    rw [abs_of_nonneg (hq _ h1 h2).1]
    linarith [(hq _ h1 h2).2, ok.bigBound]
  · obtain ⟨a, ha, hm4⟩ := List.mem_map.1 hm2
    refine ⟨_, List.mem_map_of_mem ha, ?_⟩
    rw [hm4, he3 m (le_refl m), he1, hdiv, hqf 1 (by norm_num) (le_refl _)]
    show 0 < L.rnd (1 / s)
    refine lt_of_lt_of_le ok.fine (ok.mono (one_div_le_one_div_of_le (by linarith) (hs4.trans ?_)))
    rw [List.length_map, List.length_map]
    exact_mod_cast hlen
  · intro i j a b c d ha hb hc hd hab
    rw [List.getElem?_map, ha] at hc
    rw [List.getElem?_map, hb] at hd
    cases hc
    cases hd
    have ma := List.mem_of_getElem? ha
    have mb := List.mem_of_getElem? hb
    obtain ⟨x, rfl, hx⟩ := hrow a ma
    obtain ⟨y, rfl, hy⟩ := hrow b mb
    obtain ⟨z, hz, -⟩ := htf _ (hrow _ ma)
    obtain ⟨w, hw, -⟩ := htf _ (hrow _ mb)
    have hzw : z ≤ w := htm x y z w (hrow _ ma) (hrow _ mb) hab hz hw
    have hw' : w ≤ m := hm3 w (hw ▸ List.mem_map_of_mem mb)
    have hz' : z ≤ m := hzw.trans hw'
    obtain ⟨_, e1, -, -, h1, h2⟩ := he2 z hz'
    obtain ⟨_, e2, -, -, h3, h4⟩ := he2 w hw'
    cases e1
    cases e2
    beta_reduce
    rw [hz, hw, he3 z hz', he3 w hw', hdiv, hdiv, hqf _ h1 h2, hqf _ h3 h4]
    exact ok.mono (div_le_div_of_nonneg_right (he4 z w hzw hw') hs3)

/-- The number 20 of the format. -/
theorem twenty (ok : IsFloatLib L count) : L.rnd 20 = 20 := by
  have := ok.nat 20 (by have := ok.thousand; omega)
  exact_mod_cast this

theorem round_twenty (ok : IsFloatLib L count) : L.round 20 = .fin 20 ∧ L.round (-20) = .fin (-20) := by
  have := ok.bigBound
  refine ⟨?_, ?_⟩
  · rw [round_fin ok (by norm_num; linarith), twenty ok]
  · rw [round_fin ok (by norm_num; linarith), ok.neg (twenty ok)]

/-- `1 / (1 + exp(-z))` for `z` between -20 and 20. -/
theorem sigmoid_core (ok : IsFloatLib L count) {z : ℝ} (h1 : -20 ≤ z) :
    L.div (.fin 1) (L.add (.fin 1) (L.exp (.fin (-z)))) = .fin (L.rnd (1 / L.rnd (1 + L.rnd (L.expR (-z))))) ∧
    1 ≤ L.rnd (1 + L.rnd (L.expR (-z))) := by
  have e0 := ok.expNonneg (-z)
  have e1 : L.expR (-z) ≤ L.expR 20 := ok.expMono (by linarith)
  have e2 : L.rnd (L.expR (-z)) ≤ L.rnd (L.expR 20) := ok.mono e1
  have e3 := ok.nonneg e0
  have e4 := ok.expTwenty
  have f1 : L.round (L.expR (-z)) = .fin (L.rnd (L.expR (-z))) := if_pos (by rw [abs_of_nonneg e3]; linarith)
  have f2 : 1 ≤ L.rnd (1 + L.rnd (L.expR (-z))) := ok.ge_of_ge ok.one (by linarith)
  have f3 : L.round (1 + L.rnd (L.expR (-z))) = .fin (L.rnd (1 + L.rnd (L.expR (-z)))) :=
    round_fin ok (by rw [abs_of_nonneg (by linarith)]; linarith)
  refine ⟨?_, f2⟩
  show L.div (.fin 1) (L.add (.fin 1) (L.round (L.expR (-z)))) = _
  rw [f1]
  show L.div (.fin 1) (L.round (1 + L.rnd (L.expR (-z)))) = _
  rw [f3]
  show (if L.rnd (1 + L.rnd (L.expR (-z))) = 0 then _ else L.round (1 / L.rnd (1 + L.rnd (L.expR (-z))))) = _
  rw [if_neg (by linarith)]
  refine round_fin ok ?_
  rw [abs_of_nonneg (by positivity)]
  refine le_trans ((div_le_one (by linarith)).2 f2) ?_
  linarith [ok.bigBound]

/-- C126 (sigmoid).  For all numbers but NaN, also the infinities, `sigmoid` gives a finite number between 0 and 1, and it is monotone. -/
theorem C126_sigmoid (ok : IsFloatLib L count) :
    (∀ x, x ≠ .nan → (∀ r, x = .fin r → L.rnd r = r) → Between L 0 1 (L.sigmoid x)) ∧
    ∀ x y, L.rnd x = x → L.rnd y = y → x ≤ y → (L.sigmoid (.fin x)).le (L.sigmoid (.fin y)) := by
  obtain ⟨hp, hn⟩ := round_twenty ok
  have hb := ok.bigBound
  constructor
  · intro x hx hf
    unfold FloatLib.sigmoid
    rw [hp, hn]
    obtain ⟨z, hz, -, -, h1, h2⟩ := clip_between (L := L) (lo := -20) (hi := 20) hx hf (by norm_num) (ok.neg (twenty ok)) (twenty ok)
      (by norm_num; linarith) (by norm_num; linarith)
    rw [hz]
    obtain ⟨e, h3⟩ := sigmoid_core ok h1
    show Between L 0 1 (L.div (.fin 1) (L.add (.fin 1) (L.exp (.fin (-z)))))
    rw [e]
    have h4 : 0 ≤ 1 / L.rnd (1 + L.rnd (L.expR (-z))) := by positivity
    have h5 : 1 / L.rnd (1 + L.rnd (L.expR (-z))) ≤ 1 := (div_le_one (by linarith)).2 h3
    have h6 := ok.nonneg h4
    have h7 := ok.le_of_le ok.one h5
    exact ⟨_, rfl, ok.idem _, by rw [abs_of_nonneg h6]; linarith, h6, h7⟩
  · intro x y _ _ hxy
    unfold FloatLib.sigmoid
    rw [hp, hn, clip_fin (by norm_num), clip_fin (by norm_num)]
    have hl : ∀ x : ℝ, -20 ≤ min (max x (-20)) 20 := fun x => le_min (le_max_right _ _) (by norm_num)
    show (L.div (.fin 1) (L.add (.fin 1) (L.exp (.fin (-min (max x (-20)) 20))))).le
      (L.div (.fin 1) (L.add (.fin 1) (L.exp (.fin (-min (max y (-20)) 20)))))
    obtain ⟨e1, h1⟩ := sigmoid_core ok (hl x)
    obtain ⟨e2, h2⟩ := sigmoid_core ok (hl y)
    rw [e1, e2]
    refine ok.mono (one_div_le_one_div_of_le (by linarith) (ok.mono ?_))
    have hm : min (max x (-20)) 20 ≤ min (max y (-20)) 20 := min_le_min (max_le_max hxy (le_refl _)) (le_refl _)
    have := ok.mono (ok.expMono (neg_le_neg hm))
    linarith

/-- C126 (the derivative of sigmoid).  For outputs of `sigmoid` and finite gradients the gradient is finite. -/
theorem C126_backprop_sigmoid (ok : IsFloatLib L count) {dy y : Fl} (hdy : IsFinite L dy) (hy : Between L 0 1 y) :
    IsFinite L (L.backpropSigmoid dy y) := by
  have hb := ok.bigBound
  refine mul_small ok hdy ?_
  obtain ⟨y, rfl, h1, h2, h3, h4⟩ := hy
  have e1 : L.sub (.fin 1) (.fin y) = .fin (L.rnd (1 + -y)) := round_fin ok (by rw [abs_of_nonneg (by linarith)]; linarith)
  have e2 : 0 ≤ L.rnd (1 + -y) := ok.nonneg (by linarith)
  have e3 : L.rnd (1 + -y) ≤ 1 := ok.le_of_le ok.one (by linarith)
  unfold FloatLib.dsigmoid
  rw [e1]
  have e4 : 0 ≤ y * L.rnd (1 + -y) := mul_nonneg h3 e2
  have e5 : y * L.rnd (1 + -y) ≤ 1 := mul_le_one₀ h4 e2 e3
  refine (round_between ok ?_ ok.zero ok.one e4 e5).weaken (by norm_num) (le_refl _)
  rw [abs_of_nonneg e4]
  linarith

/-- The sum of numbers that are not NaN, one of them finite, is not NaN. -/
theorem add_ne_nan {a : Fl} {y : ℝ} (ha : a ≠ .nan) : L.add a (.fin y) ≠ .nan := by
  cases a with
  | nan => exact absurd rfl ha
  | inf s => exact fun h => by cases h
  | fin x => exact round_ne_nan L _

theorem mul_ne_nan {a : Fl} {y : ℝ} (ha : a ≠ .nan) (h : y ≠ 0 ∨ ∃ x, a = .fin x) : L.mul a (.fin y) ≠ .nan := by
  cases a with
  | nan => exact absurd rfl ha
  | inf s =>
    rcases h with h | ⟨x, h⟩
    · show (if y = 0 then Fl.nan else _) ≠ _
      rw [if_neg h]
      exact fun h => by cases h
    · cases h
  | fin x => exact round_ne_nan L _

/-- A finite result of an addition is in the format. -/
theorem add_rep (ok : IsFloatLib L count) {a : Fl} {y r : ℝ} (h : L.add a (.fin y) = .fin r) : L.rnd r = r := by
  cases a with
  | nan => cases h
  | inf s => cases h
  | fin x =>
    have h' : L.round (x + y) = .fin r := h
    rcases round_cases L (x + y) with ⟨e, -⟩ | ⟨e, -⟩ <;> rw [e] at h'
    · cases h'
      exact ok.idem _
    · cases h'

/-- C126 (`clipped_linear`, and so `relu_k`, `hard_sigmoid` and `hard_tanh`).  For all finite numbers the result is a finite number between the two limits,
even if the product overflows; and so for infinities, if the slope is not zero. -/
theorem C126_clipped_linear (ok : IsFloatLib L count) {x : Fl} {slope offset lo hi : ℝ} (hx : (∃ r, x = .fin r) ∨ slope ≠ 0 ∧ x ≠ .nan)
    (h : lo ≤ hi) (hlo : IsFinite L (.fin lo)) (hhi : IsFinite L (.fin hi)) :
    Between L lo hi (L.clippedLinear x (.fin slope) (.fin offset) (.fin lo) (.fin hi)) := by
  obtain ⟨_, e, h1, h2⟩ := hlo
  cases e
  obtain ⟨_, e, h3, h4⟩ := hhi
  cases e
  refine clip_between (add_ne_nan (mul_ne_nan ?_ ?_)) (fun r hr => add_rep ok hr) h h1 h3 h2 h4
  · rcases hx with ⟨r, rfl⟩ | ⟨-, hx⟩
    · exact fun h => by cases h
    · exact hx
  · rcases hx with hx | ⟨hs, -⟩
    · exact Or.inr hx
    · exact Or.inl hs

/-- C126 (the derivative of `clipped_linear`): finite gradients stay finite, if the slope is between -1 and 1. -/
theorem C126_backprop_clipped_linear (ok : IsFloatLib L count) {dy x low high slope : Fl} (hdy : IsFinite L dy) (hs : Between L (-1) 1 slope) :
    IsFinite L (L.backpropClippedLinear dy x slope low high) := by
  unfold FloatLib.backpropClippedLinear
  refine mul_small ok hdy ?_
  split
  · exact hs
  · exact ⟨0, rfl, ok.zero, by simp; linarith [ok.bigBound], by norm_num, by norm_num⟩

theorem small (ok : IsFloatLib L count) {x : ℝ} (h0 : 0 ≤ x) (h : x ≤ 1) : L.round x = .fin (L.rnd x) ∧ 0 ≤ L.rnd x ∧ L.rnd x ≤ 1 :=
  ⟨round_fin ok (by rw [abs_of_nonneg h0]; linarith [ok.bigBound]), ok.nonneg h0, ok.le_of_le ok.one h⟩

theorem hardSigmoid_between (ok : IsFloatLib L count) {x : Fl} (hx : IsFinite L x) : Between L 0 1 (L.hardSigmoid x) := by
  obtain ⟨r, rfl, -⟩ := hx
  unfold FloatLib.hardSigmoid
  rw [(small ok (x := 0.2) (by norm_num) (by norm_num)).1, (small ok (x := 0.5) (by norm_num) (by norm_num)).1]
  exact C126_clipped_linear ok (Or.inl ⟨r, rfl⟩) (by norm_num) ⟨0, rfl, ok.zero, by simp; linarith [ok.bigBound]⟩
    ⟨1, rfl, ok.one, by simp; linarith [ok.bigBound]⟩

/-- Six and three. -/
theorem natF (ok : IsFloatLib L count) (k : ℕ) (hk : k ≤ 1000) : L.rnd (k : ℝ) = k ∧ L.round (k : ℝ) = .fin k ∧ IsFinite L (.fin (k : ℝ)) := by
  have h1 := ok.nat k (hk.trans ok.thousand)
  have h2 : |(k : ℝ)| ≤ L.big := by
    rw [abs_of_nonneg (Nat.cast_nonneg k)]
    have : (k : ℝ) ≤ 1000 := by exact_mod_cast hk
    linarith [ok.bigBound]
  exact ⟨h1, by rw [round_fin ok h2, h1], _, rfl, h1, h2⟩

/-- C126 (`swish`, `hard_swish`, `hard_swish_mobilenet`): finite for all finite numbers. -/
theorem C126_swish (ok : IsFloatLib L count) {x : Fl} (hx : IsFinite L x) :
    IsFinite L (L.swish x) ∧ IsFinite L (L.hardSwish x) ∧ IsFinite L (L.hardSwishMobilenet x) := by
  have hz : IsFinite L (.fin 0) := ⟨0, rfl, ok.zero, by simp; linarith [ok.bigBound]⟩
  refine ⟨?_, mul_small ok hx ((hardSigmoid_between ok hx).weaken (by norm_num) (le_refl _)), ?_⟩
  · refine mul_small ok hx (((C126_sigmoid ok).1 x ?_ ?_).weaken (by norm_num) (le_refl _))
    · obtain ⟨r, rfl, -⟩ := hx
      exact fun h => by cases h
    · obtain ⟨r, rfl, h, -⟩ := hx
      intro r' e
      cases e
      exact h
  · refine mul_small ok hx ?_
    obtain ⟨r, rfl, -⟩ := hx
    obtain ⟨-, e6, h6⟩ := natF ok 6 (by norm_num)
    obtain ⟨-, e3, -⟩ := natF ok 3 (by norm_num)
    have e6' : L.round 6 = .fin 6 := by exact_mod_cast e6
    have e3' : L.round 3 = .fin 3 := by exact_mod_cast e3
    have h6' : IsFinite L (.fin 6) := by exact_mod_cast h6
    rw [e3', e6']
    obtain ⟨z, hz, -, -, h1, h2⟩ := C126_clipped_linear ok (x := L.add (.fin r) (.fin 3)) (slope := 1) (offset := 0) (lo := 0) (hi := 6)
      (Or.inr ⟨one_ne_zero, add_ne_nan (fun h => by cases h)⟩) (by norm_num) hz h6'
    unfold FloatLib.reluK
    rw [hz]
    have e : L.div (.fin z) (.fin 6) = L.round (z / 6) := if_neg (by norm_num)
    rw [e]
    have h3 : 0 ≤ z / 6 := by positivity
    have h4 : z / 6 ≤ 1 := by linarith
    refine (round_between ok ?_ ok.zero ok.one h3 h4).weaken (by norm_num) (le_refl _)
    rw [abs_of_nonneg h3]
    linarith [ok.bigBound]

theorem fmul_comm (a b : Fl) : L.mul a b = L.mul b a := by
  cases a with
  | nan => cases b <;> rfl
  | inf s =>
    cases b with
    | nan => rfl
    | inf t => exact congrArg Fl.inf (Bool.xor_comm s t)
    | fin y => rfl
  | fin x =>
    cases b with
    | nan => rfl
    | inf t => rfl
    | fin y => exact congrArg L.round (mul_comm x y)

/-- `tanh` of a number that is not NaN is between -1 and 1. -/
theorem tanh_between (ok : IsFloatLib L count) {a : Fl} (ha : a ≠ .nan) : Between L (-1) 1 (L.tanh a) := by
  have hb := ok.bigBound
  cases a with
  | nan => exact absurd rfl ha
  | inf s =>
    cases s
    · exact ⟨1, rfl, ok.one, by norm_num; linarith, by norm_num, le_refl _⟩
    · exact ⟨-1, rfl, ok.neg ok.one, by norm_num; linarith, le_refl _, by norm_num⟩
  | fin x =>
    have h := ok.tanh x
    have h' := abs_le.1 h
    exact round_between ok (by linarith) (ok.neg ok.one) ok.one h'.1 h'.2

/-- C126 (`gelu_approx`): finite for all finite numbers, even if the cube overflows. -/
theorem C126_gelu_approx (ok : IsFloatLib L count) {x : Fl} (hx : IsFinite L x) : IsFinite L (L.geluApprox x) := by
  have hb := ok.bigBound
  refine mul_small ok hx ?_
  obtain ⟨r, rfl, -⟩ := hx
  have hpi : 1 / 1000 ≤ Real.sqrt (2 / Real.pi) ∧ Real.sqrt (2 / Real.pi) ≤ 1 := by
    have h3 := Real.pi_gt_three
    have h4 := Real.pi_lt_four
    constructor
    · refine Real.le_sqrt_of_sq_le ?_
      rw [le_div_iff₀ (by linarith)]
      norm_num
      linarith
    · exact (Real.sqrt_le_sqrt ((div_le_one (by linarith)).2 (by linarith))).trans_eq Real.sqrt_one
  have h1 := small ok (x := Real.sqrt (2 / Real.pi)) (by linarith) hpi.2
  have h1' := ok.pos hpi.1
  have h2 := small ok (x := 0.044715) (by norm_num) (by norm_num)
  have h2' : 0 < L.rnd 0.044715 := ok.pos (by norm_num)
  have e5 : L.round 0.5 = .fin (1 / 2) := by
    rw [show (0.5 : ℝ) = 1 / 2 by norm_num, round_fin ok (by norm_num; linarith), ok.half]
  rw [h1.1, h2.1, e5]
  have hin : L.add (.fin r) (L.mul (.fin (L.rnd 0.044715)) (L.cube (.fin r))) ≠ .nan := by
    have hc : L.mul (.fin (L.rnd 0.044715)) (L.cube (.fin r)) ≠ .nan := by
      rw [fmul_comm]
      exact mul_ne_nan (round_ne_nan L _) (Or.inl h2'.ne')
    revert hc
    cases L.mul (.fin (L.rnd 0.044715)) (L.cube (.fin r)) with
    | nan => exact fun h => absurd rfl h
    | inf s => exact fun _ h => by cases h
    | fin y => exact fun _ => round_ne_nan L _
  have harg : L.mul (.fin (L.rnd (Real.sqrt (2 / Real.pi)))) (L.add (.fin r) (L.mul (.fin (L.rnd 0.044715)) (L.cube (.fin r)))) ≠ .nan := by
    rw [fmul_comm]
    exact mul_ne_nan hin (Or.inl h1'.ne')
  obtain ⟨t, ht, -, -, t1, t2⟩ := tanh_between ok harg
  rw [ht]
  have two : L.rnd 2 = 2 := by exact_mod_cast (natF ok 2 (by norm_num)).1
  have e6 : L.add (.fin 1) (.fin t) = .fin (L.rnd (1 + t)) := round_fin ok (by rw [abs_of_nonneg (by linarith)]; linarith)
  rw [e6]
  have e7 : 0 ≤ L.rnd (1 + t) := ok.nonneg (by linarith)
  have e8 : L.rnd (1 + t) ≤ 2 := ok.le_of_le two (by linarith)
  refine (round_between ok ?_ ok.zero ok.one ?_ ?_).weaken (by norm_num) (le_refl _)
  · rw [abs_of_nonneg (by linarith)]
    linarith
  · linarith
  · linarith

/-- C126 (`mish`): finite for all finite numbers, with any threshold, even if `exp` overflows. -/
theorem C126_mish (ok : IsFloatLib L count) {x : Fl} (hx : IsFinite L x) (threshold : Fl) : IsFinite L (L.mish x threshold) := by
  unfold FloatLib.mish
  split
  · exact hx
  · refine mul_small ok hx (tanh_between ok ?_)
    obtain ⟨r, rfl, -⟩ := hx
    have h1 : NonNeg L (L.exp (.fin r)) := by
      rcases round_cases L (L.expR r) with ⟨e, -⟩ | ⟨e, -⟩
      · exact Or.inr ⟨_, e, ok.nonneg (ok.expNonneg r)⟩
      · refine Or.inl (Eq.trans e ?_)
        simp [not_lt.2 (ok.expNonneg r)]
    have h2 : NonNeg L (L.add (.fin 1) (L.exp (.fin r))) := add_nonNeg ok (Or.inr ⟨1, rfl, by norm_num⟩) h1
    rcases h2 with e | ⟨z, e, hz⟩ <;> rw [e]
    · exact fun h => by cases h
    · show (if z < 0 then Fl.nan else if z = 0 then Fl.inf true else L.round (L.logR z)) ≠ _
      rw [if_neg (not_lt.2 hz)]
      split
      · exact fun h => by cases h
      · exact round_ne_nan L _

/-- The norm of finite numbers is not NaN and not negative. -/
theorem norm_nonNeg (ok : IsFloatLib L count) {g : List Fl} (hg : ∀ x ∈ g, IsFinite L x) : NonNeg L (L.norm g) := by
  have h : NonNeg L (L.sum (g.map fun x => L.mul x x)) := by
    refine sums_nonNeg ok (ok.sum _) fun y hy => ?_
    obtain ⟨x, hx, rfl⟩ := List.mem_map.1 hy
    obtain ⟨r, rfl, -⟩ := hg x hx
    rcases round_cases L (r * r) with ⟨e, -⟩ | ⟨e, -⟩
    · exact Or.inr ⟨_, e, ok.nonneg (mul_self_nonneg r)⟩
    · refine Or.inl (Eq.trans e ?_)
      simp [not_lt.2 (mul_self_nonneg r)]
  unfold FloatLib.norm
  rcases h with e | ⟨z, e, hz⟩ <;> rw [e]
  · exact Or.inl rfl
  · have e' : L.sqrt (.fin z) = L.round (Real.sqrt z) := if_neg (not_lt.2 hz)
    rw [e']
    rcases round_cases L (Real.sqrt z) with ⟨e, -⟩ | ⟨e, -⟩
    · exact Or.inr ⟨_, e, ok.nonneg (Real.sqrt_nonneg z)⟩
    · refine Or.inl (e.trans ?_)
      simp [not_lt.2 (Real.sqrt_nonneg z)]

/-- C126 (`clip_gradient`).  For all finite gradients, of any length and even if the squares or their sum overflow or vanish, and all positive thresholds, the
clipped gradient is finite; no entry becomes larger in absolute value, and none changes its sign.  In particular there is no division by zero. -/
theorem C126_clip_gradient (ok : IsFloatLib L count) {g : List Fl} (hg : ∀ x ∈ g, IsFinite L x) {t : ℝ} (ht : 0 < t) :
    (L.clipGradient g (.fin t)).length = g.length ∧
    ∀ (i : ℕ) x, g[i]? = some (.fin x) → ∃ y, (L.clipGradient g (.fin t))[i]? = some (.fin y) ∧ L.rnd y = y ∧ |y| ≤ |x| ∧ 0 ≤ x * y := by
  unfold FloatLib.clipGradient
  split
  · rename_i hle
    refine ⟨by simp, fun i x hx => ?_⟩
    obtain ⟨_, e, h1, h2⟩ := hg _ (List.mem_of_getElem? hx)
    cases e
    obtain ⟨f, hf, f0, f1⟩ : ∃ f, L.div (.fin t) (L.norm g) = .fin f ∧ 0 ≤ f ∧ f ≤ 1 := by
      rcases norm_nonNeg ok hg with e | ⟨z, e, hz⟩
      · rw [e]
        exact ⟨0, rfl, le_refl _, by norm_num⟩
      · rw [e] at hle ⊢
        have hle' : t ≤ z := hle
        have e' : L.div (.fin t) (.fin z) = L.round (t / z) := if_neg (by linarith)
        rw [e']
        have q0 : 0 ≤ t / z := div_nonneg ht.le hz
        have q1 : t / z ≤ 1 := (div_le_one (by linarith)).2 hle'
        obtain ⟨a, b, c⟩ := small ok q0 q1
        exact ⟨_, a, b, c⟩
    have hxf : |x * f| ≤ |x| := by
      rw [abs_mul, abs_of_nonneg f0]
      exact mul_le_of_le_one_right (abs_nonneg x) f1
    have ha : L.rnd |x| = |x| := by
      rcases abs_choice x with h | h <;> rw [h]
      · exact h1
      · exact ok.neg h1
    refine ⟨L.rnd (x * f), ?_, ok.idem _, ok.abs_le ha hxf, ?_⟩
    · rw [List.getElem?_map, hx, hf]
      exact congrArg some (round_fin ok (hxf.trans h2))
    · rcases le_total 0 x with h | h
      · exact mul_nonneg h (ok.nonneg (mul_nonneg h f0))
      · exact mul_nonneg_of_nonpos_of_nonpos h (ok.nonpos (mul_nonpos_of_nonpos_of_nonneg h f0))
  · refine ⟨rfl, fun i x hx => ?_⟩
    obtain ⟨_, e, h1, -⟩ := hg _ (List.mem_of_getElem? hx)
    cases e
    exact ⟨x, hx, h1, le_refl _, mul_self_nonneg x⟩

end Thinc
