import Verif.Spec.FloatAdam
import Verif.Lemmas.Float
import Verif.Props.FloatWrong
/-!
# C129: Adam in floating-point arithmetic

Whether the numbers stay finite for ever can be seen from one step at the bounds.
-/
namespace Thinc
open Spec
variable {L : FloatLib} {N : ℕ}

private theorem rnd_abs (ok : IsFloatLib L N) {x y : ℝ} (h : |x| ≤ y) : |L.rnd x| ≤ L.rnd y := by
  rw [abs_le] at h ⊢
  refine ⟨?_, ok.mono h.2⟩
  have := ok.mono h.1
  rwa [ok.odd] at this

private theorem round_rnd {x : ℝ} (h : |L.rnd x| ≤ L.big) : L.round x = .fin (L.rnd x) := if_pos h

private theorem mul_unit (ok : IsFloatLib L N) {x b B : ℝ} (hx : |x| ≤ B) (hB : B ≤ L.big) (hb : 0 ≤ b) (hb1 : b ≤ 1) :
    L.mul (.fin x) (.fin b) = .fin (L.rnd (x * b)) ∧ |L.rnd (x * b)| ≤ L.rnd (B * b) := by
  have h : |x * b| ≤ B * b := by rw [abs_mul, abs_of_nonneg hb]; exact mul_le_mul_of_nonneg_right hx hb
  have hB0 : 0 ≤ B := (abs_nonneg x).trans hx
  refine ⟨round_fin ok (h.trans ((mul_le_of_le_one_right hB0 hb1).trans hB)), rnd_abs ok h⟩

private theorem mom1_step (ok : IsFloatLib L N) {c : AdamConsts} (hc : AdamConstsOk L c) {G M : ℝ} (h : Mom1Bound L c G M) {m g : Fl}
    (hm : AtMost L M m) (hg : AtMost L G g) : AtMost L M (L.adamMom1 c m g) := by
  obtain ⟨x, rfl, -, -, hx⟩ := hm
  obtain ⟨y, rfl, -, -, hy⟩ := hg
  obtain ⟨e1, b1⟩ := mul_unit ok hx h.moment.2 hc.beta1.1 hc.beta1.2
  obtain ⟨e2, b2⟩ := mul_unit ok hy h.grad.2 hc.coBeta1.1 hc.coBeta1.2
  have hs : |L.rnd (L.rnd (x * c.beta1) + L.rnd (y * c.coBeta1))| ≤ M :=
    (rnd_abs ok ((abs_add_le _ _).trans (add_le_add b1 b2))).trans h.step
  refine ⟨_, ?_, ok.idem _, hs.trans h.moment.2, hs⟩
  rw [FloatLib.adamMom1, e1, e2]
  exact round_rnd (hs.trans h.moment.2)

private theorem mom2_step (ok : IsFloatLib L N) {c : AdamConsts} (hc : AdamConstsOk L c) {G V : ℝ} (h : Mom2Bound L c G V) {v g : Fl}
    (hv : Between L 0 V v) (hg : AtMost L G g) : Between L 0 V (L.adamMom2 c v g) := by
  obtain ⟨x, rfl, -, -, hx0, hx⟩ := hv
  obtain ⟨y, rfl, -, -, hy⟩ := hg
  have hxa : |x| ≤ V := by rwa [abs_of_nonneg hx0]
  obtain ⟨e1, b1⟩ := mul_unit ok hxa h.moment.2 hc.beta2.1 hc.beta2.2
  have hyy : |y * y| ≤ G * G := by
    rw [abs_mul]
    exact mul_le_mul hy hy (abs_nonneg _) ((abs_nonneg _).trans hy)
  have hsq := rnd_abs ok hyy
  have e2 : L.mul (.fin y) (.fin y) = .fin (L.rnd (y * y)) := round_rnd (hsq.trans h.square)
  obtain ⟨e3, b3⟩ := mul_unit ok hsq h.square hc.coBeta2.1 hc.coBeta2.2
  have hs : |L.rnd (L.rnd (x * c.beta2) + L.rnd (L.rnd (y * y) * c.coBeta2))| ≤ V :=
    (rnd_abs ok ((abs_add_le _ _).trans (add_le_add b1 b3))).trans h.step
  have h0 : 0 ≤ L.rnd (L.rnd (x * c.beta2) + L.rnd (L.rnd (y * y) * c.coBeta2)) :=
    ok.nonneg (add_nonneg (ok.nonneg (mul_nonneg hx0 hc.beta2.1)) (ok.nonneg (mul_nonneg (ok.nonneg (mul_self_nonneg y)) hc.coBeta2.1)))
  refine ⟨_, ?_, ok.idem _, hs.trans h.moment.2, h0, (le_abs_self _).trans hs⟩
  rw [FloatLib.adamMom2, e1, e2, e3]
  exact round_rnd (hs.trans h.moment.2)

private theorem root_fin (ok : IsFloatLib L N) {x : ℝ} (h0 : 0 ≤ x) (h : x ≤ L.big) :
    ∃ y, L.mul (.fin 1) (L.sqrt (.fin x)) = .fin y ∧ 0 ≤ y := by
  have hs : Real.sqrt x ≤ L.big := by
    rcases le_total x 1 with c | c
    · exact (Real.sqrt_le_one.mpr c).trans (by linarith [ok.bigBound])
    · refine le_trans ?_ h
      rw [Real.sqrt_le_left h0]
      nlinarith
  have ha : |Real.sqrt x| ≤ L.big := by rwa [abs_of_nonneg (Real.sqrt_nonneg x)]
  have e1 : L.sqrt (.fin x) = .fin (L.rnd (Real.sqrt x)) := by
    show (if x < 0 then _ else _) = _
    rw [if_neg (not_lt.2 h0)]
    exact round_fin ok ha
  have hb := ok.abs_le ok.rndBig ha
  refine ⟨L.rnd (1 * L.rnd (Real.sqrt x)), ?_, ?_⟩
  · rw [e1]
    exact round_fin ok (by rwa [one_mul])
  · rw [one_mul, ok.idem]
    exact ok.nonneg (Real.sqrt_nonneg x)

private theorem change_step (ok : IsFloatLib L N) {c : AdamConsts} (hc : AdamConstsOk L c) {M V S : ℝ} (h : ChangeBound L c M S) (hM : M ≤ L.big)
    (hV : V ≤ L.big) {m v : Fl} (hm : AtMost L M m) (hv : Between L 0 V v) : AtMost L S (L.adamChange c m v) := by
  obtain ⟨x, rfl, -, -, hx⟩ := hm
  obtain ⟨y, rfl, -, -, hy0, hy⟩ := hv
  have hM0 : 0 ≤ M := (abs_nonneg x).trans hx
  obtain ⟨r, er, hr⟩ := root_fin ok hy0 (hy.trans hV)
  have hq : ∃ q, L.div (.fin x) (L.add (L.mul (.fin 1) (L.sqrt (.fin y))) (.fin c.eps)) = .fin q ∧ |q| ≤ L.rnd (M / c.eps) := by
    rw [er]
    show ∃ q, L.div (.fin x) (L.round (r + c.eps)) = _ ∧ _
    rcases round_cases L (r + c.eps) with ⟨e, -⟩ | ⟨e, -⟩
    · rw [e]
      have hd : c.eps ≤ L.rnd (r + c.eps) := ok.ge_of_ge hc.eps.2 (by linarith)
      have hd0 : 0 < L.rnd (r + c.eps) := lt_of_lt_of_le hc.eps.1 hd
      have hab : |x / L.rnd (r + c.eps)| ≤ M / c.eps := by
        rw [abs_div, abs_of_pos hd0]
        exact div_le_div₀ hM0 hx hc.eps.1 hd
      refine ⟨L.rnd (x / L.rnd (r + c.eps)), ?_, rnd_abs ok hab⟩
      show (if _ = 0 then _ else _) = _
      rw [if_neg hd0.ne']
      exact round_rnd ((rnd_abs ok hab).trans h.quotient)
    · rw [e]
      exact ⟨0, rfl, by rw [abs_zero]; exact ok.nonneg (div_nonneg hM0 hc.eps.1.le)⟩
  obtain ⟨q, eq, hq⟩ := hq
  have hab : |c.rate * q| ≤ c.rate * L.rnd (M / c.eps) := by
    rw [abs_mul, abs_of_nonneg hc.rate]
    exact mul_le_mul_of_nonneg_left hq hc.rate
  have hs := (rnd_abs ok hab).trans h.change
  refine ⟨L.rnd (c.rate * q), ?_, ok.idem _, hs.trans h.finite, hs⟩
  rw [FloatLib.adamChange, eq]
  exact round_rnd (hs.trans h.finite)

/-- **C129.**  If one step at the bounds does not leave them, then Adam never leaves them, for any number of updates with any gradients of
at most `G`: the moments stay finite, the second one not negative, and the weight never becomes NaN.  The weight is finite as long as the
changes, added up as floating-point numbers, are. -/
theorem C129_adam (ok : IsFloatLib L N) {c : AdamConsts} (hc : AdamConstsOk L c) {G M V S : ℝ} (h1 : Mom1Bound L c G M) (h2 : Mom2Bound L c G V)
    (h3 : ChangeBound L c M S) (s : AdamEntry) (hw : IsFinite L s.weight) (hm : AtMost L M s.mom1) (hv : Between L 0 V s.mom2)
    (gs : List Fl) (hg : ∀ g ∈ gs, AtMost L G g) :
    AtMost L M (L.adamRun c s gs).mom1 ∧ Between L 0 V (L.adamRun c s gs).mom2 ∧ (L.adamRun c s gs).weight ≠ .nan ∧
    ∀ W : ℕ → ℝ, AtMost L (W 0) s.weight → (∀ n, W (n + 1) = L.rnd (W n + S)) → (∀ n ≤ gs.length, W n ≤ L.big) →
      AtMost L (W gs.length) (L.adamRun c s gs).weight := by
  induction gs using List.reverseRecOn with
  | nil =>
    refine ⟨hm, hv, ?_, fun W h0 _ _ => h0⟩
    obtain ⟨x, hx, -⟩ := hw
    show s.weight ≠ .nan
    rw [hx]
    exact fun h => by cases h
  | append_singleton gs g ih =>
    obtain ⟨i1, i2, i3, i4⟩ := ih fun g hg' => hg g (by simp [hg'])
    have hr : L.adamRun c s (gs ++ [g]) = L.adamEntry c (L.adamRun c s gs) g := by simp [FloatLib.adamRun]
    rw [hr]
    have hgG := hg g (by simp)
    have j1 := mom1_step ok hc h1 i1 hgG
    have j2 := mom2_step ok hc h2 i2 hgG
    have j3 := change_step ok hc h3 h1.moment.2 h2.moment.2 j1 j2
    refine ⟨j1, j2, ?_, fun W w0 ws wb => ?_⟩
    · obtain ⟨d, ed, -⟩ := j3
      show L.add (L.adamRun c s gs).weight (FloatLib.neg (L.adamChange c _ _)) ≠ .nan
      rw [ed]
      cases hweight : (L.adamRun c s gs).weight with
      | fin x => exact round_ne_nan L _
      | inf b => exact fun h => by cases h
      | nan => exact absurd hweight i3
    · obtain ⟨x, ex, -, -, hx⟩ := i4 W w0 ws fun n hn => wb n (by simp; omega)
      obtain ⟨d, ed, -, -, hd⟩ := j3
      have hlen : (gs ++ [g]).length = gs.length + 1 := by simp
      have hab : |x + -d| ≤ W gs.length + S := (abs_add_le _ _).trans (add_le_add hx (by rwa [abs_neg]))
      have hb := rnd_abs ok hab
      rw [← ws] at hb
      have hbig : W (gs.length + 1) ≤ L.big := wb _ (by simp)
      refine ⟨L.rnd (x + -d), ?_, ok.idem _, hb.trans hbig, hlen ▸ hb⟩
      show L.add (L.adamRun c s gs).weight (FloatLib.neg (L.adamChange c _ _)) = _
      rw [ed, ex]
      exact round_rnd (hb.trans hbig)

/-- All constants one half. -/
private noncomputable def halves : AdamConsts := ⟨1 / 2, 1 / 2, 1 / 2, 1 / 2, 1 / 2, 1 / 2⟩

private theorem halves_ok : AdamConstsOk exactLib halves := by
  constructor <;> norm_num [halves, exactLib, exactBase]

private theorem halves_mom1 (G : ℝ) (h0 : 0 ≤ G) (h : G ≤ 2 ^ 128) : Mom1Bound exactLib halves G G := by
  refine ⟨⟨h0, h⟩, ⟨h0, h⟩, ?_⟩
  show G * (1 / 2) + G * (1 / 2) ≤ G
  linarith

-- Rounding to the nearest real, gradients of at most one: the moments stay at most one and the weight moves by at most one a step.
example (gs : List Fl) (hg : ∀ g ∈ gs, AtMost exactLib 1 g) := C129_adam exactLib_ok halves_ok (halves_mom1 1 (by norm_num) (by norm_num))
  (V := 1) (S := 1) (by constructor <;> norm_num [halves, exactLib, exactBase]) (by constructor <;> norm_num [halves, exactLib, exactBase])
  ⟨.fin 5, .fin 0, .fin 0⟩ ⟨5, rfl, rfl, by norm_num [exactLib, exactBase]⟩ ⟨0, rfl, rfl, by norm_num [exactLib, exactBase], by norm_num⟩
  ⟨0, rfl, rfl, by norm_num [exactLib, exactBase], by norm_num, by norm_num⟩ gs hg

/-! ### RAdam -/

private theorem mul_swap (a b : Fl) : L.mul a b = L.mul b a := by
  cases a with
  | fin x => cases b with
    | fin y => show L.round (x * y) = L.round (y * x); rw [mul_comm]
    | inf t => show (if x = 0 then Fl.nan else .inf (xor t (decide (x < 0)))) = _; rfl
    | nan => rfl
  | inf s => cases b with
    | fin y => rfl
    | inf t => show Fl.inf (xor s t) = .inf (xor t s); rw [Bool.xor_comm]
    | nan => rfl
  | nan => cases b <;> rfl

private theorem sqrt_fin (ok : IsFloatLib L N) {x : ℝ} (h0 : 0 ≤ x) (h : x ≤ L.big) : ∃ y, L.sqrt (.fin x) = .fin y ∧ 0 ≤ y := by
  have hs : Real.sqrt x ≤ L.big := by
    rcases le_total x 1 with c | c
    · exact (Real.sqrt_le_one.mpr c).trans (by linarith [ok.bigBound])
    · refine le_trans ?_ h
      rw [Real.sqrt_le_left h0]
      nlinarith
  refine ⟨L.rnd (Real.sqrt x), ?_, ok.nonneg (Real.sqrt_nonneg x)⟩
  show (if x < 0 then _ else _) = _
  rw [if_neg (not_lt.2 h0)]
  exact round_fin ok (by rwa [abs_of_nonneg (Real.sqrt_nonneg x)])

private theorem radam_change (ok : IsFloatLib L N) {c : AdamConsts} (hc : AdamConstsOk L c) {M V R S r : ℝ} (h : RadamBound L c M R S) (hM : M ≤ L.big)
    (hV : V ≤ L.big) (hr : |r| ≤ R) {m v : Fl} (hm : AtMost L M m) (hv : Between L 0 V v) (rectified : Bool) :
    AtMost L S (L.mul (.fin (-r)) (if rectified then L.div m (L.add (L.sqrt v) (.fin c.eps)) else m)) := by
  obtain ⟨x, rfl, -, -, hx⟩ := hm
  obtain ⟨y, rfl, -, -, hy0, hy⟩ := hv
  have hM0 : 0 ≤ M := (abs_nonneg x).trans hx
  have hR0 : 0 ≤ R := (abs_nonneg r).trans hr
  cases rectified
  · have hab : |-r * x| ≤ R * M := by
      rw [abs_mul, abs_neg]
      exact mul_le_mul hr hx (abs_nonneg _) hR0
    have hs := (rnd_abs ok hab).trans h.plain
    exact ⟨_, round_rnd (hs.trans h.finite), ok.idem _, hs.trans h.finite, hs⟩
  · obtain ⟨z, ez, hz⟩ := sqrt_fin ok hy0 (hy.trans hV)
    have hq : ∃ q, L.div (.fin x) (L.add (L.sqrt (.fin y)) (.fin c.eps)) = .fin q ∧ |q| ≤ L.rnd (M / c.eps) := by
      rw [ez]
      show ∃ q, L.div (.fin x) (L.round (z + c.eps)) = _ ∧ _
      rcases round_cases L (z + c.eps) with ⟨e, -⟩ | ⟨e, -⟩
      · rw [e]
        have hd : c.eps ≤ L.rnd (z + c.eps) := ok.ge_of_ge hc.eps.2 (by linarith)
        have hd0 : 0 < L.rnd (z + c.eps) := lt_of_lt_of_le hc.eps.1 hd
        have hab : |x / L.rnd (z + c.eps)| ≤ M / c.eps := by
          rw [abs_div, abs_of_pos hd0]
          exact div_le_div₀ hM0 hx hc.eps.1 hd
        refine ⟨L.rnd (x / L.rnd (z + c.eps)), ?_, rnd_abs ok hab⟩
        show (if _ = 0 then _ else _) = _
        rw [if_neg hd0.ne']
        exact round_rnd ((rnd_abs ok hab).trans h.quotient)
      · rw [e]
        exact ⟨0, rfl, by rw [abs_zero]; exact ok.nonneg (div_nonneg hM0 hc.eps.1.le)⟩
    obtain ⟨q, eq, hq⟩ := hq
    have hab : |-r * q| ≤ R * L.rnd (M / c.eps) := by
      rw [abs_mul, abs_neg]
      exact mul_le_mul hr hq (abs_nonneg _) hR0
    have hs := (rnd_abs ok hab).trans h.change
    refine ⟨_, ?_, ok.idem _, hs.trans h.finite, hs⟩
    rw [if_pos rfl, eq]
    exact round_rnd (hs.trans h.finite)

/-- **C129 for RAdam.**  If one step at the bounds does not leave them, then RAdam never leaves them, for any number of updates, rectified or not,
with any gradients of at most `G` and any rates of at most `R`. -/
theorem C129_radam (ok : IsFloatLib L N) {c : AdamConsts} (hc : AdamConstsOk L c) {G M V R S : ℝ} (h1 : Mom1Bound L c G M) (h2 : Mom2Bound L c G V)
    (h3 : RadamBound L c M R S) (s : AdamEntry) (hw : IsFinite L s.weight) (hm : AtMost L M s.mom1) (hv : Between L 0 V s.mom2)
    (us : List (Bool × ℝ × Fl)) (hu : ∀ u ∈ us, |u.2.1| ≤ R ∧ AtMost L G u.2.2) :
    AtMost L M (L.radamRun c s us).mom1 ∧ Between L 0 V (L.radamRun c s us).mom2 ∧ (L.radamRun c s us).weight ≠ .nan ∧
    ∀ W : ℕ → ℝ, AtMost L (W 0) s.weight → (∀ n, W (n + 1) = L.rnd (W n + S)) → (∀ n ≤ us.length, W n ≤ L.big) →
      AtMost L (W us.length) (L.radamRun c s us).weight := by
  induction us using List.reverseRecOn with
  | nil =>
    refine ⟨hm, hv, ?_, fun W h0 _ _ => h0⟩
    obtain ⟨x, hx, -⟩ := hw
    show s.weight ≠ .nan
    rw [hx]
    exact fun h => by cases h
  | append_singleton us p ih =>
    obtain ⟨i1, i2, i3, i4⟩ := ih fun u hu' => hu u (by simp [hu'])
    have hr : L.radamRun c s (us ++ [p]) = L.radamEntry c (L.radamRun c s us) p := by simp [FloatLib.radamRun]
    rw [hr]
    obtain ⟨hrate, hgG⟩ := hu p (by simp)
    have j1 : AtMost L M (L.radamEntry c (L.radamRun c s us) p).mom1 := by
      have := mom1_step ok hc h1 i1 hgG
      unfold FloatLib.adamMom1 at this
      rw [mul_swap p.2.2] at this
      exact this
    have j2 : Between L 0 V (L.radamEntry c (L.radamRun c s us) p).mom2 := by
      have := mom2_step ok hc h2 i2 hgG
      unfold FloatLib.adamMom2 at this
      rw [mul_swap (L.mul p.2.2 p.2.2)] at this
      exact this
    have j3 := radam_change ok hc h3 h1.moment.2 h2.moment.2 hrate j1 j2 p.1
    have hwt : (L.radamEntry c (L.radamRun c s us) p).weight = L.add (L.radamRun c s us).weight (L.mul (.fin (-p.2.1))
        (if p.1 then L.div (L.radamEntry c (L.radamRun c s us) p).mom1 (L.add (L.sqrt (L.radamEntry c (L.radamRun c s us) p).mom2) (.fin c.eps))
          else (L.radamEntry c (L.radamRun c s us) p).mom1)) := rfl
    refine ⟨j1, j2, ?_, fun W w0 ws wb => ?_⟩
    · obtain ⟨d, ed, -⟩ := j3
      rw [hwt, ed]
      cases hweight : (L.radamRun c s us).weight with
      | fin x => exact round_ne_nan L _
      | inf b => exact fun h => by cases h
      | nan => exact absurd hweight i3
    · obtain ⟨x, ex, -, -, hx⟩ := i4 W w0 ws fun n hn => wb n (by simp; omega)
      obtain ⟨d, ed, -, -, hd⟩ := j3
      have hlen : (us ++ [p]).length = us.length + 1 := by simp
      have hb := rnd_abs ok ((abs_add_le x d).trans (add_le_add hx hd))
      rw [← ws] at hb
      have hbig : W (us.length + 1) ≤ L.big := wb _ (by simp)
      refine ⟨L.rnd (x + d), ?_, ok.idem _, hb.trans hbig, hlen ▸ hb⟩
      rw [hwt, ed, ex]
      exact round_rnd (hb.trans hbig)

-- Gradients and rates of at most one, rectified or not: the moments stay at most one.
example (us : List (Bool × ℝ × Fl)) (hu : ∀ u ∈ us, |u.2.1| ≤ 1 ∧ AtMost exactLib 1 u.2.2) :=
  C129_radam exactLib_ok halves_ok (halves_mom1 1 (by norm_num) (by norm_num))
    (V := 1) (S := 2) (by constructor <;> norm_num [halves, exactLib, exactBase]) (by constructor <;> norm_num [halves, exactLib, exactBase])
    ⟨.fin 5, .fin 0, .fin 0⟩ ⟨5, rfl, rfl, by norm_num [exactLib, exactBase]⟩ ⟨0, rfl, rfl, by norm_num [exactLib, exactBase], by norm_num⟩
    ⟨0, rfl, rfl, by norm_num [exactLib, exactBase], by norm_num, by norm_num⟩ us hu

/-! ### Where it fails -/

private theorem square_cases (L : FloatLib) (y k : ℝ) (hk : 0 < k) :
    (∃ z, L.mul (L.mul (.fin y) (.fin y)) (.fin k) = .fin z) ∨ L.mul (L.mul (.fin y) (.fin y)) (.fin k) = .inf false ∨
      L.rnd (y * y) < 0 := by
  have h0 : ¬ y * y < 0 := not_lt.2 (mul_self_nonneg y)
  show (∃ z, L.mul (L.round (y * y)) (.fin k) = .fin z) ∨ L.mul (L.round (y * y)) (.fin k) = .inf false ∨ _
  rcases round_cases L (y * y) with ⟨e, -⟩ | ⟨e, -⟩ <;> rw [e]
  · show (∃ z, L.round (L.rnd (y * y) * k) = .fin z) ∨ L.round (L.rnd (y * y) * k) = .inf false ∨ _
    rcases round_cases L (L.rnd (y * y) * k) with ⟨e, -⟩ | ⟨e, -⟩ <;> rw [e]
    · exact Or.inl ⟨_, rfl⟩
    · right
      by_cases hn : L.rnd (y * y) < 0
      · exact Or.inr hn
      · left
        rw [decide_eq_false (not_lt.2 (mul_nonneg (not_lt.1 hn) hk.le))]
  · right; left
    show (if k = 0 then Fl.nan else .inf (xor (decide (y * y < 0)) (decide (k < 0)))) = _
    rw [if_neg hk.ne', decide_eq_false h0, decide_eq_false (not_lt.2 hk.le)]
    rfl

/-- With an infinite second moment nothing changes any more. -/
private theorem frozen_step (ok : IsFloatLib L N) {c : AdamConsts} {m g : Fl} {w x : ℝ} (hw : L.rnd w = w) (hwb : |w| ≤ L.big)
    (hm : L.adamMom1 c m g = .fin x) :
    L.sub (.fin w) (L.adamChange c (L.adamMom1 c m g) (.inf false)) = .fin w := by
  have h1 : L.mul (.fin 1) (L.sqrt (.inf false)) = .inf false := by
    show (if (1 : ℝ) = 0 then Fl.nan else .inf (xor false (decide ((1 : ℝ) < 0)))) = _
    rw [if_neg one_ne_zero, decide_eq_false (by norm_num)]
    rfl
  have h2 : L.adamChange c (L.adamMom1 c m g) (.inf false) = .fin 0 := by
    rw [FloatLib.adamChange, h1, hm]
    show L.round (c.rate * 0) = _
    rw [mul_zero, round_fin ok (by rw [abs_zero]; linarith [ok.bigBound]), ok.zero]
  rw [h2]
  show L.round (w + -0) = _
  rw [neg_zero, add_zero, round_fin ok hwb, hw]

/-- **C129 fails for large gradients**: if the square of one gradient overflows, the second moment is infinite from then on and the weight
never changes again, whatever gradients follow. -/
theorem C129_frozen_wrong (ok : IsFloatLib L N) {c : AdamConsts} (hc : AdamConstsOk L c) (hb2 : 0 < c.beta2) (hc2 : 0 < c.coBeta2) {G M : ℝ}
    (h1 : Mom1Bound L c G M) (s : AdamEntry) (hw : IsFinite L s.weight) (hm : AtMost L M s.mom1)
    (hv : IsFinite L s.mom2) (g : ℝ) (hg : AtMost L G (.fin g)) (hover : L.big < L.rnd (g * g)) (gs : List Fl)
    (hgs : ∀ g ∈ gs, AtMost L G g) :
    (L.adamRun c s (.fin g :: gs)).weight = s.weight ∧ (L.adamRun c s (.fin g :: gs)).mom2 = .inf false := by
  obtain ⟨w, ew, hwr, hwb⟩ := hw
  have key : ∀ (gs : List Fl) (s : AdamEntry), s.weight = .fin w → AtMost L M s.mom1 → s.mom2 = .inf false → (∀ g ∈ gs, AtMost L G g) →
      (L.adamRun c s gs).weight = .fin w ∧ (L.adamRun c s gs).mom2 = .inf false := by
    intro gs
    induction gs with
    | nil => exact fun s h _ h2 _ => ⟨h, h2⟩
    | cons g gs ih =>
      intro s h hm h2 hg
      have hgG := hg g (by simp)
      have j1 := mom1_step ok hc h1 hm hgG
      have hmul : L.mul (.inf false) (.fin c.beta2) = .inf false := by
        show (if c.beta2 = 0 then Fl.nan else .inf (xor false (decide (c.beta2 < 0)))) = _
        rw [if_neg hb2.ne', decide_eq_false (not_lt.2 hb2.le)]
        rfl
      have j2 : L.adamMom2 c s.mom2 g = .inf false := by
        obtain ⟨y, rfl, -⟩ := hgG
        rw [FloatLib.adamMom2, h2, hmul]
        rcases square_cases L y c.coBeta2 hc2 with ⟨z, e⟩ | e | e
        · rw [e]; rfl
        · rw [e]; rfl
        · exact absurd (ok.nonneg (mul_self_nonneg y)) (not_le.2 e)
      have j3 : (L.adamEntry c s g).weight = .fin w := by
        show L.sub s.weight (L.adamChange c _ (L.adamMom2 c s.mom2 g)) = _
        obtain ⟨x, ex, -⟩ := j1
        rw [j2, h]
        exact frozen_step ok hwr hwb ex
      exact ih (L.adamEntry c s g) j3 j1 j2 fun g hg' => hg g (by simp [hg'])
  have j1 := mom1_step ok hc h1 hm hg
  obtain ⟨y, ey, -, hyb⟩ := hv
  have j2 : L.adamMom2 c s.mom2 (.fin g) = .inf false := by
    have e1 : L.mul (.fin g) (.fin g) = .inf false := by
      show L.round (g * g) = _
      rcases round_cases L (g * g) with ⟨-, h⟩ | ⟨e, -⟩
      · exact absurd ((le_abs_self _).trans h) (not_le.2 hover)
      · rw [e, decide_eq_false (not_lt.2 (mul_self_nonneg g))]
    have e2 : L.mul (.inf false) (.fin c.coBeta2) = .inf false := by
      show (if c.coBeta2 = 0 then Fl.nan else .inf (xor false (decide (c.coBeta2 < 0)))) = _
      rw [if_neg hc2.ne', decide_eq_false (not_lt.2 hc2.le)]
      rfl
    rw [FloatLib.adamMom2, e1, e2, ey, (mul_unit ok hyb le_rfl hc.beta2.1 hc.beta2.2).1]
    rfl
  have j3 : (L.adamEntry c s (.fin g)).weight = .fin w := by
    show L.sub s.weight (L.adamChange c _ (L.adamMom2 c s.mom2 (.fin g))) = _
    obtain ⟨x, ex, -⟩ := j1
    rw [j2, ew]
    exact frozen_step ok hwr hwb ex
  rw [ew]
  exact key gs (L.adamEntry c s (.fin g)) j3 j1 j2 hgs

-- A gradient of `2 ^ 100` squares to infinity; all later gradients are lost.
example (gs : List Fl) (hg : ∀ g ∈ gs, AtMost exactLib (2 ^ 128) g) := C129_frozen_wrong exactLib_ok halves_ok (by norm_num [halves])
  (by norm_num [halves]) (halves_mom1 (2 ^ 128) (by norm_num) le_rfl) ⟨.fin 5, .fin 0, .fin 0⟩ ⟨5, rfl, rfl, by norm_num [exactLib, exactBase]⟩
  ⟨0, rfl, rfl, by norm_num [exactLib, exactBase], by norm_num⟩ ⟨0, rfl, rfl, by norm_num [exactLib, exactBase]⟩
  (2 ^ 100) ⟨2 ^ 100, rfl, rfl, by norm_num [exactLib, exactBase], by norm_num⟩ (by norm_num [exactLib, exactBase]) gs hg

/-- **C129 fails for `eps = 0`**: a weight whose first gradient is zero becomes NaN. -/
theorem C129_eps_wrong (ok : IsFloatLib L N) (c : AdamConsts) (he : c.eps = 0) (w : Fl) :
    (L.adamRun c ⟨w, .fin 0, .fin 0⟩ [.fin 0]).weight = .nan := by
  have hr : ∀ k : ℝ, L.mul (.fin 0) (.fin k) = .fin 0 := by
    intro k
    show L.round (0 * k) = _
    rw [zero_mul, round_fin ok (by rw [abs_zero]; linarith [ok.bigBound]), ok.zero]
  have ha : L.add (.fin 0) (.fin 0) = .fin 0 := by
    show L.round (0 + 0) = _
    rw [add_zero, round_fin ok (by rw [abs_zero]; linarith [ok.bigBound]), ok.zero]
  have h1 : L.adamMom1 c (.fin 0) (.fin 0) = .fin 0 := by rw [FloatLib.adamMom1, hr, hr, ha]
  have h2 : L.adamMom2 c (.fin 0) (.fin 0) = .fin 0 := by rw [FloatLib.adamMom2, hr, hr, hr, ha]
  have h3 : L.sqrt (.fin 0) = .fin 0 := by
    show (if (0 : ℝ) < 0 then _ else L.round (Real.sqrt 0)) = _
    rw [if_neg (lt_irrefl _), Real.sqrt_zero, round_fin ok (by rw [abs_zero]; linarith [ok.bigBound]), ok.zero]
  have h4 : L.mul (.fin 1) (.fin 0) = .fin 0 := by
    show L.round (1 * 0) = _
    rw [mul_zero, round_fin ok (by rw [abs_zero]; linarith [ok.bigBound]), ok.zero]
  have h5 : L.div (.fin 0) (.fin 0) = .nan := by
    show (if (0 : ℝ) = 0 then (if (0 : ℝ) = 0 then Fl.nan else _) else _) = _
    rw [if_pos rfl, if_pos rfl]
  show L.add w (FloatLib.neg (L.adamChange c (L.adamMom1 c (.fin 0) (.fin 0)) (L.adamMom2 c (.fin 0) (.fin 0)))) = .nan
  rw [h1, h2, FloatLib.adamChange, h3, h4, he, ha, h5]
  cases w <;> rfl

end Thinc
