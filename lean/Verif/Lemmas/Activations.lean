import Verif.Model.Activations
import Verif.Lemmas.VJP
import Mathlib.Analysis.Calculus.Deriv.Inv
import Mathlib.Analysis.Calculus.Deriv.Pow
import Mathlib.Analysis.Calculus.MeanValue
/-! # Derivatives of the activation functions, one entry at a time -/
namespace Thinc
open Real Spec Filter Topology

/-! ### Functions that are put together from pieces -/

theorem hasDerivAt_of_left {g l : ℝ → ℝ} {a dl : ℝ} (hl : HasDerivAt l dl a)
    (h : ∀ x ≤ a, a - 1 < x → g x = l x) (hg : DifferentiableAt ℝ g a) : HasDerivAt g dl a := by
  have h1 : HasDerivWithinAt g (deriv g a) (Set.Iic a) a := hg.hasDerivAt.hasDerivWithinAt
  have h2 : HasDerivWithinAt g dl (Set.Iic a) a := by
    refine hl.hasDerivWithinAt.congr_of_eventuallyEq ?_ (h a le_rfl (by linarith))
    filter_upwards [self_mem_nhdsWithin, mem_nhdsWithin_of_mem_nhds (Ioi_mem_nhds (show a - 1 < a by linarith))]
      with x hx hx2
    exact h x hx hx2
  have : deriv g a = dl := (uniqueDiffWithinAt_Iic a).eq_deriv _ h1 h2
  rw [← this]
  exact hg.hasDerivAt

theorem hasDerivAt_of_right {g r : ℝ → ℝ} {a dr : ℝ} (hr : HasDerivAt r dr a)
    (h : ∀ x, a ≤ x → x < a + 1 → g x = r x) (hg : DifferentiableAt ℝ g a) : HasDerivAt g dr a := by
  have h1 : HasDerivWithinAt g (deriv g a) (Set.Ici a) a := hg.hasDerivAt.hasDerivWithinAt
  have h2 : HasDerivWithinAt g dr (Set.Ici a) a := by
    refine hr.hasDerivWithinAt.congr_of_eventuallyEq ?_ (h a le_rfl (by linarith))
    filter_upwards [self_mem_nhdsWithin, mem_nhdsWithin_of_mem_nhds (Iio_mem_nhds (show a < a + 1 by linarith))]
      with x hx hx2
    exact h x hx hx2
  have : deriv g a = dr := (uniqueDiffWithinAt_Ici a).eq_deriv _ h1 h2
  rw [← this]
  exact hg.hasDerivAt

theorem hasDerivAt_of_lt {g l : ℝ → ℝ} {a d x : ℝ} (hx : x < a) (hl : HasDerivAt l d x)
    (h : ∀ y < a, g y = l y) : HasDerivAt g d x :=
  hl.congr_of_eventuallyEq (by filter_upwards [Iio_mem_nhds hx] with y hy using h y hy)

theorem hasDerivAt_of_gt {g l : ℝ → ℝ} {a d x : ℝ} (hx : a < x) (hl : HasDerivAt l d x)
    (h : ∀ y, a < y → g y = l y) : HasDerivAt g d x :=
  hl.congr_of_eventuallyEq (by filter_upwards [Ioi_mem_nhds hx] with y hy using h y hy)

theorem hasDerivAt_of_between {g l : ℝ → ℝ} {a b d x : ℝ} (hx : a < x) (hx2 : x < b) (hl : HasDerivAt l d x)
    (h : ∀ y, a < y → y < b → g y = l y) : HasDerivAt g d x :=
  hl.congr_of_eventuallyEq (by
    filter_upwards [Ioi_mem_nhds hx, Iio_mem_nhds hx2] with y hy hy2 using h y hy hy2)

/-- The derivative of one entry of an entrywise function. -/
theorem entry_of_IsVJP {ι : Type} [Fintype ι] [DecidableEq ι] {g : ℝ → ℝ} {X : ι → ℝ} {back : (ι → ℝ) → ι → ℝ}
    (h : IsVJP (fun (X : ι → ℝ) i => g (X i)) X back) (i : ι) :
    HasDerivAt g (back (fun j => if j = i then 1 else 0) i) (X i) := by
  have hd : DifferentiableAt ℝ (fun (X : ι → ℝ) i => g (X i)) X := by
    obtain ⟨f', hf, _⟩ := h
    exact hf.differentiableAt
  have h2 := IsVJP_elementwise (g := g) (d := deriv g) (X := X)
    (fun j => (differentiable_entry hd j).hasDerivAt)
  have := congrFun (congrFun (IsVJP_unique h h2) (fun j => if j = i then 1 else 0)) i
  rw [this]
  simp only [if_pos, one_mul]
  exact (differentiable_entry hd i).hasDerivAt

/-! ### Clipping -/

theorem npClip_low {x lo hi : ℝ} (h : x ≤ lo) : npClip x lo hi = min lo hi := by
  unfold npClip
  rw [max_eq_right h]

theorem npClip_high {x lo hi : ℝ} (h : hi ≤ x) : npClip x lo hi = hi := by
  unfold npClip
  rw [min_eq_right (le_max_of_le_left h)]

theorem npClip_mid {x lo hi : ℝ} (h : lo ≤ x) (h2 : x ≤ hi) : npClip x lo hi = x := by
  unfold npClip
  rw [max_eq_left h, min_eq_left h2]

theorem npClip_mem {x lo hi : ℝ} (h : lo ≤ hi) : lo ≤ npClip x lo hi ∧ npClip x lo hi ≤ hi :=
  ⟨le_min (le_max_right _ _) h, min_le_right _ _⟩

/-! ### Sigmoid -/

/-- The logistic function. -/
noncomputable def sig (x : ℝ) : ℝ := 1 / (1 + exp (-x))

theorem sig_pos (x : ℝ) : 0 < sig x := by unfold sig; positivity

theorem sig_lt_one (x : ℝ) : sig x < 1 := by
  unfold sig
  rw [div_lt_one (by positivity)]
  have := exp_pos (-x)
  linarith

theorem hasDerivAt_sig (x : ℝ) : HasDerivAt sig (sig x * (1 - sig x)) x := by
  have h1 : HasDerivAt (fun x => 1 + exp (-x)) (-exp (-x)) x := by
    have := ((hasDerivAt_neg x).exp).const_add 1
    simpa using this
  have h0 : (1 + exp (-x)) ≠ 0 := by positivity
  have h2 := h1.inv h0
  have h3 : sig = fun x => (1 + exp (-x))⁻¹ := by
    funext y
    simp [sig]
  rw [h3]
  refine HasDerivAt.congr_deriv h2 ?_
  field_simp
  ring

/-- The sigmoid of one entry, as the code computes it. -/
noncomputable def clipSig (x : ℝ) : ℝ := sig (npClip x (-20) 20)

theorem opsSigmoid_eq {ι : Type} (inplace : Bool) (X : ι → ℝ) : opsSigmoid inplace X = fun i => clipSig (X i) := by
  funext i
  unfold opsSigmoid clipSig sig
  cases inplace
  · simp
  · simp only [if_true, zpow_neg_one, one_div]
    rw [add_comm]

theorem clipSig_mid {x : ℝ} (h1 : -20 ≤ x) (h2 : x ≤ 20) : clipSig x = sig x := by
  unfold clipSig
  rw [npClip_mid h1 h2]

theorem hasDerivAt_clipSig {x : ℝ} (h1 : -20 < x) (h2 : x < 20) :
    HasDerivAt clipSig (clipSig x * (1 - clipSig x)) x := by
  rw [clipSig_mid h1.le h2.le]
  exact hasDerivAt_of_between h1 h2 (hasDerivAt_sig x) fun y hy hy2 => clipSig_mid hy.le hy2.le

theorem hasDerivAt_clipSig_out {x : ℝ} (h : x < -20 ∨ 20 < x) : HasDerivAt clipSig 0 x := by
  rcases h with h | h
  · refine hasDerivAt_of_lt h (hasDerivAt_const x (sig (min (-20) 20))) fun y hy => ?_
    unfold clipSig
    rw [npClip_low hy.le]
  · refine hasDerivAt_of_gt h (hasDerivAt_const x (sig 20)) fun y hy => ?_
    unfold clipSig
    rw [npClip_high hy.le]

/-! ### Tanh -/

theorem hasDerivAt_tanh (x : ℝ) : HasDerivAt tanh (1 - tanh x ^ 2) x := by
  have h := (hasDerivAt_sinh x).div (hasDerivAt_cosh x) (cosh_pos x).ne'
  have e : tanh = fun x => sinh x / cosh x := by
    funext y
    exact tanh_eq_sinh_div_cosh y
  rw [e]
  refine HasDerivAt.congr_deriv h ?_
  have := (cosh_pos x).ne'
  field_simp

/-! ### Clipped linear functions -/

/-- One entry of `clipped_linear`. -/
noncomputable def clipLin (slope offset lo hi x : ℝ) : ℝ := npClip (x * slope + offset) lo hi

theorem hasDerivAt_lin (slope offset x : ℝ) : HasDerivAt (fun x : ℝ => x * slope + offset) slope x := by
  have := ((hasDerivAt_id x).mul_const slope).add_const offset
  simpa using this

theorem hasDerivAt_clipLin {slope offset lo hi : ℝ} (hs : 0 < slope) (x : ℝ)
    (hd : DifferentiableAt ℝ (clipLin slope offset lo hi) x) :
    HasDerivAt (clipLin slope offset lo hi)
      (if (lo - offset) / slope < x ∧ x < (hi - offset) / slope then slope else 0) x := by
  have hlow : ∀ y, y ≤ (lo - offset) / slope ↔ y * slope + offset ≤ lo := fun y => by
    rw [le_div_iff₀ hs]
    constructor <;> intro h <;> linarith
  have hhigh : ∀ y, (hi - offset) / slope ≤ y ↔ hi ≤ y * slope + offset := fun y => by
    rw [div_le_iff₀ hs]
    constructor <;> intro h <;> linarith
  rcases lt_trichotomy x ((lo - offset) / slope) with h | h | h
  · -- below
    rw [if_neg (by intro ⟨h1, _⟩; linarith)]
    refine hasDerivAt_of_lt h (hasDerivAt_const x (min lo hi)) fun y hy => ?_
    exact npClip_low ((hlow y).1 hy.le)
  · -- at the lower end
    rw [if_neg (by intro ⟨h1, _⟩; linarith)]
    exact hasDerivAt_of_left (hasDerivAt_const x (min lo hi))
      (fun y hy _ => npClip_low ((hlow y).1 (by linarith))) hd
  · rcases lt_trichotomy x ((hi - offset) / slope) with h2 | h2 | h2
    · rw [if_pos ⟨h, h2⟩]
      refine hasDerivAt_of_between h h2 (hasDerivAt_lin slope offset x) fun y hy hy2 => ?_
      refine npClip_mid ?_ ?_
      · by_contra hc
        exact absurd ((hlow y).2 (by linarith)) (by linarith)
      · by_contra hc
        exact absurd ((hhigh y).2 (by linarith)) (by linarith)
    · rw [if_neg (by intro ⟨_, h1⟩; linarith)]
      exact hasDerivAt_of_right (hasDerivAt_const x hi)
        (fun y hy _ => npClip_high ((hhigh y).1 (by linarith))) hd
    · rw [if_neg (by intro ⟨_, h1⟩; linarith)]
      exact hasDerivAt_of_gt h2 (hasDerivAt_const x hi) fun y hy => npClip_high ((hhigh y).1 hy.le)

/-- With a negative slope the code always answers zero, but the function has the slope `slope`
between its bounds. -/
theorem hasDerivAt_clipLin_neg {slope offset lo hi : ℝ} (hs : slope < 0) (x : ℝ)
    (h1 : lo < x * slope + offset) (h2 : x * slope + offset < hi) :
    HasDerivAt (clipLin slope offset lo hi) slope x := by
  refine (hasDerivAt_lin slope offset x).congr_of_eventuallyEq ?_
  have hc : ContinuousAt (fun x : ℝ => x * slope + offset) x := (hasDerivAt_lin slope offset x).continuousAt
  filter_upwards [hc.eventually (Ioo_mem_nhds h1 h2)] with y hy
  exact npClip_mid hy.1.le hy.2.le

/-! ### Relu -/

theorem hasDerivAt_relu (x : ℝ) (hd : DifferentiableAt ℝ (fun x : ℝ => if x ≤ 0 then 0 else x) x) :
    HasDerivAt (fun x : ℝ => if x ≤ 0 then 0 else x) (if x ≤ 0 then 0 else 1) x := by
  rcases lt_trichotomy x 0 with h | h | h
  · rw [if_pos h.le]
    exact hasDerivAt_of_lt h (hasDerivAt_const x (0 : ℝ)) fun y hy => if_pos hy.le
  · rw [if_pos h.le]
    exact hasDerivAt_of_left (hasDerivAt_const x (0 : ℝ)) (fun y hy _ => if_pos (by linarith)) hd
  · rw [if_neg (by linarith)]
    exact hasDerivAt_of_gt h (hasDerivAt_id x) fun y hy => if_neg (by linarith)

/-! ### Hard swish -/

theorem hardSwish_core {a b c : ℝ} (hc : 0 < c) (x : ℝ) (g : ℝ → ℝ)
    (h1 : ∀ y ≤ -c, g y = 0) (h2 : ∀ y, c ≤ y → g y = y)
    (h3 : ∀ y, -c ≤ y → y ≤ c → g y = y * (a * y + b)) (h4 : a * c + b = 1) (h5 : a * (-c) + b = 0)
    (hd : DifferentiableAt ℝ g x) :
    x ≠ c ∧ x ≠ -c ∧ HasDerivAt g (if x < -c then 0 else if x > c then 1 else 2 * a * x + b) x := by
  have quad : ∀ y, HasDerivAt (fun y : ℝ => y * (a * y + b)) (2 * a * y + b) y := fun y => by
    have e := (hasDerivAt_id y).mul (((hasDerivAt_id y).const_mul a).add_const b)
    refine HasDerivAt.congr_deriv e ?_
    simp
    ring
  have hb : b = 1 / 2 := by linarith
  have ha : a * c = 1 / 2 := by linarith
  have hne1 : x ≠ c := by
    rintro rfl
    have e1 : HasDerivAt g 1 x := hasDerivAt_of_right (hasDerivAt_id x) (fun y hy _ => h2 y hy) hd
    rcases le_or_gt x (1 / 2) with hx | hx
    · -- the left piece is only known down to `-c`; shrink it by rescaling the argument
      have e2 : HasDerivWithinAt g (2 * a * x + b) (Set.Iic x) x := by
        refine (quad x).hasDerivWithinAt.congr_of_eventuallyEq ?_ (h3 x (by linarith) le_rfl)
        filter_upwards [self_mem_nhdsWithin,
          mem_nhdsWithin_of_mem_nhds (Ioi_mem_nhds (show -x < x by linarith))] with y hy hy2
        exact h3 y (le_of_lt hy2) hy
      have := (uniqueDiffWithinAt_Iic x).eq_deriv _ e1.hasDerivWithinAt e2
      linarith
    · have e2 : HasDerivAt g (2 * a * x + b) x :=
        hasDerivAt_of_left (quad x) (fun y hy hy2 => h3 y (by linarith) hy) hd
      have := e1.unique e2
      linarith
  have hne2 : x ≠ -c := by
    rintro rfl
    have e1 : HasDerivAt g 0 (-c) := hasDerivAt_of_left (hasDerivAt_const _ 0) (fun y hy _ => h1 y hy) hd
    have e2 : HasDerivWithinAt g (2 * a * (-c) + b) (Set.Ici (-c)) (-c) := by
      refine (quad (-c)).hasDerivWithinAt.congr_of_eventuallyEq ?_ (h3 (-c) le_rfl (by linarith))
      filter_upwards [self_mem_nhdsWithin,
        mem_nhdsWithin_of_mem_nhds (Iio_mem_nhds (show -c < c by linarith))] with y hy hy2
      exact h3 y hy (le_of_lt hy2)
    have := (uniqueDiffWithinAt_Ici (-c)).eq_deriv _ e1.hasDerivWithinAt e2
    linarith
  refine ⟨hne1, hne2, ?_⟩
  rcases lt_or_ge x (-c) with h | h
  · rw [if_pos h]
    exact hasDerivAt_of_lt h (hasDerivAt_const x 0) fun y hy => h1 y hy.le
  · rw [if_neg (by linarith)]
    rcases lt_or_ge c x with h' | h'
    · rw [if_pos h']
      exact hasDerivAt_of_gt h' (hasDerivAt_id x) fun y hy => h2 y hy.le
    · rw [if_neg (by linarith)]
      exact hasDerivAt_of_between (lt_of_le_of_ne h (Ne.symm hne2)) (lt_of_le_of_ne h' hne1) (quad x)
        fun y hy hy2 => h3 y hy.le hy2.le

/-! ### Dish -/

theorem hasDerivAt_dish (x : ℝ) :
    HasDerivAt (fun x => x * ((x / √(x ^ 2 + 1) + 1) * 0.5))
      (x / √(x ^ 2 + 1) - 0.5 * x * x ^ 2 / (x ^ 2 + 1) ^ (1.5 : ℝ) + 0.5) x := by
  have hp : 0 < x ^ 2 + 1 := by positivity
  have hs : 0 < √(x ^ 2 + 1) := sqrt_pos.2 hp
  have h1 : HasDerivAt (fun x : ℝ => x ^ 2 + 1) (2 * x) x := by
    have := (hasDerivAt_pow 2 x).add_const 1
    simpa using this
  have h2 := h1.sqrt hp.ne'
  have h3 := ((hasDerivAt_id x).div h2 hs.ne').add_const 1
  have h4 := (hasDerivAt_id x).mul (h3.mul_const 0.5)
  have hsq : √(x ^ 2 + 1) ^ 2 = x ^ 2 + 1 := sq_sqrt hp.le
  have hpow : (x ^ 2 + 1) ^ (1.5 : ℝ) = (x ^ 2 + 1) * √(x ^ 2 + 1) := by
    rw [show (1.5 : ℝ) = 1 + 1 / 2 by norm_num, rpow_add hp, rpow_one, sqrt_eq_rpow]
  refine HasDerivAt.congr_deriv h4 ?_
  simp only [id, Pi.div_apply]
  rw [hpow]
  generalize hS : √(x ^ 2 + 1) = S at *
  rw [← hsq]
  have hx2 : x ^ 2 = S ^ 2 - 1 := by linarith
  field_simp
  ring_nf
  try rw [show x ^ 3 = x * x ^ 2 by ring, hx2]
  try ring

/-! ### Mish -/

theorem tanh_log (e : ℝ) (he : 0 < e) : tanh (log (1 + e)) = (e ^ 2 + 2 * e) / (e ^ 2 + 2 * e + 2) := by
  have h1 : (0 : ℝ) < 1 + e := by linarith
  rw [tanh_eq_sinh_div_cosh, sinh_eq, cosh_eq, exp_neg, exp_log h1]
  field_simp
  ring

theorem hasDerivAt_mish (x : ℝ) :
    HasDerivAt (fun x => x * tanh (log (1 + exp x)))
      (exp x * (4 * (x + 1) + 4 * exp (2 * x) + exp (3 * x) + exp x * (4 * x + 6)) /
        ((exp x + 1) * (exp x + 1) + 1) ^ 2) x := by
  have hE : HasDerivAt exp (exp x) x := hasDerivAt_exp x
  have e0 : 0 < exp x := exp_pos x
  have hfun : (fun x => x * tanh (log (1 + exp x))) =
      fun x => x * ((exp x ^ 2 + 2 * exp x) / (exp x ^ 2 + 2 * exp x + 2)) := by
    funext y
    rw [tanh_log _ (exp_pos y)]
  rw [hfun]
  have hn : HasDerivAt (fun x => exp x ^ 2 + 2 * exp x) (2 * exp x * exp x + 2 * exp x) x := by
    have := (hE.pow 2).add (hE.const_mul 2)
    refine HasDerivAt.congr_deriv this ?_
    simp
  have hd : HasDerivAt (fun x => exp x ^ 2 + 2 * exp x + 2) (2 * exp x * exp x + 2 * exp x) x := hn.add_const 2
  have hpos : exp x ^ 2 + 2 * exp x + 2 ≠ 0 := by positivity
  have h := (hasDerivAt_id x).mul (hn.div hd hpos)
  refine HasDerivAt.congr_deriv h ?_
  have e2 : exp (2 * x) = exp x ^ 2 := by rw [← exp_nat_mul]; simp
  have e3 : exp (3 * x) = exp x ^ 3 := by rw [← exp_nat_mul]; simp
  simp only [id, Pi.div_apply]
  rw [e2, e3]
  generalize exp x = e at *
  have : (e + 1) * (e + 1) + 1 = e ^ 2 + 2 * e + 2 := by ring
  rw [this]
  field_simp
  ring

theorem mish_factor_lt (x : ℝ) : tanh (log (1 + exp x)) < 1 := by
  have e0 := exp_pos x
  rw [tanh_log _ e0, div_lt_one (by positivity)]
  linarith

/-- One entry of `mish`. -/
noncomputable def mish1 (threshold x : ℝ) : ℝ := if x ≥ threshold then x else x * tanh (log (1 + exp x))

theorem hasDerivAt_mish1 (thr x : ℝ) (hd : DifferentiableAt ℝ (mish1 thr) x) :
    HasDerivAt (mish1 thr) (if x < thr then exp x * (4 * (x + 1) + 4 * exp (2 * x) + exp (3 * x) +
      exp x * (4 * x + 6)) / ((exp x + 1) * (exp x + 1) + 1) ^ 2 else 1) x := by
  rcases lt_trichotomy x thr with h | h | h
  · rw [if_pos h]
    exact hasDerivAt_of_lt h (hasDerivAt_mish x) fun y hy => if_neg (by linarith)
  · subst h
    rw [if_neg (lt_irrefl x)]
    exact hasDerivAt_of_right (hasDerivAt_id x) (fun y hy _ => if_pos hy) hd
  · rw [if_neg (by linarith)]
    exact hasDerivAt_of_gt h (hasDerivAt_id x) fun y hy => if_pos hy.le

end Thinc
