import Verif.Model.Dropout
import Verif.Lemmas.Broadcast
import Verif.Lemmas.Columns
import Mathlib.MeasureTheory.Integral.IntervalIntegral.Basic
/-!
# C59: dropout
-/
namespace Thinc
open Spec Spec.Tensor

/-- What dropout with the given rate multiplies a number by, when `u` is the random draw for it. -/
noncomputable def Spec.keepFactor (rate u : ℝ) : ℝ :=
  if rate ≤ 0 then 1 else if 1 ≤ rate then 0 else if rate ≤ u then 1 / (1 - rate) else 0

/-- For a rate between 0 and 1 the factor is 0 or `1 / (1 - rate)`: a number is dropped exactly if its draw is
below the rate. -/
theorem C59_mask (rate u : ℝ) (h0 : 0 < rate) (h1 : rate < 1) :
    keepFactor rate u = if u < rate then 0 else 1 / (1 - rate) := by
  unfold keepFactor
  rw [if_neg (not_le.2 h0), if_neg (not_le.2 h1)]
  by_cases h : rate ≤ u
  · rw [if_pos h, if_neg (not_lt.2 h)]
  · rw [if_neg h, if_pos (not_le.1 h)]

/-- Dropout leaves the expectation of every number unchanged: the mean of the factor is 1 if the draws are
uniform on the unit interval. -/
theorem C59_unbiased (rate : ℝ) (h0 : 0 < rate) (h1 : rate < 1) :
    ∫ u in (0 : ℝ)..1, keepFactor rate u = 1 := by
  have hmono : Monotone (keepFactor rate) := fun u v huv => by
    rw [C59_mask rate u h0 h1, C59_mask rate v h0 h1]
    have : 0 < 1 / (1 - rate) := by
      have : 0 < 1 - rate := by linarith
      positivity
    by_cases hv : v < rate
    · rw [if_pos hv, if_pos (lt_of_le_of_lt huv hv)]
    · rw [if_neg hv]
      split
      · exact this.le
      · exact le_refl _
  have hne : 1 - rate ≠ 0 := by linarith
  have e1 : ∫ u in (0 : ℝ)..rate, keepFactor rate u = ∫ u in (0 : ℝ)..rate, (0 : ℝ) := by
    refine intervalIntegral.integral_congr_uIoo fun u hu => ?_
    rw [Set.uIoo_of_le h0.le] at hu
    rw [C59_mask rate u h0 h1, if_pos hu.2]
  have e2 : ∫ u in rate..1, keepFactor rate u = ∫ u in rate..1, 1 / (1 - rate) := by
    refine intervalIntegral.integral_congr fun u hu => ?_
    rw [Set.uIcc_of_le h1.le] at hu
    rw [C59_mask rate u h0 h1, if_neg (not_lt.2 hu.1)]
  rw [← intervalIntegral.integral_add_adjacent_intervals (b := rate) hmono.intervalIntegrable hmono.intervalIntegrable,
    e1, e2, intervalIntegral.integral_const, intervalIntegral.integral_const]
  simp only [smul_eq_mul]
  field_simp
  simp

theorem isMat_dropoutMask {rate : ℝ} {n m : ℕ} {coin : ℕ → ℕ → ℝ} :
    IsMat (getDropoutMask n m (some rate) coin) (fun (i : Fin n) (j : Fin m) => keepFactor rate (coin i j)) := by
  unfold getDropoutMask keepFactor
  by_cases h0 : rate ≤ 0
  · simp only [h0, if_true]
    exact isMat_ofFn' _ _ fun i j => rfl
  · by_cases h1 : rate ≥ 1.0
    · have h1' : 1 ≤ rate := by norm_num at h1; exact h1
      simp only [h0, h1, h1', if_true, if_false]
      exact isMat_ofFn' _ _ fun i j => rfl
    · have h1' : ¬ 1 ≤ rate := by norm_num at h1; exact not_le.2 h1
      simp only [h0, h1, h1', if_false]
      refine isMat_ofFn' _ _ fun i j => ?_
      by_cases h : rate ≤ coin i j
      · simp only [ge_iff_le, h, if_true]; norm_num
      · simp only [ge_iff_le, h, if_false]; norm_num

/-- Dropout with rate 0, a disabled dropout layer, and dropout outside training return the input unchanged, and
pass the gradient on unchanged. -/
theorem C59_identity (rate : ℝ) (enabled train : Bool) (draws : ℕ → ℕ → ℕ → ℝ) (P : ParamVals) (v : Val)
    (h : rate = 0 ∨ enabled = false ∨ train = false) :
    ∃ callback, dropout rate enabled draws train P v = .ok (v, callback) ∧
      ∀ dv G, callback dv G = .ok (dv, G) := by
  refine ⟨fun dY G => .ok (dY, G), ?_, fun _ _ => rfl⟩
  unfold dropout
  refine if_pos ?_
  rcases h with h | h | h
  · exact Or.inl h
  · right; simp [h]
  · right; simp [h]

section
variable {N : ℕ} {sh : Fin N → ℕ × ℕ} {θ : Params sh} {n m : ℕ}

theorem IsVJP_mask (c : Fin n → Fin m → ℝ) (x : Fin n → Fin m → ℝ) :
    IsVJP (fun (p : Params sh × (Fin n → Fin m → ℝ)) i j => p.2 i j * c i j) (θ, x) (fun dy => (0, fun i j => dy i j * c i j)) := by
  have h : IsVJP (fun (x : Fin n → Fin m → ℝ) i j => x i j * c i j) x (fun dy i j => dy i j * c i j) := by
    refine IsVJP_linear' (fun x y => ?_) (fun a x => ?_) fun dy v => ?_
    · funext i j; simp [add_mul]
    · funext i j; simp [mul_assoc]
    · simp only [dot_pi, dot_real]
      exact Finset.sum_congr rfl fun i _ => Finset.sum_congr rfl fun j _ => by ring
  exact IsVJP_comp (f := fun p : Params sh × (Fin n → Fin m → ℝ) => p.2) (x := (θ, x)) h (IsVJP_snd _)

/-- Dropout during training multiplies the numbers of an array, and their gradients, by the same factors. -/
theorem C59_arrays (rate : ℝ) (hr : rate ≠ 0) (draws : ℕ → ℕ → ℕ → ℝ) (x : Fin n → Fin m → ℝ) :
    Exact (dropout rate true draws) true (Kind.arr n m) (Kind.arr n m)
      (fun p i j => p.2 i j * keepFactor rate (draws 0 i j)) θ x := by
  refine Exact.intro (IsVJP_mask _ x) ?_
  rintro P _ hP ⟨X, rfl, hX⟩
  have hM : IsMat (getDropoutMask X.rows X.cols (some rate) (draws 0))
      (fun (i : Fin n) (j : Fin m) => keepFactor rate (draws 0 i j)) := by
    rw [hX.1, hX.2.1]; exact isMat_dropoutMask
  obtain ⟨Y, eY, hY⟩ := hX.npBinary hM (· * ·)
  apply ok_intro
  · simp only [dropout, hr, Bool.and_self, Bool.true_eq_false, or_self, if_false, dropoutArray, bind, Except.bind, eY, pure, Except.pure]
    rfl
  · refine ⟨⟨Y, rfl, hY⟩, ?_⟩
    rintro _ dy G g ⟨D, rfl, hD⟩ hG
    obtain ⟨dX, eX, hdX⟩ := hD.npBinary hM (· * ·)
    refine ⟨.arr dX, G, ?_, ⟨dX, rfl, hdX⟩, by simpa using hG⟩
    simp only [Val.asArr, bind, Except.bind, eX, pure, Except.pure]

theorem C59_ragged (rate : ℝ) (hr : rate ≠ 0) (draws : ℕ → ℕ → ℕ → ℝ) (lengths : List ℕ) (x : Fin lengths.sum → Fin m → ℝ) :
    Exact (dropout rate true draws) true (Kind.ragged lengths m) (Kind.ragged lengths m)
      (fun p i j => p.2 i j * keepFactor rate (draws 0 i j)) θ x := by
  refine Exact.intro (IsVJP_mask _ x) ?_
  rintro P _ hP ⟨X, rfl, hX⟩
  have hM : IsMat (getDropoutMask X.rows X.cols (some rate) (draws 0))
      (fun (i : Fin lengths.sum) (j : Fin m) => keepFactor rate (draws 0 i j)) := by
    rw [hX.1, hX.2.1]; exact isMat_dropoutMask
  obtain ⟨Y, eY, hY⟩ := hX.npBinary hM (· * ·)
  apply ok_intro
  · simp only [dropout, hr, Bool.and_self, Bool.true_eq_false, or_self, if_false, dropoutRagged, bind, Except.bind, eY, pure, Except.pure]
    rfl
  · refine ⟨⟨Y, rfl, hY⟩, ?_⟩
    rintro _ dy G g ⟨D, rfl, hD⟩ hG
    obtain ⟨dX, eX, hdX⟩ := hD.npBinary hM (· * ·)
    refine ⟨.ragged dX lengths, G, ?_, ⟨dX, rfl, hdX⟩, by simpa using hG⟩
    simp only [bind, Except.bind, eX, pure, Except.pure]

theorem C59_padded (rate : ℝ) (hr : rate ≠ 0) (draws : ℕ → ℕ → ℕ → ℝ) (steps : ℕ) (s l ix : List ℕ) (x : Fin n → Fin m → ℝ) :
    Exact (dropout rate true draws) true (Kind.padded n m steps s l ix) (Kind.padded n m steps s l ix)
      (fun p i j => p.2 i j * keepFactor rate (draws 0 i j)) θ x := by
  refine Exact.intro (IsVJP_mask _ x) ?_
  rintro P _ hP ⟨X, rfl, hX⟩
  have hM : IsMat (getDropoutMask X.rows X.cols (some rate) (draws 0))
      (fun (i : Fin n) (j : Fin m) => keepFactor rate (draws 0 i j)) := by
    rw [hX.1, hX.2.1]; exact isMat_dropoutMask
  obtain ⟨Y, eY, hY⟩ := hX.npBinary hM (· * ·)
  apply ok_intro
  · simp only [dropout, hr, Bool.and_self, Bool.true_eq_false, or_self, if_false, dropoutPadded, bind, Except.bind, eY, pure, Except.pure]
    rfl
  · refine ⟨⟨Y, rfl, hY⟩, ?_⟩
    rintro _ dy G g ⟨D, rfl, hD⟩ hG
    obtain ⟨dX, eX, hdX⟩ := hD.npBinary hM (· * ·)
    refine ⟨.padded dX steps s l ix, G, ?_, ⟨dX, rfl, hdX⟩, by simpa using hG⟩
    simp only [bind, Except.bind, eX, pure, Except.pure]

/-! ### Lists -/

theorem asArr_map (As : List (Mat ℝ)) : (As.map Val.arr).mapM Val.asArr = .ok As := by
  induction As with
  | nil => rfl
  | cons A As ih => simp only [List.map_cons, List.mapM_cons, Val.asArr, ih, bind, Except.bind, pure, Except.pure]

theorem listMasks_length (rate : ℝ) (draws : ℕ → ℕ → ℕ → ℝ) (As : List (Mat ℝ)) :
    (listMasks rate draws As).length = As.length := by
  induction As generalizing draws with
  | nil => rfl
  | cons A As ih => simp [listMasks, ih]

theorem listMasks_getElem (rate : ℝ) (draws : ℕ → ℕ → ℕ → ℝ) (As : List (Mat ℝ)) (b : ℕ) (hb : b < As.length) :
    (listMasks rate draws As)[b]'(by rwa [listMasks_length]) = getDropoutMask As[b].rows As[b].cols (some rate) (draws b) := by
  induction As generalizing draws b with
  | nil => simp at hb
  | cons A As ih =>
    cases b with
    | zero => rfl
    | succ b =>
      simp only [listMasks, List.getElem_cons_succ]
      exact ih (fun k => draws (k + 1)) b (by simpa using hb)

theorem mulAll_fn {k : ℕ} (rows cols : Fin k → ℕ) (x c : (b : Fin k) → Fin (rows b) → Fin (cols b) → ℝ) (As Ms : Fin k → Mat ℝ)
    (hA : ∀ b, IsMat (As b) (x b)) (hM : ∀ b, IsMat (Ms b) (c b)) :
    ∃ Ys : Fin k → Mat ℝ, mulAll (List.ofFn As) (List.ofFn Ms) = .ok (List.ofFn Ys) ∧
      ∀ b, IsMat (Ys b) (fun i j => x b i j * c b i j) := by
  induction k with
  | zero => exact ⟨fun b => b.elim0, by simp [mulAll], fun b => b.elim0⟩
  | succ k ih =>
    obtain ⟨Y, eY, hY⟩ := (hA 0).npBinary (hM 0) (· * ·)
    obtain ⟨Ys, eYs, hYs⟩ := ih (fun b => rows b.succ) (fun b => cols b.succ) (fun b => x b.succ) (fun b => c b.succ)
      (fun b => As b.succ) (fun b => Ms b.succ) (fun b => hA b.succ) fun b => hM b.succ
    refine ⟨Fin.cases Y Ys, ?_, fun b => ?_⟩
    · rw [List.ofFn_succ, List.ofFn_succ, List.ofFn_succ]
      simp only [mulAll, eY, eYs, bind, Except.bind, pure, Except.pure, Fin.cases_zero, Fin.cases_succ]
    · refine Fin.cases hY (fun b => hYs b) b

theorem listMasks_ofFn {k : ℕ} (rate : ℝ) (draws : ℕ → ℕ → ℕ → ℝ) (As : Fin k → Mat ℝ) :
    listMasks rate draws (List.ofFn As) =
      List.ofFn fun b : Fin k => getDropoutMask (As b).rows (As b).cols (some rate) (draws b) := by
  refine List.ext_getElem (by rw [listMasks_length]; simp) fun b h1 h2 => ?_
  rw [listMasks_getElem _ _ _ _ (by rwa [listMasks_length] at h1)]
  simp

theorem C59_lists {k : ℕ} (rate : ℝ) (hr : rate ≠ 0) (draws : ℕ → ℕ → ℕ → ℝ) (rows cols : Fin k → ℕ)
    (x : (b : Fin k) → Fin (rows b) → Fin (cols b) → ℝ) :
    Exact (dropout rate true draws) true (Kind.list fun b => Kind.arr (rows b) (cols b))
      (Kind.list fun b => Kind.arr (rows b) (cols b))
      (fun p b i j => p.2 b i j * keepFactor rate (draws b i j)) θ x := by
  have hv : IsVJP (fun (p : Params sh × ((b : Fin k) → Fin (rows b) → Fin (cols b) → ℝ)) b i j =>
      p.2 b i j * keepFactor rate (draws b i j)) (θ, x)
      (fun dy => (0, fun b i j => dy b i j * keepFactor rate (draws b i j))) := by
    have h : IsVJP (fun (x : (b : Fin k) → Fin (rows b) → Fin (cols b) → ℝ) b i j => x b i j * keepFactor rate (draws b i j)) x
        (fun dy b i j => dy b i j * keepFactor rate (draws b i j)) := by
      refine IsVJP_linear' (fun x y => ?_) (fun a x => ?_) fun dy v => ?_
      · funext b i j; simp [add_mul]
      · funext b i j; simp [mul_assoc]
      · simp only [dot_dpi, dot_pi, dot_real]
        exact Finset.sum_congr rfl fun b _ => Finset.sum_congr rfl fun i _ => Finset.sum_congr rfl fun j _ => by ring
    exact IsVJP_comp (f := fun p : Params sh × ((b : Fin k) → Fin (rows b) → Fin (cols b) → ℝ) => p.2) (x := (θ, x)) h (IsVJP_snd _)
  refine Exact.intro hv ?_
  rintro P _ hP ⟨vs, rfl, hvs⟩
  choose As hAs hA using hvs
  have evs : List.ofFn vs = (List.ofFn As).map Val.arr := by
    rw [List.map_ofFn]; congr 1; funext b; exact hAs b
  have hM : ∀ b, IsMat (getDropoutMask (As b).rows (As b).cols (some rate) (draws b))
      (fun (i : Fin (rows b)) (j : Fin (cols b)) => keepFactor rate (draws b i j)) := fun b => by
    rw [(hA b).1, (hA b).2.1]; exact isMat_dropoutMask
  obtain ⟨Ys, eYs, hYs⟩ := mulAll_fn rows cols _ _ As _ hA hM
  apply ok_intro
  · simp only [dropout, hr, Bool.and_self, Bool.true_eq_false, or_self, if_false, dropoutLists, evs, asArr_map, bind, Except.bind,
      listMasks_ofFn, eYs, pure, Except.pure]
    rfl
  · refine ⟨⟨fun b => .arr (Ys b), by simp only [List.map_ofFn]; rfl, fun b => ⟨_, rfl, hYs b⟩⟩, ?_⟩
    rintro _ dy G g ⟨ds, rfl, hds⟩ hG
    choose Ds hDs hD using hds
    have eds : List.ofFn ds = (List.ofFn Ds).map Val.arr := by
      rw [List.map_ofFn]; congr 1; funext b; exact hDs b
    obtain ⟨Zs, eZs, hZs⟩ := mulAll_fn rows cols _ _ Ds _ hD hM
    refine ⟨.list ((List.ofFn Zs).map .arr), G, ?_, ⟨fun b => .arr (Zs b), by simp only [List.map_ofFn]; rfl, fun b => ⟨_, rfl, hZs b⟩⟩,
      by simpa using hG⟩
    simp only [Val.items, eds, asArr_map, bind, Except.bind, eZs, pure, Except.pure]
end

/-- A rate of a half, with draws that drop the first number and keep the second. -/
example : keepFactor (1 / 2) 0.25 = 0 ∧ keepFactor (1 / 2) 0.75 = 2 := by
  constructor <;> norm_num [keepFactor]

example : Exact (sh := fun _ : Fin 0 => (0, 0)) (dropout (1 / 2) true fun _ _ j => if j = 0 then 0.25 else 0.75) true (Kind.arr 1 2) (Kind.arr 1 2)
    (fun p i j => p.2 i j * keepFactor (1 / 2) (if (j : ℕ) = 0 then 0.25 else 0.75)) (fun p => p.elim0) (fun _ _ => 1) :=
  C59_arrays (1 / 2) (by norm_num) _ _

end Thinc
