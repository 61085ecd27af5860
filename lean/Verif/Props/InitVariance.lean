import Verif.Props.Initializers
import Verif.Props.Linear
import Verif.Props.Dense
import Verif.Lemmas.Layer
import Verif.Model.Dense
import Mathlib.Probability.Moments.Variance
import Mathlib.Probability.IdentDistribIndep
import Mathlib.Probability.Independence.InfinitePi
import Mathlib.Analysis.SpecialFunctions.Integrals.Basic
/-!
# C104: random initial weights keep the scale of the data
-/
namespace Thinc
open Initializers Spec Container MeasureTheory ProbabilityTheory

variable {σ Ω : Type} [MeasurableSpace Ω]

/-! ### Moments of the draws -/

theorem uniform_isProb : IsProbabilityMeasure (volume.restrict (Set.Ico (0 : ℝ) 1)) := ⟨by simp⟩

theorem uniform_integral (f : ℝ → ℝ) : ∫ x, f x ∂(volume.restrict (Set.Ico (0 : ℝ) 1)) = ∫ x in (0 : ℝ)..1, f x := by
  rw [intervalIntegral.integral_of_le zero_le_one, integral_Ico_eq_integral_Ioo, integral_Ioc_eq_integral_Ioo]

theorem uniform_memLp : MemLp id 2 (volume.restrict (Set.Ico (0 : ℝ) 1)) := by
  have := uniform_isProb
  refine MemLp.of_bound (C := 1) aestronglyMeasurable_id ?_
  filter_upwards [ae_restrict_mem measurableSet_Ico] with x hx
  rw [id, Real.norm_eq_abs, abs_le]
  exact ⟨by linarith [hx.1], hx.2.le⟩

/-- What we need of a distribution: mean zero, variance `v`, and symmetry. -/
structure Centered (law : Measure ℝ) (v : ℝ) : Prop where
  prob : IsProbabilityMeasure law
  memLp : MemLp id 2 law
  mean : ∫ x, x ∂law = 0
  var : Var[id; law] = v
  symm : law.map (fun x => -x) = law

theorem Centered.scale {law : Measure ℝ} {v : ℝ} (h : Centered law v) (c : ℝ) :
    Centered (law.map fun x => c * x) (c ^ 2 * v) := by
  have := h.prob
  have hm : AEMeasurable (fun x : ℝ => c * x) law := by fun_prop
  refine ⟨Measure.isProbabilityMeasure_map hm, ?_, ?_, ?_, ?_⟩
  · rw [memLp_map_measure_iff aestronglyMeasurable_id hm]
    exact h.memLp.const_mul c
  · rw [integral_map (f := fun x : ℝ => x) hm aestronglyMeasurable_id]
    rw [integral_const_mul, h.mean, mul_zero]
  · rw [variance_map aemeasurable_id hm, Function.id_comp, ← h.var]
    exact variance_const_mul c id law
  · rw [Measure.map_map (by fun_prop) (by fun_prop)]
    conv_rhs => rw [← h.symm]
    rw [Measure.map_map (by fun_prop) (by fun_prop)]
    congr 1
    funext x
    simp

theorem centered_normal : Centered (gaussianReal 0 1) 1 where
  prob := inferInstance
  memLp := by simpa using memLp_id_gaussianReal (μ := 0) (v := 1) 2
  mean := integral_id_gaussianReal
  var := by simpa using variance_id_gaussianReal (μ := 0) (v := 1)
  symm := by simpa using gaussianReal_map_neg (μ := 0) (v := 1)

theorem centered_uniform : Centered ((volume.restrict (Set.Ico (0 : ℝ) 1)).map fun u => 2 * u - 1) (1 / 3) := by
  have := uniform_isProb
  have hm : AEMeasurable (fun u : ℝ => 2 * u - 1) (volume.restrict (Set.Ico (0 : ℝ) 1)) := by fun_prop
  have hL : MemLp (fun u : ℝ => 2 * u - 1) 2 (volume.restrict (Set.Ico (0 : ℝ) 1)) :=
    (uniform_memLp.const_mul 2).sub (memLp_const 1)
  have hmean : ∫ x, (2 * x - 1) ∂(volume.restrict (Set.Ico (0 : ℝ) 1)) = 0 := by
    rw [uniform_integral (fun x => 2 * x - 1), intervalIntegral.integral_sub, intervalIntegral.integral_const_mul]
    · simp
    all_goals apply Continuous.intervalIntegrable; fun_prop
  refine ⟨Measure.isProbabilityMeasure_map hm, ?_, ?_, ?_, ?_⟩
  · rw [memLp_map_measure_iff aestronglyMeasurable_id hm]
    exact hL
  · rw [integral_map (f := fun x : ℝ => x) hm aestronglyMeasurable_id]
    exact hmean
  · rw [variance_map aemeasurable_id hm, Function.id_comp, variance_eq_sub hL, hmean]
    simp only [Pi.pow_apply]
    rw [uniform_integral]
    have : ∀ x : ℝ, (2 * x - 1) ^ 2 = 4 * x ^ 2 - 4 * x + 1 := fun x => by ring
    simp only [this]
    rw [intervalIntegral.integral_add, intervalIntegral.integral_sub, intervalIntegral.integral_const_mul,
      intervalIntegral.integral_const_mul]
    · simp; norm_num
    all_goals apply Continuous.intervalIntegrable; fun_prop
  · rw [Measure.map_map (by fun_prop) (by fun_prop)]
    have e : (fun x : ℝ => -x) ∘ (fun u : ℝ => 2 * u - 1) = (fun u : ℝ => 2 * u - 1) ∘ fun u => 1 - u := by funext u; simp only [Function.comp]; ring
    have hp : MeasurePreserving (fun u : ℝ => 1 - u) volume volume := Measure.measurePreserving_sub_left volume 1
    have h2 := hp.restrict_preimage (measurableSet_Ioc (a := (0 : ℝ)) (b := 1))
    have h3 : (fun u : ℝ => 1 - u) ⁻¹' Set.Ioc 0 1 = Set.Ico 0 1 := by ext u; simp
    rw [h3] at h2
    have h4 : volume.restrict (Set.Ioc (0 : ℝ) 1) = volume.restrict (Set.Ico (0 : ℝ) 1) :=
      Measure.restrict_congr_set (MeasureTheory.Ioo_ae_eq_Ioc.symm.trans MeasureTheory.Ioo_ae_eq_Ico)
    rw [e, ← Measure.map_map (by fun_prop) (by fun_prop), h2.map_eq, h4]

/-- The distribution of a weight. -/
theorem scheme_centered (sch : Scheme) (rng : Rng σ) (S : Ω → σ) (P : Measure Ω) (h : GoodRng rng S P) (v : ℝ) (hv : 0 ≤ v) :
    ∃ law, Centered law v ∧ iIndepFun (fun k ω => sch.weight v (nthDraw (sch.next rng) k (S ω))) P ∧
      ∀ k, HasLaw (fun ω => sch.weight v (nthDraw (sch.next rng) k (S ω))) law P := by
  have hn : ∃ law, Centered law v ∧ iIndepFun (fun k ω => √v * (nthDraw rng.normal k (S ω))) P ∧
      ∀ k, HasLaw (fun ω => √v * (nthDraw rng.normal k (S ω))) law P := by
    refine ⟨_, by simpa [Real.sq_sqrt hv] using centered_normal.scale √v, ?_, fun k => ?_⟩
    · exact h.normal.indep.comp (fun _ x => √v * x) fun _ => by fun_prop
    · exact HasLaw.comp (Y := fun x => √v * x) ⟨by fun_prop, rfl⟩ (h.normal.law k)
  have hu : ∃ law, Centered law v ∧ iIndepFun (fun k ω => √(3 * v) * (2 * nthDraw rng.uniform k (S ω) - 1)) P ∧
      ∀ k, HasLaw (fun ω => √(3 * v) * (2 * nthDraw rng.uniform k (S ω) - 1)) law P := by
    have e : √(3 * v) ^ 2 * (1 / 3) = v := by rw [Real.sq_sqrt (by linarith)]; ring
    have hc := centered_uniform.scale √(3 * v)
    rw [e] at hc
    refine ⟨_, hc, ?_, fun k => ?_⟩
    · exact h.uniform.indep.comp (fun _ x => √(3 * v) * (2 * x - 1)) fun _ => by fun_prop
    · rw [Measure.map_map (by fun_prop) (by fun_prop)]
      exact HasLaw.comp (Y := fun x => √(3 * v) * (2 * x - 1)) ⟨by fun_prop, rfl⟩ (h.uniform.law k)
  cases sch
  · exact hn
  · exact hn
  · exact hn
  · exact hu
  · exact hu
  · exact hu

/-! ### Sums of weights -/

theorem Centered.memLp_of {law : Measure ℝ} {v : ℝ} (h : Centered law v) {P : Measure Ω} {X : Ω → ℝ} (hX : HasLaw X law P) :
    MemLp X 2 P := by
  have := h.memLp
  rw [← hX.map_eq, memLp_map_measure_iff aestronglyMeasurable_id hX.aemeasurable] at this
  exact this

theorem weighted_sum {P : Measure Ω} {w : ℕ → Ω → ℝ} {law : Measure ℝ} {v : ℝ} (hc : Centered law v) (hi : iIndepFun w P)
    (hl : ∀ k, HasLaw (w k) law P) {m : ℕ} (pos : Fin m → ℕ) (hp : Function.Injective pos) (x : Fin m → ℝ) :
    ∫ ω, ∑ j, x j * w (pos j) ω ∂P = 0 ∧ Var[fun ω => ∑ j, x j * w (pos j) ω; P] = v * ∑ j, x j ^ 2 := by
  have hP : IsProbabilityMeasure P := hi.isProbabilityMeasure
  have hL : ∀ k, MemLp (w k) 2 P := fun k => hc.memLp_of (hl k)
  constructor
  · rw [integral_finset_sum _ fun j _ => ((hL _).integrable (by norm_num)).const_mul _]
    refine Finset.sum_eq_zero fun j _ => ?_
    rw [integral_const_mul, (hl _).integral_eq, hc.mean, mul_zero]
  · have e : (fun ω => ∑ j, x j * w (pos j) ω) = ∑ j, fun ω => x j * w (pos j) ω := by funext ω; simp
    rw [e, IndepFun.variance_sum (fun j _ => (hL _).const_mul _)]
    · rw [Finset.mul_sum]
      refine Finset.sum_congr rfl fun j _ => ?_
      rw [variance_const_mul, (hl _).variance_eq, hc.var, mul_comm]
    · intro i _ j _ hij
      exact (hi.indepFun (hp.ne hij)).comp (φ := fun y => x i * y) (ψ := fun y => x j * y) (by fun_prop) (by fun_prop)

/-- The sum is distributed symmetrically. -/
theorem weighted_symm {P : Measure Ω} {w : ℕ → Ω → ℝ} {law : Measure ℝ} {v : ℝ} (hc : Centered law v) (hi : iIndepFun w P)
    (hl : ∀ k, HasLaw (w k) law P) {m : ℕ} (pos : Fin m → ℕ) (x : Fin m → ℝ) :
    IdentDistrib (fun ω => ∑ j, x j * w (pos j) ω) (fun ω => -∑ j, x j * w (pos j) ω) P P := by
  have h1 : ∀ k, IdentDistrib (w k) (fun ω => -w k ω) P P := by
    intro k
    refine ⟨(hl k).aemeasurable, (hl k).aemeasurable.neg, ?_⟩
    have : P.map (fun ω => -w k ω) = (P.map (w k)).map fun x => -x := by
      rw [AEMeasurable.map_map_of_aemeasurable (by fun_prop) (hl k).aemeasurable]
      rfl
    rw [this, (hl k).map_eq, hc.symm]
  have h2 : iIndepFun (fun k ω => -w k ω) P := hi.comp (fun _ x => -x) fun _ => by fun_prop
  have h3 := IdentDistrib.pi h1 hi h2
  have h4 := h3.comp (u := fun f : ℕ → ℝ => ∑ j, x j * f (pos j)) (by fun_prop)
  refine ⟨h4.aemeasurable_fst, ?_, ?_⟩
  · exact h4.aemeasurable_fst.neg
  · have := h4.map_eq
    simp only [Function.comp_def] at this
    rw [this]
    congr 1
    funext ω
    simp

/-- For a symmetric sum, cutting off the negative part halves the mean of the squares. -/
theorem relu_half {P : Measure Ω} [IsProbabilityMeasure P] {Y : Ω → ℝ} (hs : IdentDistrib Y (fun ω => -Y ω) P P) (hL : MemLp Y 2 P)
    (h0 : ∫ ω, Y ω ∂P = 0) : ∫ ω, (max (Y ω) 0) ^ 2 ∂P = Var[Y; P] / 2 := by
  have hm : Measurable fun y : ℝ => (max y 0) ^ 2 := by fun_prop
  have e1 := (hs.comp hm).integral_eq
  simp only [Function.comp_def] at e1
  have hsq : Integrable (fun ω => Y ω ^ 2) P := hL.integrable_sq
  have hint : ∀ Z : Ω → ℝ, AEMeasurable Z P → (∀ ω, Z ω ^ 2 = Y ω ^ 2) → Integrable (fun ω => (max (Z ω) 0) ^ 2) P := by
    intro Z hZ hZY
    refine hsq.mono' (hm.comp_aemeasurable hZ).aestronglyMeasurable (Filter.Eventually.of_forall fun ω => ?_)
    rw [Real.norm_eq_abs, abs_of_nonneg (sq_nonneg _), ← hZY ω]
    rcases le_total (Z ω) 0 with h | h
    · rw [max_eq_right h]; simp [sq_nonneg]
    · rw [max_eq_left h]
  have e2 : ∫ ω, Y ω ^ 2 ∂P = ∫ ω, (max (Y ω) 0) ^ 2 ∂P + ∫ ω, (max (-Y ω) 0) ^ 2 ∂P := by
    rw [← integral_add (hint Y hs.aemeasurable_fst fun _ => rfl) (hint _ hs.aemeasurable_snd fun ω => by ring)]
    congr 1
    funext ω
    rcases le_total (Y ω) 0 with h | h
    · rw [max_eq_right h, max_eq_left (by linarith)]; ring
    · rw [max_eq_left h, max_eq_right (by linarith)]; ring
  have e3 : Var[Y; P] = ∫ ω, Y ω ^ 2 ∂P := by
    rw [variance_eq_sub hL, h0]
    simp
  rw [e3, e2, ← e1]
  ring

/-! ### New parameters -/

theorem variance_nonneg' (sch : Scheme) (nO nI : ℕ) : 0 ≤ sch.variance nO nI := by
  cases sch <;> simp only [Scheme.variance] <;> positivity

/-- New weights as a matrix. -/
theorem isMat_weights (next : σ → ℝ × σ) (f : ℝ → ℝ) (shape : List ℕ) (rows cols : ℕ) (h : shape.prod = rows * cols) (s : σ) :
    ∃ M, asMatrix ⟨shape, (drawMany next shape.prod s).1.map f⟩ rows cols = .ok M ∧
      IsMat M (fun (i : Fin rows) (j : Fin cols) => f (nthDraw next (i * cols + j) s)) := by
  refine ⟨⟨rows, cols, fun i => ((drawMany next shape.prod s).1.map f).getD i 0⟩, ?_, rfl, rfl, fun i j => ?_⟩
  · rw [asMatrix, if_pos (by rw [List.length_map, drawMany_length, h])]
  have hlt : (i : ℕ) * cols + j < shape.prod := by
    rw [h]
    calc (i : ℕ) * cols + j < i * cols + cols := by omega
      _ = (i + 1) * cols := by ring
      _ ≤ rows * cols := Nat.mul_le_mul_right _ i.2
  simp only [Mat.at, List.getD_eq_getElem?_getD, List.getElem?_map, drawMany_get next _ s _ hlt, Option.map_some,
    Option.getD_some]

/-- A new bias. -/
theorem isMat_zeros (shape : List ℕ) (rows cols : ℕ) (h : shape.prod = rows * cols) (s : σ) :
    ∃ M, asMatrix (zeroInit shape s).1 rows cols = .ok M ∧ IsMat M (fun (_ : Fin rows) (_ : Fin cols) => (0 : ℝ)) := by
  refine ⟨⟨rows, cols, fun i => (zeroInit shape s).1.data.getD i 0⟩, ?_, rfl, rfl, fun i j => ?_⟩
  · rw [asMatrix, if_pos (by simp [zeroInit, h])]
  simp only [Mat.at, zeroInit, List.getD_eq_getElem?_getD]
  by_cases h : (i : ℕ) * cols + j < shape.prod
  · simp [List.getElem?_replicate, h]
  · simp [List.getElem?_replicate, h]

/-- The parameters of a new dense layer. -/
theorem denseParams_ok (sch : Scheme) (rng : Rng σ) (nO nI : ℕ) (h : 0 < nI) (s : σ) :
    ∃ p s', denseParams (sch.run rng) nO nI s = .ok (p, s') ∧
      IsMat p.1 (fun (i : Fin nO) (j : Fin nI) => sch.weight (sch.variance nO nI) (nthDraw (sch.next rng) (i * nI + j) s)) ∧
      IsMat p.2 (fun (_ : Fin 1) (_ : Fin nO) => (0 : ℝ)) := by
  obtain ⟨W, hW, hW'⟩ := isMat_weights (sch.next rng) (sch.weight (sch.variance nO nI)) [nO, nI] nO nI (by simp) s
  obtain ⟨b, hb, hb'⟩ := isMat_zeros [nO] 1 nO (by simp) (afterDraws (sch.next rng) [nO, nI].prod s)
  exact ⟨(W, b), _, by simp only [denseParams, scheme_run sch rng nO nI [] h s, bind, Except.bind, hW, hb]; rfl, hW', hb'⟩

/-- The parameters of a new `Maxout` layer. -/
theorem maxoutParams_ok (sch : Scheme) (rng : Rng σ) (nO nP nI : ℕ) (h : 0 < nP) (s : σ) :
    ∃ p s', maxoutParams (sch.run rng) nO nP nI s = .ok (p, s') ∧
      IsMat p.1 (fun (i : Fin (nO * nP)) (j : Fin nI) =>
        sch.weight (sch.variance nO nP) (nthDraw (sch.next rng) (i * nI + j) s)) ∧
      IsMat p.2 (fun (_ : Fin 1) (_ : Fin (nO * nP)) => (0 : ℝ)) := by
  obtain ⟨W, hW, hW'⟩ := isMat_weights (sch.next rng) (sch.weight (sch.variance nO nP)) [nO, nP, nI] (nO * nP) nI
    (by simp [mul_assoc]) s
  obtain ⟨b, hb, hb'⟩ := isMat_zeros [nO, nP] 1 (nO * nP) (by simp) (afterDraws (sch.next rng) [nO, nP, nI].prod s)
  exact ⟨(W, b), _, by simp only [maxoutParams, scheme_run sch rng nO nP [nI] h s, bind, Except.bind, hW, hb]; rfl, hW', hb'⟩

theorem affine_ok {X W b : Mat ℝ} {n nO nI : ℕ} {x : Fin n → Fin nI → ℝ} {w : Fin nO → Fin nI → ℝ} (hX : IsMat X x)
    (hW : IsMat W w) (hb : IsMat b (fun (_ : Fin 1) (_ : Fin nO) => (0 : ℝ))) :
    ∃ Y Z, gemm X W false true = .ok Y ∧ addBias Y b = .ok Z ∧ IsMat Z (fun i c => ∑ j, x i j * w c j) := by
  obtain ⟨Y, eY, hY⟩ := hX.gemm_nt hW
  obtain ⟨Z, eZ, hZ⟩ := hY.npUpdate_row hb (· + ·)
  exact ⟨Y, Z, eY, eZ, by simpa using hZ⟩

/-! ### C104 -/

/-- C104: a new linear layer has outputs with mean zero, and their variance is that of the scheme times the sum of the squares of
the inputs. -/
theorem C104_forward_partial (sch : Scheme) (rng : Rng σ) (S : Ω → σ) (P : Measure Ω) (h : GoodRng rng S P) (nO nI n : ℕ) (hI : 0 < nI)
    (W b : ℕ) (hWb : W ≠ b) (train : Bool) (X : Mat ℝ) (x : Fin n → Fin nI → ℝ) (hX : IsMat X x) :
    ∃ y : Ω → Fin n → Fin nO → ℝ,
      (∀ ω, ∃ p s' Y callback, denseParams (sch.run rng) nO nI (S ω) = .ok (p, s') ∧
        linear W b train (twoParams W b p) (.arr X) = .ok (.arr Y, callback) ∧ IsMat Y (y ω)) ∧
      ∀ r c, ∫ ω, y ω r c ∂P = 0 ∧ Var[fun ω => y ω r c; P] = sch.variance nO nI * ∑ j, x r j ^ 2 := by
  obtain ⟨law, hc, hi, hl⟩ := scheme_centered sch rng S P h (sch.variance nO nI) (variance_nonneg' sch nO nI)
  refine ⟨fun ω r c => ∑ j, x r j * sch.weight (sch.variance nO nI) (nthDraw (sch.next rng) (c * nI + j) (S ω)), fun ω => ?_, ?_⟩
  · obtain ⟨p, s', e, hW, hb⟩ := denseParams_ok sch rng nO nI hI (S ω)
    obtain ⟨Y, Z, e1, e2, hZ⟩ := affine_ok hX hW hb
    refine ⟨p, s', Z, ?_⟩
    have : linear W b train (twoParams W b p) (.arr X) = .ok (.arr Z, fun dY G => do
        let dY ← dY.asArr
        let G ← incGrad G b dY.colSums
        let G ← incGrad G W (← gemm dY X true false)
        return (.arr (← gemm dY (twoParams W b p W) false false), G)) := by
      simp only [linear, Val.asArr, bind, Except.bind, twoParams, if_true, if_neg (Ne.symm hWb), e1, e2, pure, Except.pure]
    exact ⟨_, e, this, hZ⟩
  · intro r c
    exact weighted_sum hc hi hl (fun j => c * nI + j) (fun i j hij => by
      simp only [Nat.add_left_cancel_iff] at hij
      exact Fin.ext hij) (x r)

/-- C104 for LeCun initialization: every output has mean zero, and its variance is the mean of the squares of the inputs. -/
theorem C104_lecun (sch : Scheme) (hs : sch = .lecunNormal ∨ sch = .lecunUniform) (rng : Rng σ) (S : Ω → σ) (P : Measure Ω)
    (h : GoodRng rng S P) (nO nI n : ℕ) (hI : 0 < nI) (W b : ℕ) (hWb : W ≠ b) (train : Bool) (X : Mat ℝ) (x : Fin n → Fin nI → ℝ)
    (hX : IsMat X x) :
    ∃ y : Ω → Fin n → Fin nO → ℝ,
      (∀ ω, ∃ p s' Y callback, denseParams (sch.run rng) nO nI (S ω) = .ok (p, s') ∧
        linear W b train (twoParams W b p) (.arr X) = .ok (.arr Y, callback) ∧ IsMat Y (y ω)) ∧
      ∀ r c, ∫ ω, y ω r c ∂P = 0 ∧ Var[fun ω => y ω r c; P] = (∑ j, x r j ^ 2) / nI := by
  obtain ⟨y, h1, h2⟩ := C104_forward_partial sch rng S P h nO nI n hI W b hWb train X x hX
  refine ⟨y, h1, fun r c => ⟨(h2 r c).1, ?_⟩⟩
  rw [(h2 r c).2]
  rcases hs with rfl | rfl <;> simp only [Scheme.variance] <;> ring

/-- C104: the callback of a new linear layer returns gradients with mean zero, and their variance is that of the scheme times the sum
of the squares of the gradients of the outputs. -/
theorem C104_backward (sch : Scheme) (rng : Rng σ) (S : Ω → σ) (P : Measure Ω) (h : GoodRng rng S P) (nO nI n : ℕ) (hI : 0 < nI)
    (W b : ℕ) (hWb : W ≠ b) (train : Bool) (X dY : Mat ℝ) (x : Fin n → Fin nI → ℝ) (hX : IsMat X x) (dy : Fin n → Fin nO → ℝ)
    (hdY : IsMat dY dy) :
    ∃ dx : Ω → Fin n → Fin nI → ℝ,
      (∀ ω, ∃ p s' Y callback dX G, denseParams (sch.run rng) nO nI (S ω) = .ok (p, s') ∧
        linear W b train (twoParams W b p) (.arr X) = .ok (Y, callback) ∧
        callback (.arr dY) (fun _ => none) = .ok (.arr dX, G) ∧ IsMat dX (dx ω)) ∧
      ∀ r j, ∫ ω, dx ω r j ∂P = 0 ∧ Var[fun ω => dx ω r j; P] = sch.variance nO nI * ∑ c, dy r c ^ 2 := by
  obtain ⟨law, hc, hi, hl⟩ := scheme_centered sch rng S P h (sch.variance nO nI) (variance_nonneg' sch nO nI)
  refine ⟨fun ω r j => ∑ c, dy r c * sch.weight (sch.variance nO nI) (nthDraw (sch.next rng) (c * nI + j) (S ω)), fun ω => ?_, ?_⟩
  · obtain ⟨p, s', e, hW, hb⟩ := denseParams_ok sch rng nO nI hI (S ω)
    obtain ⟨Y, Z, e1, e2, hZ⟩ := affine_ok hX hW hb
    obtain ⟨dW, eW, hdW⟩ := hdY.gemm_tn hX
    obtain ⟨dX, eX, hdX⟩ := hdY.gemm_nn hW
    have : linear W b train (twoParams W b p) (.arr X) = .ok (.arr Z, fun dY G => do
        let dY ← dY.asArr
        let G ← incGrad G b dY.colSums
        let G ← incGrad G W (← gemm dY X true false)
        return (.arr (← gemm dY (twoParams W b p W) false false), G)) := by
      simp only [linear, Val.asArr, bind, Except.bind, twoParams, if_true, if_neg (Ne.symm hWb), e1, e2, pure, Except.pure]
    refine ⟨p, s', .arr Z, _, dX, fun q => if q = W then some dW else if q = b then some dY.colSums else none, e, this, ?_, hdX⟩
    simp only [Val.asArr, bind, Except.bind, incGrad, if_neg hWb, eW, twoParams, if_true, eX, pure, Except.pure]
  · intro r j
    exact weighted_sum hc hi hl (fun c => c * nI + j) (fun i c hij => by
      simp only [Nat.add_right_cancel_iff] at hij
      exact Fin.ext (Nat.eq_of_mul_eq_mul_right hI hij)) (dy r)

/-- C104 for He initialization: the mean of the square of an output of a new ReLU layer is the mean of the squares of the inputs. -/
theorem C104_he_relu (sch : Scheme) (hs : sch = .heNormal ∨ sch = .heUniform) (rng : Rng σ) (S : Ω → σ) (P : Measure Ω)
    (h : GoodRng rng S P) (nO nI n : ℕ) (hI : 0 < nI) (W b : ℕ) (hWb : W ≠ b) (train : Bool) (X : Mat ℝ) (x : Fin n → Fin nI → ℝ)
    (hX : IsMat X x) :
    ∃ y : Ω → Fin n → Fin nO → ℝ,
      (∀ ω, ∃ p s' Y callback, denseParams (sch.run rng) nO nI (S ω) = .ok (p, s') ∧
        reluLayer W b train (twoParams W b p) (.arr X) = .ok (.arr Y, callback) ∧ IsMat Y (y ω)) ∧
      ∀ r c, ∫ ω, y ω r c ^ 2 ∂P = (∑ j, x r j ^ 2) / nI := by
  obtain ⟨law, hc, hi, hl⟩ := scheme_centered sch rng S P h (sch.variance nO nI) (variance_nonneg' sch nO nI)
  refine ⟨fun ω r c => max (∑ j, x r j * sch.weight (sch.variance nO nI) (nthDraw (sch.next rng) (c * nI + j) (S ω))) 0,
    fun ω => ?_, ?_⟩
  · obtain ⟨p, s', e, hW, hb⟩ := denseParams_ok sch rng nO nI hI (S ω)
    obtain ⟨Y, Z, e1, e2, hZ⟩ := affine_ok hX hW hb
    refine ⟨p, s', Z.lift cpuRelu, ?_⟩
    have e3 : opsAffine X (twoParams W b p W) (twoParams W b p b) = .ok Z := by
      simp only [opsAffine, bind, Except.bind, twoParams, if_true, if_neg (Ne.symm hWb), e1, e2]
    have hr := hZ.lift (act := cpuRelu) (a := fun v => max v 0) (fun X i => by
      simp only [cpuRelu]
      split
      · rename_i h; rw [max_eq_right h]
      · rename_i h; rw [max_eq_left (not_le.1 h).le])
    simp only [reluLayer, dense, Val.asArr, bind, Except.bind, e3, pure, Except.pure]
    exact ⟨_, e, rfl, hr⟩
  · intro r c
    have hP : IsProbabilityMeasure P := hi.isProbabilityMeasure
    obtain ⟨h1, h2⟩ := weighted_sum hc hi hl (fun j : Fin nI => c * nI + j) (fun i j hij => by
      simp only [Nat.add_left_cancel_iff] at hij
      exact Fin.ext hij) (x r)
    have h3 := weighted_symm hc hi hl (fun j : Fin nI => c * nI + j) (x r)
    have hL : MemLp (fun ω => ∑ j : Fin nI, x r j * sch.weight (sch.variance nO nI) (nthDraw (sch.next rng) (c * nI + j) (S ω))) 2 P :=
      memLp_finset_sum _ fun j _ => (hc.memLp_of (hl _)).const_mul _
    rw [relu_half h3 hL h1, h2]
    rcases hs with rfl | rfl <;> simp only [Scheme.variance] <;> ring

/-- C104 fails for `Maxout`: its weights have three axes, and the number of pieces is taken for the number of inputs.  With LeCun
initialization the variance is the sum of the squares of the inputs, divided by the number of pieces. -/
theorem C104_maxout_violated (sch : Scheme) (rng : Rng σ) (S : Ω → σ) (P : Measure Ω) (h : GoodRng rng S P) (nO nP nI n : ℕ)
    (hp : 0 < nP) (X : Mat ℝ) (x : Fin n → Fin nI → ℝ) (hX : IsMat X x) :
    ∃ y : Ω → Fin n → Fin (nO * nP) → ℝ,
      (∀ ω, ∃ p s' Y Z, maxoutParams (sch.run rng) nO nP nI (S ω) = .ok (p, s') ∧
        gemm X p.1 false true = .ok Y ∧ addBias Y p.2 = .ok Z ∧ IsMat Z (y ω)) ∧
      ∀ r c, ∫ ω, y ω r c ∂P = 0 ∧ Var[fun ω => y ω r c; P] = sch.variance nO nP * ∑ j, x r j ^ 2 := by
  obtain ⟨law, hc, hi, hl⟩ := scheme_centered sch rng S P h (sch.variance nO nP) (variance_nonneg' sch nO nP)
  refine ⟨fun ω r c => ∑ j, x r j * sch.weight (sch.variance nO nP) (nthDraw (sch.next rng) (c * nI + j) (S ω)), fun ω => ?_, ?_⟩
  · obtain ⟨p, s', e, hW, hb⟩ := maxoutParams_ok sch rng nO nP nI hp (S ω)
    obtain ⟨Y, Z, e1, e2, hZ⟩ := affine_ok hX hW hb
    exact ⟨p, s', Y, Z, e, e1, e2, hZ⟩
  · intro r c
    exact weighted_sum hc hi hl (fun j => c * nI + j) (fun i j hij => by
      simp only [Nat.add_left_cancel_iff] at hij
      exact Fin.ext hij) (x r)

/-! ### The hypotheses can be met -/

namespace InitCase

/-- A generator that reads prepared draws: one sequence of each kind. -/
def rng : Rng ((ℕ → ℝ) × (ℕ → ℝ)) where
  uniform s := (s.1 0, (fun k => s.1 (k + 1), s.2))
  normal s := (s.2 0, (s.1, fun k => s.2 (k + 1)))

theorem uniform_nth (k : ℕ) (s : (ℕ → ℝ) × (ℕ → ℝ)) : nthDraw rng.uniform k s = s.1 k := by
  induction k generalizing s with
  | zero => rfl
  | succ k ih => exact ih _

theorem normal_nth (k : ℕ) (s : (ℕ → ℝ) × (ℕ → ℝ)) : nthDraw rng.normal k s = s.2 k := by
  induction k generalizing s with
  | zero => rfl
  | succ k ih => exact ih _

instance : IsProbabilityMeasure (volume.restrict (Set.Ico (0 : ℝ) 1)) := uniform_isProb

/-- All prepared draws are independent. -/
noncomputable def draws : Measure ((ℕ → ℝ) × (ℕ → ℝ)) :=
  (Measure.infinitePi fun _ => volume.restrict (Set.Ico (0 : ℝ) 1)).prod (Measure.infinitePi fun _ => gaussianReal 0 1)

theorem good : GoodRng rng id draws := by
  have hfst : HasLaw (Prod.fst : (ℕ → ℝ) × (ℕ → ℝ) → ℕ → ℝ) (Measure.infinitePi fun _ => volume.restrict (Set.Ico (0 : ℝ) 1)) draws :=
    ⟨by fun_prop, by rw [draws]; exact Measure.map_fst_prod.trans (by simp)⟩
  have hsnd : HasLaw (Prod.snd : (ℕ → ℝ) × (ℕ → ℝ) → ℕ → ℝ) (Measure.infinitePi fun _ => gaussianReal 0 1) draws :=
    ⟨by fun_prop, by rw [draws]; exact Measure.map_snd_prod.trans (by simp)⟩
  have hprob : IsProbabilityMeasure draws := by rw [draws]; infer_instance
  have key : ∀ (law : Measure ℝ) [IsProbabilityMeasure law] (f : (ℕ → ℝ) × (ℕ → ℝ) → ℕ → ℝ),
      HasLaw f (Measure.infinitePi fun _ => law) draws →
      iIndepFun (fun k ω => f ω k) draws ∧ ∀ k, HasLaw (fun ω => f ω k) law draws := by
    intro law _ f hf
    have hk : ∀ k, HasLaw (fun ω => f ω k) law draws := fun k =>
      HasLaw.comp (Y := fun g : ℕ → ℝ => g k) ⟨(measurable_pi_apply k).aemeasurable, Measure.infinitePi_map_eval _ k⟩ hf
    exact ⟨(iIndepFun_iff_hasLaw_Pi_infinitePi hk hf.aemeasurable).2 hf, hk⟩
  refine ⟨⟨?_, ?_⟩, ⟨?_, ?_⟩⟩
  · simpa only [uniform_nth, id] using (key _ _ hfst).1
  · simpa only [uniform_nth, id] using (key _ _ hfst).2
  · simpa only [normal_nth, id] using (key _ _ hsnd).1
  · simpa only [normal_nth, id] using (key _ _ hsnd).2

/-- A linear layer with three inputs 1, 2, 3: LeCun initialization gives outputs of variance 14/3. -/
example : ∃ y : ((ℕ → ℝ) × (ℕ → ℝ)) → Fin 1 → Fin 2 → ℝ,
    (∀ ω, ∃ p s' Y callback, denseParams (lecunUniformInit rng) 2 3 ω = .ok (p, s') ∧
      linear 0 1 true (twoParams 0 1 p) (.arr ⟨1, 3, fun k => k + 1⟩) = .ok (.arr Y, callback) ∧ IsMat Y (y ω)) ∧
    ∀ r c, ∫ ω, y ω r c ∂draws = 0 ∧ Var[fun ω => y ω r c; draws] = 14 / 3 := by
  obtain ⟨y, h1, h2⟩ := C104_lecun .lecunUniform (Or.inr rfl) rng id draws good 2 3 1 (by norm_num) 0 1 (by norm_num) true
    ⟨1, 3, fun k => k + 1⟩ (fun _ j => j + 1) ⟨rfl, rfl, fun i j => by simp [Mat.at, Fin.fin_one_eq_zero]⟩
  refine ⟨y, h1, fun r c => ⟨(h2 r c).1, ?_⟩⟩
  rw [(h2 r c).2]
  simp [Fin.sum_univ_three]
  norm_num

end InitCase

end Thinc
