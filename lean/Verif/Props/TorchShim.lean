import Verif.Spec.TorchShim
import Mathlib.Tactic.Ring
import Mathlib.Tactic.NormNum
import Mathlib.Tactic.FieldSimp
import Mathlib.Tactic.Linarith
import Mathlib.Tactic.Conv
/-!
# C92: training a wrapped PyTorch model
-/
namespace Thinc.Torch

/-! ## Entrywise arithmetic -/

theorem mulScalar_fin (s : ℝ) (g : List ℝ) : mulScalar s (fin g) = fin (scaleV s g) := by
  simp only [mulScalar, fin, scaleV, List.map_map]
  rfl

theorem addTensor_fin (a b : List ℝ) : addTensor (fin a) (fin b) = fin (addV a b) := by
  induction a generalizing b with
  | nil => rfl
  | cons x a ih =>
    cases b with
    | nil => rfl
    | cons y b =>
      have := ih b
      simp only [addTensor, fin, addV, List.map_cons, List.zipWith_cons_cons, addEntry] at this ⊢
      rw [this]

theorem allFinite_fin (g : List ℝ) : allFinite (fin g) = true := by
  simp [allFinite, fin]

theorem zeroTensor_fin (g : List ℝ) : zeroTensor (fin g) = fin (List.replicate g.length 0) := by
  induction g with
  | nil => rfl
  | cons x g ih =>
    simp only [zeroTensor, fin, List.map_cons, List.length_cons, List.replicate_succ] at ih ⊢
    rw [ih]

theorem scaleV_scaleV (r s : ℝ) (a : List ℝ) : scaleV r (scaleV s a) = scaleV (r * s) a := by
  simp only [scaleV, List.map_map]
  apply List.map_congr_left
  intro x _
  simp only [Function.comp]
  ring

theorem scaleV_one (a : List ℝ) : scaleV 1 a = a := by
  simp [scaleV]

theorem scaleV_addV (r : ℝ) (a b : List ℝ) : scaleV r (addV a b) = addV (scaleV r a) (scaleV r b) := by
  induction a generalizing b with
  | nil => rfl
  | cons x a ih =>
    cases b with
    | nil => rfl
    | cons y b =>
      have := ih b
      simp only [scaleV, addV, List.zipWith_cons_cons, List.map_cons] at this ⊢
      rw [this, mul_add]

theorem addV_zero (n : Nat) (b : List ℝ) (h : b.length = n) : addV (List.replicate n 0) b = b := by
  induction b generalizing n with
  | nil => subst h; rfl
  | cons y b ih =>
    subst h
    simp only [List.length_cons, List.replicate_succ, addV, List.zipWith_cons_cons, zero_add]
    congr 1
    exact ih _ rfl

theorem scaleV_zeros (r : ℝ) (n : Nat) : scaleV r (List.replicate n 0) = List.replicate n 0 := by
  simp [scaleV]

theorem addV_length (a b : List ℝ) (h : b.length = a.length) : (addV a b).length = a.length := by
  simp [addV, h]

theorem scaleV_length (r : ℝ) (a : List ℝ) : (scaleV r a).length = a.length := by
  simp [scaleV]

/-! ## Scaling and unscaling -/

theorem mulScalar_inv (s : ℝ) (hs : s ≠ 0) (t : Tensor) : mulScalar s⁻¹ (mulScalar s t) = t := by
  simp only [mulScalar, List.map_map]
  conv_rhs => rw [← List.map_id t]
  refine List.map_congr_left fun x _ => ?_
  cases x with
  | none => rfl
  | some x =>
    simp only [Function.comp, Option.map_some, id]
    rw [← mul_assoc, inv_mul_cancel₀ hs, one_mul]

theorem scaleItems_eq (s : Scaler) (items : List (Bool × Tensor)) (h : ∀ p ∈ items, p.1 = true) :
    s.scaleItems true (items.map some) = .ok (items.map fun p => mulScalar s.scale p.2) := by
  induction items with
  | nil => rfl
  | cons p items ih =>
    obtain ⟨c, t⟩ := p
    have hc : c = true := h (c, t) (by simp)
    subst hc
    simp only [List.map_cons, Scaler.scaleItems, Scaler.scaleTensor, Bool.not_true, Bool.false_eq_true, if_false, bind, Except.bind,
      ih fun q hq => h q (by simp [hq])]

/-- **C92.**  Unscaling undoes scaling: tensors on a CUDA device come back as they were, whether or not the scaler is enabled, and the
scaler notes whether one of them was not finite. -/
theorem C92_unscale_scale (s : Scaler) (hs : s.scale ≠ 0) (items : List (Bool × Tensor)) (h : ∀ p ∈ items, p.1 = true) :
    ∃ ts, s.scaleUp true (.iterable (items.map some)) = .ok ts ∧ (s.unscale ts).2 = items.map (·.2) ∧
      (s.unscale ts).1.unscaleResult = (s.enabled && (s.foundInf || items.any fun p => !allFinite p.2)) := by
  cases he : s.enabled with
  | false =>
    refine ⟨items.map (·.2), ?_, ?_, ?_⟩
    · simp [Scaler.scaleUp, he, ScaleArg.tensors, List.filterMap_map]
    · simp [Scaler.unscale, he]
    · simp [Scaler.unscale, he, Scaler.unscaleResult]
  | true =>
    refine ⟨items.map fun p => mulScalar s.scale p.2, ?_, ?_, ?_⟩
    · simp only [Scaler.scaleUp, he, Bool.not_true, Bool.false_eq_true, if_false]
      exact scaleItems_eq s items h
    · simp only [Scaler.unscale, he, Bool.not_true, Bool.false_eq_true, if_false, List.map_map]
      refine List.map_congr_left fun p _ => ?_
      exact mulScalar_inv _ hs _
    · have hf : ∀ t, allFinite (mulScalar s.scale t) = allFinite t := fun t => by
        simp [allFinite, mulScalar, List.all_map, Function.comp_def]
      simp only [Scaler.unscale, he, Bool.not_true, Bool.false_eq_true, if_false, Scaler.unscaleResult, Bool.true_and]
      congr 1
      rw [List.all_map, List.not_all_eq_any_not]
      simp only [Function.comp_def, hf]

/-- The gradients of `backprop` are what `unscale` leaves. -/
theorem unscaleGrads_eq (s : Scaler) (ts : List Tensor) : unscaleGrads s (ts.map some) = (s.unscale ts).2.map some := by
  unfold unscaleGrads Scaler.unscale
  cases s.enabled <;> simp

example : ∃ ts, (Scaler.init true).scaleUp true (.iterable ([(true, fin [1, 2]), (true, [none])].map some)) = .ok ts ∧
    ((Scaler.init true).unscale ts).1.unscaleResult = true := by
  obtain ⟨ts, h1, -, h3⟩ := C92_unscale_scale (Scaler.init true) (by norm_num [Scaler.init]) [(true, fin [1, 2]), (true, [none])] (by simp)
  exact ⟨ts, h1, h3.trans (by simp [Scaler.init, allFinite])⟩

/-! ## One backward pass -/

/-- The gradient a parameter holds after one more batch. -/
noncomputable def mix (r : ℝ) (acc : Option (List ℝ)) (g : List ℝ) : List ℝ :=
  match acc with
  | none => g
  | some a => addV (scaleV r a) g

theorem accumulate_mix (s : ℝ) (hs : s ≠ 0) (acc : Option (List ℝ)) (g : List ℝ) :
    (accumulate (acc.map fin) (some (fin (scaleV s g)))).map (mulScalar s⁻¹) = some (fin (mix s⁻¹ acc g)) := by
  cases acc with
  | none =>
    simp only [Option.map_none, accumulate, Option.map_some, mulScalar_fin, scaleV_scaleV, inv_mul_cancel₀ hs,
      scaleV_one, mix]
  | some a =>
    simp only [Option.map_some, accumulate, addTensor_fin, mulScalar_fin, scaleV_addV, scaleV_scaleV,
      inv_mul_cancel₀ hs, scaleV_one, mix]

theorem accumulate_finite (s : ℝ) (acc : Option (List ℝ)) (g : List ℝ) :
    ∃ t, accumulate (acc.map fin) (some (fin (scaleV s g))) = some (fin t) := by
  cases acc with
  | none => exact ⟨_, rfl⟩
  | some a => exact ⟨addV a (scaleV s g), by simp only [Option.map_some, accumulate, addTensor_fin]⟩

/-- Parameters, gradients `acc` and a scaler without overflow. -/
def Holds (sh : Shim) (acc : Nat → Option (List ℝ)) : Prop :=
  ∀ i (hi : i < sh.params.length), sh.params[i].grad = (acc i).map fin

theorem backprop_exact (sh : Shim) (hasAmp : Bool) (b : Batch) (acc : Nat → Option (List ℝ))
    (hs : 0 < sh.scaler.scale) (hf : sh.scaler.foundInf = false) (h : Holds sh acc)
    (hb : b.Exact sh.scaler hasAmp sh.params.length) :
    ∃ sh', sh.backprop hasAmp b.auto b.dY = .ok (sh', b.dX.map (fun g => some (fin g))) ∧
      sh'.id = sh.id ∧ sh'.scaler = sh.scaler ∧ sh'.params.map (·.name) = sh.params.map (·.name) ∧
      sh'.params.map (·.data) = sh.params.map (·.data) ∧
      Holds sh' (fun i => some (mix (sh.scaler.factor)⁻¹ (acc i) (b.grad i))) := by
  obtain ⟨ts, h1, h2⟩ := hb
  have hfac : sh.scaler.factor ≠ 0 := by
    simp only [Scaler.factor]
    split
    · exact ne_of_gt hs
    · exact one_ne_zero
  -- the raw gradients of the parameters
  have hraw : List.zipWith accumulate (sh.params.map (·.grad))
      ((List.range sh.params.length).map (fun i => some (fin (scaleV sh.scaler.factor (b.grad i))))) =
      (List.range sh.params.length).map (fun i =>
        accumulate ((acc i).map fin) (some (fin (scaleV sh.scaler.factor (b.grad i))))) := by
    apply List.ext_getElem
    · simp
    · intro i hi1 hi2
      have hi : i < sh.params.length := by simpa using hi2
      simp only [List.getElem_zipWith, List.getElem_map, List.getElem_range]
      rw [h i hi]
  have hun : unscaleGrads sh.scaler ((List.range sh.params.length).map (fun i =>
      accumulate ((acc i).map fin) (some (fin (scaleV sh.scaler.factor (b.grad i)))))) =
      (List.range sh.params.length).map (fun i =>
        some (fin (mix (sh.scaler.factor)⁻¹ (acc i) (b.grad i)))) := by
    by_cases he : sh.scaler.enabled = true
    · have hfe : sh.scaler.factor = sh.scaler.scale := by simp only [Scaler.factor, he, if_true]
      simp only [unscaleGrads, he, Bool.not_true, Bool.false_eq_true, if_false, List.map_map]
      apply List.map_congr_left
      intro i _
      simp only [Function.comp]
      rw [hfe] at hfac ⊢
      exact accumulate_mix _ hfac _ _
    · have he' : sh.scaler.enabled = false := by simpa using he
      have hfe : sh.scaler.factor = 1 := by simp only [Scaler.factor, he', Bool.false_eq_true, if_false]
      simp only [unscaleGrads, he', Bool.not_false, if_true, hfe, inv_one, scaleV_one]
      apply List.map_congr_left
      intro i _
      cases acc i with
      | none => rfl
      | some a => simp only [Option.map_some, accumulate, addTensor_fin, mix, scaleV_one]
  have hunx : unscaleGrads sh.scaler (b.dX.map (fun g => some (fin (scaleV sh.scaler.factor g)))) =
      b.dX.map (fun g => some (fin g)) := by
    by_cases he : sh.scaler.enabled = true
    · have hfe : sh.scaler.factor = sh.scaler.scale := by simp only [Scaler.factor, he, if_true]
      simp only [unscaleGrads, he, Bool.not_true, Bool.false_eq_true, if_false, List.map_map]
      apply List.map_congr_left
      intro g _
      rw [hfe] at hfac ⊢
      simp only [Function.comp, Option.map_some, mulScalar_fin, scaleV_scaleV, inv_mul_cancel₀ hfac, scaleV_one]
    · have he' : sh.scaler.enabled = false := by simpa using he
      have hfe : sh.scaler.factor = 1 := by simp only [Scaler.factor, he', Bool.false_eq_true, if_false]
      simp only [unscaleGrads, he', Bool.not_false, if_true, hfe, scaleV_one]
  have hfin : (((List.range sh.params.length).map (fun i =>
      accumulate ((acc i).map fin) (some (fin (scaleV sh.scaler.factor (b.grad i)))))) ++
      b.dX.map (fun g => some (fin (scaleV sh.scaler.factor g)))).filterMap (fun g => g) |>.all allFinite := by
    rw [List.all_eq_true]
    intro t ht
    obtain ⟨a, ha, rfl⟩ := List.mem_filterMap.mp ht
    rcases List.mem_append.mp ha with ha | ha
    · obtain ⟨i, _, hi⟩ := List.mem_map.mp ha
      obtain ⟨t', ht'⟩ := accumulate_finite sh.scaler.factor (acc i) (b.grad i)
      rw [ht'] at hi
      obtain rfl := Option.some.inj hi
      exact allFinite_fin _
    · obtain ⟨g, _, hg⟩ := List.mem_map.mp ha
      obtain rfl := Option.some.inj hg
      exact allFinite_fin _
  have hsc : (sh.scaler.unscale ((((List.range sh.params.length).map (fun i =>
      accumulate ((acc i).map fin) (some (fin (scaleV sh.scaler.factor (b.grad i)))))) ++
      b.dX.map (fun g => some (fin (scaleV sh.scaler.factor g)))).filterMap (fun g => g))).1 = sh.scaler := by
    simp only [Scaler.unscale]
    split
    · rfl
    · rw [hfin, hf]
      simp only [Bool.not_true, Bool.or_false]
      rw [← hf]
  refine ⟨⟨sh.id, setGrads sh.params ((List.range sh.params.length).map (fun i =>
        some (fin (mix (sh.scaler.factor)⁻¹ (acc i) (b.grad i))))), sh.scaler⟩, ?_, rfl, rfl, ?_, ?_, ?_⟩
  · simp only [Shim.backprop, h1, bind, Except.bind, h2, hraw, hun, hunx, hsc]
    have hr : sh.scaler.unscaleResult = false := by simp only [Scaler.unscaleResult, hf, Bool.and_false]
    simp only [hr, inputGrads, Bool.false_eq_true, if_false]
  · apply List.ext_getElem
    · simp [setGrads]
    · intro i hi1 hi2
      simp [setGrads]
  · apply List.ext_getElem
    · simp [setGrads]
    · intro i hi1 hi2
      simp [setGrads]
  · intro i hi
    simp [setGrads]

/-! ## Several backward passes -/

theorem backprops_exact (hasAmp : Bool) (bs : List Batch) (sh : Shim) (acc : Nat → Option (List ℝ))
    (hs : 0 < sh.scaler.scale) (hf : sh.scaler.foundInf = false) (h : Holds sh acc)
    (hb : ∀ b ∈ bs, b.Exact sh.scaler hasAmp sh.params.length) :
    ∃ sh', backprops hasAmp bs sh = .ok sh' ∧ sh'.id = sh.id ∧ sh'.scaler = sh.scaler ∧
      sh'.params.map (·.name) = sh.params.map (·.name) ∧ sh'.params.map (·.data) = sh.params.map (·.data) ∧
      Holds sh' (fun i => bs.foldl (fun acc b => some (mix (sh.scaler.factor)⁻¹ acc (b.grad i))) (acc i)) := by
  induction bs generalizing sh acc with
  | nil => exact ⟨sh, rfl, rfl, rfl, rfl, rfl, h⟩
  | cons b bs ih =>
    obtain ⟨sh1, a1, a2, a3, a4, a5, a6⟩ := backprop_exact sh hasAmp b acc hs hf h (hb b (by simp))
    have hlen : sh1.params.length = sh.params.length := by
      have := congrArg List.length a4
      simpa using this
    obtain ⟨sh2, b1, b2, b3, b4, b5, b6⟩ := ih sh1 _ (by rw [a3]; exact hs) (by rw [a3]; exact hf) a6
      (fun b' hb' => by rw [a3, hlen]; exact hb b' (by simp [hb']))
    refine ⟨sh2, ?_, by rw [b2, a2], by rw [b3, a3], by rw [b4, a4], by rw [b5, a5], ?_⟩
    · simp only [backprops, a1, bind, Except.bind]
      exact b1
    · rw [a3] at b6
      exact b6

/-! ## The update -/

theorem finishParams_step {σ : Type} (opt : OptStep σ) (id : Nat) (st : σ) (ps : List Param) (gs : List Tensor)
    (hg : ps.map (·.grad) = gs.map some) :
    (finishParams opt id false st ps).1 = (stepAll opt id st (ps.zip gs |>.map (fun q => (q.1.name, q.1.data, q.2)))).1 ∧
    (finishParams opt id false st ps).2.map (·.data) =
      (stepAll opt id st (ps.zip gs |>.map (fun q => (q.1.name, q.1.data, q.2)))).2 ∧
    (finishParams opt id false st ps).2.map (·.grad) = gs.map (fun g => some (zeroTensor g)) ∧
    (finishParams opt id false st ps).2.map (·.name) = ps.map (·.name) := by
  induction ps generalizing st gs with
  | nil =>
    cases gs with
    | nil => exact ⟨rfl, rfl, rfl, rfl⟩
    | cons g gs => simp at hg
  | cons p ps ih =>
    cases gs with
    | nil => simp at hg
    | cons g gs =>
      simp only [List.map_cons, List.cons.injEq] at hg
      obtain ⟨h1, h2⟩ := hg
      obtain ⟨i1, i2, i3, i4⟩ := ih (opt st (id, p.name) p.data g).1 gs h2
      simp only [finishParams, finishParam, h1, Bool.false_eq_true, if_false, List.zip_cons_cons, List.map_cons,
        stepAll]
      exact ⟨i1, by rw [i2], by rw [i3], by rw [i4]⟩

theorem finishParams_skip {σ : Type} (opt : OptStep σ) (id : Nat) (st : σ) (ps : List Param) :
    finishParams opt id true st ps = (st, ps.map (fun p => { p with grad := p.grad.map zeroTensor })) := by
  induction ps generalizing st with
  | nil => rfl
  | cons p ps ih =>
    have h : finishParam opt id true st p = (st, { p with grad := p.grad.map zeroTensor }) := by
      unfold finishParam
      cases hp : p.grad with
      | none =>
        obtain ⟨pn, pd, pg⟩ := p
        simp only at hp
        subst hp
        rfl
      | some g => rfl
    simp only [finishParams, h, ih, List.map_cons]

/-- What is common to the theorems below: after the batches the optimizer is applied once to every
parameter, in order, with the accumulated gradient; the gradients are zero again. -/
theorem finish_of_holds {σ : Type} (sh : Shim) (opt : OptStep σ) (st : σ) (g : Nat → List ℝ)
    (hf : sh.scaler.foundInf = false) (h : Holds sh (fun i => some (g i))) :
    ((sh.finishUpdate opt st).1.params.map (·.data), (sh.finishUpdate opt st).2) =
      ((stepAll opt sh.id st ((List.range sh.params.length).map (fun i =>
        ((sh.params.map (·.name)).getD i 0, (sh.params.map (·.data)).getD i [], fin (g i))))).2,
       (stepAll opt sh.id st ((List.range sh.params.length).map (fun i =>
        ((sh.params.map (·.name)).getD i 0, (sh.params.map (·.data)).getD i [], fin (g i))))).1) ∧
    (sh.finishUpdate opt st).1.params.map (·.grad) =
      (List.range sh.params.length).map (fun i => some (fin (List.replicate (g i).length 0))) := by
  have hg : sh.params.map (·.grad) = ((List.range sh.params.length).map (fun i => fin (g i))).map some := by
    apply List.ext_getElem
    · simp
    · intro i hi1 hi2
      simp only [List.getElem_map, List.getElem_range]
      exact h i (by simpa using hi1)
  obtain ⟨h1, h2, h3, h4⟩ := finishParams_step opt sh.id st sh.params _ hg
  have hz : (sh.params.zip ((List.range sh.params.length).map (fun i => fin (g i)))).map
      (fun q => (q.1.name, q.1.data, q.2)) = (List.range sh.params.length).map (fun i =>
        ((sh.params.map (·.name)).getD i 0, (sh.params.map (·.data)).getD i [], fin (g i))) := by
    apply List.ext_getElem
    · simp
    · intro i hi1 hi2
      have hi : i < sh.params.length := by simpa using hi2
      simp [List.getD, hi]
  rw [hz] at h1 h2
  refine ⟨?_, ?_⟩
  · simp only [Shim.finishUpdate, hf]
    rw [h1, h2]
  · simp only [Shim.finishUpdate, hf]
    rw [h3, List.map_map]
    apply List.map_congr_left
    intro i _
    simp only [Function.comp, zeroTensor_fin]

theorem foldl_mix_clean (r : ℝ) (b : Batch) (bs : List Batch) (i len : Nat) (acc : Option (List ℝ))
    (hacc : acc = none ∨ acc = some (List.replicate len 0)) (hl : ∀ b' ∈ b :: bs, (b'.grad i).length = len)
    (hr : r = 1 ∨ bs = []) :
    (b :: bs).foldl (fun acc b => some (mix r acc (b.grad i))) acc = some (totalGrad (b :: bs) i len) := by
  have hfirst : mix r acc (b.grad i) = addV (List.replicate len 0) (b.grad i) := by
    rw [addV_zero len _ (hl b (by simp))]
    rcases hacc with rfl | rfl
    · rfl
    · simp only [mix, scaleV_zeros]
      exact addV_zero len _ (hl b (by simp))
  have hgen : ∀ (bs : List Batch) (a : List ℝ), (r = 1 ∨ bs = []) →
      bs.foldl (fun acc b => some (mix r acc (b.grad i))) (some a) =
        some (bs.foldl (fun acc b => addV acc (b.grad i)) a) := by
    intro bs
    induction bs with
    | nil => intro a _; rfl
    | cons c cs ih =>
      intro a hr
      have hr1 : r = 1 := by
        rcases hr with h | h
        · exact h
        · simp at h
      simp only [List.foldl_cons]
      rw [ih _ (.inl hr1), hr1]
      simp only [mix, scaleV_one]
  simp only [List.foldl_cons, totalGrad]
  rw [hfirst]
  exact hgen bs _ hr

theorem clean_holds (sh : Shim) (len : Nat → Nat) (hc : sh.Clean len) :
    ∃ acc, Holds sh acc ∧ ∀ i, acc i = none ∨ acc i = some (List.replicate (len i) 0) := by
  refine ⟨fun i => if ∃ (hi : i < sh.params.length), sh.params[i].grad ≠ none then some (List.replicate (len i) 0)
    else none, ?_, ?_⟩
  · intro i hi
    simp only
    rcases hc.2.2 i hi with h | h
    · rw [if_neg]
      · rw [h]; rfl
      · rintro ⟨_, h'⟩
        exact h' h
    · rw [if_pos ⟨hi, by rw [h]; simp⟩, h]
      rfl
  · intro i
    simp only
    split
    · exact .inr rfl
    · exact .inl rfl

/-- C92, the part that holds.  Between two updates, either with the scaler off and any number of
batches, or with one batch: the update applies the optimizer once to every parameter, in order,
with the sum of the true gradients of the batches, and leaves the shim clean for the next. -/
theorem C92_update_partial {σ : Type} (sh : Shim) (hasAmp : Bool) (b : Batch) (bs : List Batch) (len : Nat → Nat)
    (opt : OptStep σ) (st : σ) (hc : sh.Clean len)
    (hb : ∀ b' ∈ b :: bs, b'.Exact sh.scaler hasAmp sh.params.length)
    (hl : ∀ b' ∈ b :: bs, ∀ i, (b'.grad i).length = len i)
    (hmode : sh.scaler.enabled = false ∨ bs = []) :
    ∃ sh', backprops hasAmp (b :: bs) sh = .ok sh' ∧
      ((sh'.finishUpdate opt st).1.params.map (·.data), (sh'.finishUpdate opt st).2) =
        ((stepAll opt sh.id st ((List.range sh.params.length).map (fun i =>
          ((sh.params.map (·.name)).getD i 0, (sh.params.map (·.data)).getD i [],
            fin (totalGrad (b :: bs) i (len i)))))).2,
         (stepAll opt sh.id st ((List.range sh.params.length).map (fun i =>
          ((sh.params.map (·.name)).getD i 0, (sh.params.map (·.data)).getD i [],
            fin (totalGrad (b :: bs) i (len i)))))).1) ∧
      (sh'.finishUpdate opt st).1.params.map (·.grad) =
        (List.range sh.params.length).map (fun i => some (fin (List.replicate (len i) 0))) := by
  obtain ⟨acc, h1, h2⟩ := clean_holds sh len hc
  obtain ⟨sh', a1, a2, a3, a4, a5, a6⟩ := backprops_exact hasAmp (b :: bs) sh acc hc.2.1 hc.1 h1 hb
  have hr : (sh.scaler.factor)⁻¹ = 1 ∨ bs = [] := by
    rcases hmode with h | h
    · left
      simp only [Scaler.factor, h, Bool.false_eq_true, if_false, inv_one]
    · exact .inr h
  have hh : Holds sh' (fun i => some (totalGrad (b :: bs) i (len i))) := by
    intro i hi
    rw [a6 i hi]
    simp only
    rw [foldl_mix_clean _ b bs i (len i) (acc i) (h2 i) (fun b' hb' => hl b' hb' i) hr]
  have hlen : sh'.params.length = sh.params.length := by
    have := congrArg List.length a4
    simpa using this
  obtain ⟨f1, f2⟩ := finish_of_holds sh' opt st _ (by rw [a3]; exact hc.1) hh
  refine ⟨sh', a1, ?_, ?_⟩
  · rw [f1, a2, a4, a5, hlen]
  · rw [f2, hlen]
    apply List.map_congr_left
    intro i _
    congr 2
    have : ∀ (bs : List Batch) (a : List ℝ), a.length = len i → (∀ b' ∈ bs, (b'.grad i).length = len i) →
        (bs.foldl (fun acc b => addV acc (b.grad i)) a).length = len i := by
      intro bs
      induction bs with
      | nil => intro a ha _; exact ha
      | cons c cs ih =>
        intro a ha hcs
        simp only [List.foldl_cons]
        apply ih
        · rw [addV_length _ _ (by rw [ha]; exact hcs c (by simp)), ha]
        · intro b' hb'
          exact hcs b' (by simp [hb'])
    rw [totalGrad, this (b :: bs) _ (by simp) (fun b' hb' => hl b' hb' i)]

/-- C92, the gradients handed back for the inputs are the true ones, whatever the scale. -/
theorem C92_inputs (sh : Shim) (hasAmp : Bool) (b : Batch) (len : Nat → Nat) (hc : sh.Clean len)
    (hb : b.Exact sh.scaler hasAmp sh.params.length) :
    ∃ sh', sh.backprop hasAmp b.auto b.dY = .ok (sh', b.dX.map (fun g => some (fin g))) ∧
      sh'.params.map (·.data) = sh.params.map (·.data) := by
  obtain ⟨acc, h1, _⟩ := clean_holds sh len hc
  obtain ⟨sh', a1, _, _, _, a5, _⟩ := backprop_exact sh hasAmp b acc hc.2.1 hc.1 h1 hb
  exact ⟨sh', a1, a5⟩

/-- A module with one parameter of one entry, `y = w * x` at `x = 1`: the gradient of `w` is the
gradient of the output. -/
noncomputable def exShim (enabled : Bool) : Shim := ⟨7, [⟨0, [some 5], none⟩], ⟨enabled, 2, 1 / 2, 2000, 0, 4, false⟩⟩

def exAuto : Autograd := fun ts => ([ts.head?], [ts.head?])

noncomputable def exBatch (g : ℝ) : Batch := ⟨exAuto, .tensor true [some g], fun _ => [g], [[g]]⟩

theorem exBatch_exact (enabled : Bool) (g : ℝ) : (exBatch g).Exact (exShim enabled).scaler true 1 := by
  cases enabled with
  | false =>
    refine ⟨[[some g]], rfl, ?_⟩
    simp [exBatch, exAuto, exShim, Scaler.factor, fin, scaleV]
  | true =>
    refine ⟨[[some (4 * g)]], ?_, ?_⟩
    · simp [exBatch, exShim, Scaler.scaleUp, Scaler.scaleTensor, mulScalar, Except.map]
    · simp [exBatch, exAuto, exShim, Scaler.factor, fin, scaleV]

theorem exShim_clean (enabled : Bool) : (exShim enabled).Clean (fun _ => 1) := by
  refine ⟨rfl, by norm_num [exShim], ?_⟩
  intro i hi
  left
  have : i = 0 := by
    simp only [exShim, List.length_cons, List.length_nil] at hi
    omega
  subst this
  rfl

/-- C92, non-vacuity: two batches with gradients 3 and 1 and plain gradient descent, scaler off. -/
example : ∃ sh', backprops true [exBatch 3, exBatch 1] (exShim false) = .ok sh' ∧
    (sh'.finishUpdate (fun (st : Unit) _ w g => (st, List.zipWith (fun a b => do some ((← a) - (← b))) w g)) ()).1.params.map
      (·.data) = [[some 1]] := by
  obtain ⟨sh', h1, h2, _⟩ := C92_update_partial (exShim false) true (exBatch 3) [exBatch 1] (fun _ => 1)
    (fun (st : Unit) _ w g => (st, List.zipWith (fun a b => do some ((← a) - (← b))) w g)) ()
    (exShim_clean false) (by
      intro b hb
      simp only [List.mem_cons, List.not_mem_nil, or_false] at hb
      rcases hb with rfl | rfl <;> exact exBatch_exact false _)
    (by
      intro b hb i
      simp only [List.mem_cons, List.not_mem_nil, or_false] at hb
      rcases hb with rfl | rfl <;> rfl) (.inl rfl)
  refine ⟨sh', h1, ?_⟩
  have := congrArg Prod.fst h2
  simp only at this
  rw [this]
  simp [exShim, stepAll, totalGrad, exBatch, addV, fin]
  norm_num

/-- C92, what is missing: with the scaler on, each further batch divides what the earlier batches
left by the scale once more: two batches leave `g₁ / scale + g₂`. -/
theorem C92_accumulation_scaled (sh : Shim) (hasAmp : Bool) (b b' : Batch) (len : Nat → Nat) (hc : sh.Clean len)
    (hb : b.Exact sh.scaler hasAmp sh.params.length) (hb' : b'.Exact sh.scaler hasAmp sh.params.length)
    (hl : ∀ i, (b.grad i).length = len i) (hen : sh.scaler.enabled = true) :
    ∃ sh', backprops hasAmp [b, b'] sh = .ok sh' ∧ ∀ i (hi : i < sh'.params.length),
      sh'.params[i].grad = some (fin (addV (scaleV (sh.scaler.scale)⁻¹ (b.grad i)) (b'.grad i))) := by
  obtain ⟨acc, h1, h2⟩ := clean_holds sh len hc
  obtain ⟨sh', a1, a2, a3, a4, a5, a6⟩ := backprops_exact hasAmp [b, b'] sh acc hc.2.1 hc.1 h1 (by
    intro c hcm
    simp only [List.mem_cons, List.not_mem_nil, or_false] at hcm
    rcases hcm with rfl | rfl
    · exact hb
    · exact hb')
  refine ⟨sh', a1, ?_⟩
  intro i hi
  rw [a6 i hi]
  have hfe : sh.scaler.factor = sh.scaler.scale := by simp only [Scaler.factor, hen, if_true]
  simp only [List.foldl_cons, List.foldl_nil, Option.map_some, hfe]
  have hm : mix (sh.scaler.scale)⁻¹ (acc i) (b.grad i) = b.grad i := by
    rcases h2 i with h | h
    · rw [h]; rfl
    · rw [h]
      simp only [mix, scaleV_zeros]
      exact addV_zero _ _ (hl i)
  rw [hm]
  rfl

/-- C92, a concrete case: gradients 3 and 1 with scale 4 leave 1.75, not 4. -/
theorem C92_accumulation_wrong : ∃ sh', backprops true [exBatch 3, exBatch 1] (exShim true) = .ok sh' ∧
    sh'.params.map (·.grad) = [some [some (7 / 4)]] ∧ totalGrad [exBatch 3, exBatch 1] 0 1 = [4] := by
  obtain ⟨sh', h1, h2⟩ := C92_accumulation_scaled (exShim true) true (exBatch 3) (exBatch 1) (fun _ => 1)
    (exShim_clean true) (exBatch_exact true _) (exBatch_exact true _) (fun _ => rfl) rfl
  obtain ⟨sh'', g1, _, _, g4, _, _⟩ := backprops_exact true [exBatch 3, exBatch 1] (exShim true) (fun _ => none)
    (by norm_num [exShim]) rfl (by
      intro i hi
      have : i = 0 := by
        simp only [exShim, List.length_cons, List.length_nil] at hi
        omega
      subst this
      rfl) (by
      intro b hb
      simp only [List.mem_cons, List.not_mem_nil, or_false] at hb
      rcases hb with rfl | rfl <;> exact exBatch_exact true _)
  rw [h1] at g1
  obtain rfl := Except.ok.inj g1
  have hlen : sh'.params.length = 1 := by
    have := congrArg List.length g4
    simpa [exShim] using this
  refine ⟨sh', h1, ?_, ?_⟩
  · apply List.ext_getElem
    · simp [hlen]
    · intro i hi1 hi2
      have : i = 0 := by
        simp only [List.length_cons, List.length_nil] at hi2
        omega
      subst this
      simp only [List.getElem_map, List.getElem_cons_zero]
      rw [h2 0 (by omega)]
      simp only [exShim, exBatch, scaleV, addV, fin, List.map_cons, List.map_nil, List.zipWith_cons_cons,
        List.zipWith_nil_left]
      norm_num
  · simp [totalGrad, exBatch, addV]
    norm_num

/-! ## Overflow -/

/-- C92.  A gradient that is not finite, of an input or of a parameter, is noticed, the gradients
handed back for the inputs are then zeros, and the overflow stays on record. -/
theorem C92_detects (sh : Shim) (hasAmp : Bool) (auto : Autograd) (dY : ScaleArg) (ts : List Tensor)
    (hen : sh.scaler.enabled = true) (hts : sh.scaler.scaleUp hasAmp dY = .ok ts)
    (h : sh.scaler.foundInf = true ∨
      ∃ t, some t ∈ List.zipWith accumulate (sh.params.map (·.grad)) (auto ts).1 ++ (auto ts).2 ∧
        allFinite t = false) :
    ∃ sh', sh.backprop hasAmp auto dY = .ok (sh', (auto ts).2.map (Option.map zeroTensor)) ∧
      sh'.scaler = { sh.scaler with foundInf := true } ∧ sh'.id = sh.id ∧
      (sh.params.length ≤ (auto ts).1.length → sh'.params.map (·.data) = sh.params.map (·.data)) := by
  have hsc : (sh.scaler.unscale ((List.zipWith accumulate (sh.params.map (·.grad)) (auto ts).1 ++
      (auto ts).2).filterMap (fun g => g))).1 = { sh.scaler with foundInf := true } := by
    simp only [Scaler.unscale, hen, Bool.not_true, Bool.false_eq_true, if_false]
    congr 1
    rcases h with h | ⟨t, ht, hnf⟩
    · rw [h, Bool.true_or]
    · have : ((List.zipWith accumulate (sh.params.map (·.grad)) (auto ts).1 ++
          (auto ts).2).filterMap (fun g => g)).all allFinite = false := by
        rw [List.all_eq_false]
        exact ⟨t, List.mem_filterMap.mpr ⟨some t, ht, rfl⟩, by simp [hnf]⟩
      rw [this]
      simp
  have hres : ({ sh.scaler with foundInf := true } : Scaler).unscaleResult = true := by
    simp only [Scaler.unscaleResult, hen, Bool.and_true]
  have hz : (unscaleGrads sh.scaler (auto ts).2).map (Option.map zeroTensor) =
      (auto ts).2.map (Option.map zeroTensor) := by
    simp only [unscaleGrads, hen, Bool.not_true, Bool.false_eq_true, if_false, List.map_map]
    apply List.map_congr_left
    intro g _
    cases g with
    | none => rfl
    | some g =>
      simp only [Function.comp, Option.map_some, zeroTensor, mulScalar, List.map_map]
      rfl
  refine ⟨⟨sh.id, setGrads sh.params (unscaleGrads sh.scaler
    (List.zipWith accumulate (sh.params.map (·.grad)) (auto ts).1)), { sh.scaler with foundInf := true }⟩, ?_, rfl,
    rfl, ?_⟩
  · simp only [Shim.backprop, hts, bind, Except.bind, hsc]
    simp only [hres, inputGrads, if_true, hz]
  · intro hlen
    have hlen' : (unscaleGrads sh.scaler (List.zipWith accumulate (sh.params.map (·.grad)) (auto ts).1)).length =
        sh.params.length := by
      unfold unscaleGrads
      split <;> simp [hlen]
    apply List.ext_getElem
    · simp [setGrads, hlen']
    · intro i hi1 hi2
      simp [setGrads]

/-- C92.  An update with an overflow on record changes no parameter and does not call the
optimizer; all gradients are zeroed, the scale is multiplied by the backoff factor, the count of
good updates starts again, and the record is cleared. -/
theorem C92_overflow_skips {σ : Type} (sh : Shim) (opt : OptStep σ) (st : σ) (hen : sh.scaler.enabled = true)
    (hf : sh.scaler.foundInf = true) :
    (sh.finishUpdate opt st).2 = st ∧
    (sh.finishUpdate opt st).1.params.map (·.data) = sh.params.map (·.data) ∧
    (sh.finishUpdate opt st).1.params.map (·.grad) = sh.params.map (fun p => p.grad.map zeroTensor) ∧
    (sh.finishUpdate opt st).1.scaler.scale = sh.scaler.scale * sh.scaler.backoffFactor ∧
    (sh.finishUpdate opt st).1.scaler.growthTracker = 0 ∧
    (sh.finishUpdate opt st).1.scaler.foundInf = false := by
  simp only [Shim.finishUpdate, hf, finishParams_skip, Scaler.update, hen, Bool.not_true, Bool.false_eq_true,
    if_false, Scaler.ampUpdate, if_true, List.map_map]
  exact ⟨trivial, rfl, rfl, trivial, trivial, trivial⟩

/-- C92, non-vacuity: a gradient that is not finite. -/
example : ∃ sh', (exShim true).backprop true (fun _ => ([some [none]], [some [some 1]])) (.tensor true [some 1]) =
      .ok (sh', [some [some 0]]) ∧
    (sh'.finishUpdate (fun (st : Unit) _ w _ => (st, w)) ()).1.scaler.scale = 2 := by
  obtain ⟨sh', h1, h2, _, _⟩ := C92_detects (exShim true) true (fun _ => ([some [none]], [some [some 1]]))
    (.tensor true [some 1]) [[some 4]] rfl
    (by simp [exShim, Scaler.scaleUp, Scaler.scaleTensor, mulScalar, Except.map])
    (.inr ⟨[none], by simp [exShim, accumulate], rfl⟩)
  refine ⟨sh', by simpa [zeroTensor] using h1, ?_⟩
  have hen : sh'.scaler.enabled = true := by rw [h2]; rfl
  have hfi : sh'.scaler.foundInf = true := by rw [h2]
  rw [(C92_overflow_skips sh' _ () hen hfi).2.2.2.1, h2]
  norm_num [exShim]

theorem allFinite_false {t : Tensor} : allFinite t = false ↔ ∃ i : Nat, t[i]? = some none := by
  unfold allFinite
  rw [List.all_eq_false]
  constructor
  · rintro ⟨x, hx, hn⟩
    obtain ⟨i, hi⟩ := List.mem_iff_getElem?.1 hx
    cases x with
    | none => exact ⟨i, hi⟩
    | some x => simp at hn
  · rintro ⟨i, hi⟩
    exact ⟨none, List.mem_of_getElem? hi, by simp⟩

theorem addTensor_infinite {a b : Tensor} (hl : a.length = b.length) (h : allFinite a = false ∨ allFinite b = false) :
    allFinite (addTensor a b) = false := by
  rw [allFinite_false]
  rcases h with h | h
  · obtain ⟨i, hi⟩ := allFinite_false.1 h
    have hb : i < b.length := by rw [← hl]; exact (List.getElem?_eq_some_iff.1 hi).1
    exact ⟨i, by rw [addTensor, List.getElem?_zipWith, hi, List.getElem?_eq_getElem hb]; simp [addEntry]⟩
  · obtain ⟨i, hi⟩ := allFinite_false.1 h
    have ha : i < a.length := by rw [hl]; exact (List.getElem?_eq_some_iff.1 hi).1
    refine ⟨i, ?_⟩
    rw [addTensor, List.getElem?_zipWith, hi, List.getElem?_eq_getElem ha]
    cases a[i] <;> simp [addEntry]

theorem accumulate_infinite {g : Option Tensor} {t : Tensor} (hl : ∀ a, g = some a → a.length = t.length) (h : allFinite t = false) :
    ∃ u, accumulate g (some t) = some u ∧ allFinite u = false := by
  cases g with
  | none => exact ⟨t, rfl, h⟩
  | some a => exact ⟨_, rfl, addTensor_infinite (hl a rfl) (.inr h)⟩

/-- C92.  If torch adds a gradient that is not finite to the gradient of a parameter, or hands one back for an input, it is noticed, whatever
gradients have been added before. -/
theorem C92_detects_added (sh : Shim) (hasAmp : Bool) (b : Batch) (len : Nat → Nat) (hen : sh.scaler.enabled = true)
    (hsh : sh.Shaped len) (hb : b.Fits sh.scaler hasAmp sh.params.length len) (ho : b.Overflows sh.scaler hasAmp) :
    ∃ sh' dX, sh.backprop hasAmp b.auto b.dY = .ok (sh', dX) ∧ (∀ g ∈ dX, ∀ t, g = some t → ∀ x ∈ t, x = some 0) ∧
      sh'.scaler = { sh.scaler with foundInf := true } ∧ sh'.id = sh.id ∧ sh'.params.map (·.data) = sh.params.map (·.data) := by
  obtain ⟨ts, hts, t, ht, hnf⟩ := ho
  obtain ⟨ts', hts', hb⟩ := hb
  rw [hts] at hts'
  cases hts'
  have hmem : ∃ u, some u ∈ List.zipWith accumulate (sh.params.map (·.grad)) (b.auto ts).1 ++ (b.auto ts).2 ∧ allFinite u = false := by
    rcases ht with ht | ht
    · obtain ⟨i, hi⟩ := List.mem_iff_getElem?.1 ht
      have hi' : i < sh.params.length := by rw [← hb.1]; exact (List.getElem?_eq_some_iff.1 hi).1
      obtain ⟨u, hu, hnu⟩ := accumulate_infinite (g := sh.params[i].grad) (t := t)
        (fun a ha => by rw [hsh i hi' a ha, hb.2 i t hi]) hnf
      refine ⟨u, List.mem_append.2 (.inl (List.mem_of_getElem? (i := i) ?_)), hnu⟩
      rw [List.getElem?_zipWith, hi, List.getElem?_map, List.getElem?_eq_getElem hi']
      simpa using hu
    · exact ⟨t, List.mem_append.2 (.inr ht), hnf⟩
  obtain ⟨sh', e, h1, h2, h3⟩ := C92_detects sh hasAmp b.auto b.dY ts hen hts (.inr hmem)
  refine ⟨sh', _, e, ?_, h1, h2, h3 (by rw [hb.1])⟩
  intro g hg t e x hx
  obtain ⟨g', -, rfl⟩ := List.mem_map.1 hg
  cases g' with
  | none => cases e
  | some g' =>
    cases e
    obtain ⟨-, -, rfl⟩ := List.mem_map.1 hx
    rfl

theorem backprop_shaped {sh : Shim} {hasAmp : Bool} {b : Batch} {len : Nat → Nat} (hsh : sh.Shaped len) (hb : b.Fits sh.scaler hasAmp sh.params.length len) :
    ∃ sh' dX, sh.backprop hasAmp b.auto b.dY = .ok (sh', dX) ∧ sh'.Shaped len ∧ sh'.params.map (·.data) = sh.params.map (·.data) ∧ sh'.id = sh.id ∧
      ∃ f, sh'.scaler = { sh.scaler with foundInf := f } ∧ (sh.scaler.foundInf = true → f = true) := by
  obtain ⟨ts, hts, hb⟩ := hb
  have hlen : (unscaleGrads sh.scaler (List.zipWith accumulate (sh.params.map (·.grad)) (b.auto ts).1)).length = sh.params.length := by
    unfold unscaleGrads
    split <;> simp [hb.1]
  refine ⟨⟨sh.id, setGrads sh.params (unscaleGrads sh.scaler (List.zipWith accumulate (sh.params.map (·.grad)) (b.auto ts).1)),
    (sh.scaler.unscale ((List.zipWith accumulate (sh.params.map (·.grad)) (b.auto ts).1 ++ (b.auto ts).2).filterMap (fun g => g))).1⟩,
    inputGrads (sh.scaler.unscale ((List.zipWith accumulate (sh.params.map (·.grad)) (b.auto ts).1 ++ (b.auto ts).2).filterMap (fun g => g))).1.unscaleResult
      (unscaleGrads sh.scaler (b.auto ts).2),
    (by simp only [Shim.backprop, hts, bind, Except.bind]), ?_, ?_, rfl, ?_⟩
  · intro i hi g hg
    have hi' : i < sh.params.length := by
      simp only [setGrads, List.length_zipWith] at hi
      omega
    have hz : i < (b.auto ts).1.length := by rw [hb.1]; exact hi'
    have key : ∀ u, accumulate sh.params[i].grad (b.auto ts).1[i] = some u → u.length = len i := by
      intro u hu
      cases h1 : sh.params[i].grad with
      | none =>
        rw [h1] at hu
        exact hb.2 i u (by rw [List.getElem?_eq_getElem hz]; exact congrArg some hu)
      | some a =>
        cases h2 : (b.auto ts).1[i] with
        | none => rw [h1, h2] at hu; simp only [accumulate, Option.some.injEq] at hu; subst hu; exact hsh i hi' _ h1
        | some t =>
          rw [h1, h2] at hu
          simp only [accumulate, Option.some.injEq] at hu
          subst hu
          simp only [addTensor, List.length_zipWith]
          rw [hsh i hi' _ h1, hb.2 i t (by rw [List.getElem?_eq_getElem hz, h2])]
          simp
    simp only [setGrads, List.getElem_zipWith, unscaleGrads] at hg
    by_cases hen : sh.scaler.enabled = true
    · simp only [hen, Bool.not_true, Bool.false_eq_true, if_false, List.getElem_map, List.getElem_zipWith] at hg
      cases h : accumulate sh.params[i].grad (b.auto ts).1[i] with
      | none => rw [h] at hg; cases hg
      | some u =>
        rw [h] at hg
        cases hg
        simp only [mulScalar, List.length_map]
        exact key u h
    · simp only [hen, Bool.not_false, if_true, List.getElem_map, List.getElem_zipWith] at hg
      exact key g hg
  · apply List.ext_getElem
    · simp [setGrads, hlen]
    · intro i hi1 hi2
      simp [setGrads]
  · unfold Scaler.unscale
    split
    · exact ⟨sh.scaler.foundInf, rfl, id⟩
    · exact ⟨_, rfl, fun h => by simp [h]⟩

theorem scaleUp_congr (s : Scaler) (f : Bool) (hasAmp : Bool) (arg : ScaleArg) : ({ s with foundInf := f } : Scaler).scaleUp hasAmp arg = s.scaleUp hasAmp arg := by
  have h : ∀ items, ({ s with foundInf := f } : Scaler).scaleItems hasAmp items = s.scaleItems hasAmp items := by
    intro items
    induction items with
    | nil => rfl
    | cons x xs ih =>
      cases x with
      | none => rfl
      | some p => simp only [Scaler.scaleItems, ih, Scaler.scaleTensor]
  cases arg <;> simp only [Scaler.scaleUp, h, Scaler.scaleTensor]

theorem backprops_record (hasAmp : Bool) (len : Nat → Nat) (bs : List Batch) (sh : Shim) (hen : sh.scaler.enabled = true) (hsh : sh.Shaped len)
    (hb : ∀ b ∈ bs, b.Fits sh.scaler hasAmp sh.params.length len) :
    ∃ sh', backprops hasAmp bs sh = .ok sh' ∧ sh'.params.map (·.data) = sh.params.map (·.data) ∧ sh'.id = sh.id ∧
      ∃ f, sh'.scaler = { sh.scaler with foundInf := f } ∧ ((sh.scaler.foundInf = true ∨ ∃ b ∈ bs, b.Overflows sh.scaler hasAmp) → f = true) := by
  induction bs generalizing sh with
  | nil => exact ⟨sh, rfl, rfl, rfl, sh.scaler.foundInf, rfl, by simp⟩
  | cons b bs ih =>
    have hf := hb b (by simp)
    obtain ⟨sh1, dX, e1, s1, d1, i1, f1, c1, k1⟩ := backprop_shaped hsh hf
    have hl : sh1.params.length = sh.params.length := by simpa using congrArg List.length d1
    obtain ⟨sh2, e2, d2, i2, f2, c2, k2⟩ := ih sh1 (by rw [c1]; exact hen) s1 fun b' h' => by
      obtain ⟨ts', h2, h1⟩ := hb b' (by simp [h'])
      exact ⟨ts', by rw [c1, scaleUp_congr]; exact h2, by rw [hl]; exact h1⟩
    refine ⟨sh2, ?_, d2.trans d1, i2.trans i1, f2, by rw [c2, c1], ?_⟩
    · simp only [backprops, e1, bind, Except.bind]
      exact e2
    · rintro (h | ⟨b', hb', ho⟩)
      · exact k2 (.inl (by rw [c1]; exact k1 h))
      · rcases List.mem_cons.1 hb' with rfl | hb'
        · obtain ⟨sh1', dX', e1', -, c1', -⟩ := C92_detects_added sh hasAmp b' len hen hsh hf ho
          rw [e1] at e1'
          cases e1'
          exact k2 (.inl (by rw [c1']))
        · refine k2 (.inr ⟨b', hb', ?_⟩)
          obtain ⟨ts', h1, h2⟩ := ho
          exact ⟨ts', by rw [c1, scaleUp_congr]; exact h1, h2⟩

/-- C92.  If in any of the backward passes since the last update some gradient was not finite, the update changes no parameter and does not
call the optimizer, and the scale is multiplied by the backoff factor. -/
theorem C92_overflow_anywhere {σ : Type} (sh : Shim) (hasAmp : Bool) (len : Nat → Nat) (bs : List Batch) (opt : OptStep σ) (st : σ)
    (hen : sh.scaler.enabled = true) (hsh : sh.Shaped len)
    (hb : ∀ b ∈ bs, b.Fits sh.scaler hasAmp sh.params.length len) (ho : ∃ b ∈ bs, b.Overflows sh.scaler hasAmp) :
    ∃ sh', backprops hasAmp bs sh = .ok sh' ∧ (sh'.finishUpdate opt st).2 = st ∧
      (sh'.finishUpdate opt st).1.params.map (·.data) = sh.params.map (·.data) ∧
      (∀ p ∈ (sh'.finishUpdate opt st).1.params, ∀ g, p.grad = some g → ∀ x ∈ g, x = some 0) ∧
      (sh'.finishUpdate opt st).1.scaler.scale = sh.scaler.scale * sh.scaler.backoffFactor ∧
      (sh'.finishUpdate opt st).1.scaler.foundInf = false := by
  obtain ⟨sh', e, d, -, f, c, k⟩ := backprops_record hasAmp len bs sh hen hsh hb
  have hf := k (.inr ho)
  obtain ⟨h1, h2, h3, h4, -, h6⟩ := C92_overflow_skips sh' opt st (by rw [c]; exact hen) (by rw [c]; exact hf)
  refine ⟨sh', e, h1, h2.trans d, ?_, by rw [h4, c], h6⟩
  intro p hp g hg x hx
  have hm : some g ∈ (sh'.finishUpdate opt st).1.params.map (·.grad) := List.mem_map.2 ⟨p, hp, hg⟩
  rw [h3] at hm
  obtain ⟨q, -, hq⟩ := List.mem_map.1 hm
  cases hq' : q.grad with
  | none => rw [hq'] at hq; cases hq
  | some u =>
    rw [hq'] at hq
    cases hq
    obtain ⟨-, -, rfl⟩ := List.mem_map.1 hx
    rfl

/-- A batch with an overflow. -/
def exOverflow : Batch := ⟨fun _ => ([some [none]], [some [some 1]]), .tensor true [some 1], fun _ => [], []⟩

theorem exOverflow_overflows : exOverflow.Overflows (exShim true).scaler true :=
  ⟨[[some 4]], by simp [exOverflow, exShim, Scaler.scaleUp, Scaler.scaleTensor, mulScalar, Except.map], [none], .inl (by simp [exOverflow]), rfl⟩

/-- Non-vacuity: an overflow in the second of three backward passes. -/
example : ∃ sh', backprops true [exBatch 3, exOverflow, exBatch 1] (exShim true) = .ok sh' ∧
    (sh'.finishUpdate (fun (st : Unit) _ w _ => (st, w)) ()).1.params.map (·.data) = (exShim true).params.map (·.data) := by
  have hB : ∀ x, (exBatch x).Fits (exShim true).scaler true 1 (fun _ => 1) := fun x =>
    ⟨[[some (4 * x)]], by simp [exBatch, exShim, Scaler.scaleUp, Scaler.scaleTensor, mulScalar, Except.map], rfl, by
      rintro (_ | i) t h <;> simp [exBatch, exAuto] at h
      subst h
      rfl⟩
  have hO : exOverflow.Fits (exShim true).scaler true 1 (fun _ => 1) :=
    ⟨[[some 4]], by simp [exOverflow, exShim, Scaler.scaleUp, Scaler.scaleTensor, mulScalar, Except.map], rfl, by
      rintro (_ | i) t h <;> simp [exOverflow] at h
      subst h
      rfl⟩
  obtain ⟨sh', e, -, h, -⟩ := C92_overflow_anywhere (exShim true) true (fun _ => 1) [exBatch 3, exOverflow, exBatch 1]
    (fun (st : Unit) _ w _ => (st, w)) () rfl
    (by
      intro i hi g hg
      have : i = 0 := by simp [exShim] at hi; omega
      subst this
      simp [exShim] at hg)
    (by
      intro b hb
      simp only [List.mem_cons, List.not_mem_nil, or_false] at hb
      rcases hb with rfl | rfl | rfl
      · exact hB 3
      · exact hO
      · exact hB 1)
    ⟨exOverflow, by simp, exOverflow_overflows⟩
  exact ⟨sh', e, h⟩
/-! ## The scale over a whole history -/

theorem run_disabled (s : Scaler) (hen : s.enabled = false) (es : List ScalerEvent) : s.run es = s := by
  induction es with
  | nil => rfl
  | cons e es ih =>
    have : s.event e = s := by
      cases e with
      | unscale ts => simp [Scaler.event, Scaler.unscale, hen]
      | update => simp [Scaler.event, Scaler.update, hen]
    simp only [Scaler.run, List.foldl_cons, this]
    exact ih

/-- C92.  A scaler that is off never changes, and hands tensors through. -/
theorem C92_disabled (s : Scaler) (hen : s.enabled = false) (es : List ScalerEvent) (hasAmp : Bool) (arg : ScaleArg)
    (ts : List Tensor) :
    s.run es = s ∧ s.scaleUp hasAmp arg = .ok arg.tensors ∧ (s.unscale ts).2 = ts := by
  refine ⟨run_disabled s hen es, ?_, ?_⟩
  · simp [Scaler.scaleUp, hen]
  · simp [Scaler.unscale, hen]

theorem event_config (s : Scaler) (e : ScalerEvent) : (s.event e).enabled = s.enabled ∧
    (s.event e).growthFactor = s.growthFactor ∧ (s.event e).backoffFactor = s.backoffFactor ∧
    (s.event e).growthInterval = s.growthInterval := by
  cases e with
  | unscale ts =>
    simp only [Scaler.event, Scaler.unscale]
    split <;> exact ⟨rfl, rfl, rfl, rfl⟩
  | update =>
    simp only [Scaler.event, Scaler.update, Scaler.ampUpdate]
    split
    · exact ⟨rfl, rfl, rfl, rfl⟩
    · split
      · exact ⟨rfl, rfl, rfl, rfl⟩
      · split <;> exact ⟨rfl, rfl, rfl, rfl⟩

/-- C92.  Over any history of an enabled scaler: the scale is the initial scale times the backoff
factor once for every update that saw an overflow, times some number of growth factors, no more
than there were good updates. -/
theorem C92_scale_history (s : Scaler) (hen : s.enabled = true) (es : List ScalerEvent) :
    ∃ a : Nat, (s.run es).scale = s.scale * s.growthFactor ^ a *
        s.backoffFactor ^ ((overflows s.foundInf es).count true) ∧
      a ≤ (overflows s.foundInf es).count false := by
  induction es generalizing s with
  | nil => exact ⟨0, by simp [Scaler.run, overflows], by simp⟩
  | cons e es ih =>
    obtain ⟨c1, c2, c3, c4⟩ := event_config s e
    obtain ⟨a, h1, h2⟩ := ih (s.event e) (by rw [c1]; exact hen)
    rw [c2, c3] at h1
    have hrun : s.run (e :: es) = (s.event e).run es := rfl
    rw [hrun]
    cases e with
    | unscale ts =>
      have hf : (s.event (.unscale ts)).foundInf = (s.foundInf || !(ts.all allFinite)) := by
        simp [Scaler.event, Scaler.unscale, hen]
      have hsc : (s.event (.unscale ts)).scale = s.scale := by
        simp [Scaler.event, Scaler.unscale, hen]
      rw [hf, hsc] at h1
      rw [hf] at h2
      exact ⟨a, h1, h2⟩
    | update =>
      have hf : (s.event .update).foundInf = false := by
        simp [Scaler.event, Scaler.update, hen]
      rw [hf] at h1 h2
      simp only [overflows, List.count_cons]
      by_cases hfi : s.foundInf = true
      · have hsc : (s.event .update).scale = s.scale * s.backoffFactor := by
          simp [Scaler.event, Scaler.update, hen, Scaler.ampUpdate, hfi]
        refine ⟨a, ?_, ?_⟩
        · rw [h1, hsc, hfi]
          simp only [beq_self_eq_true, if_true, pow_succ]
          ring
        · rw [hfi]
          simpa using h2
      · have hfi' : s.foundInf = false := by simpa using hfi
        by_cases hg : s.growthTracker + 1 = s.growthInterval
        · have hsc : (s.event .update).scale = s.scale * s.growthFactor := by
            simp [Scaler.event, Scaler.update, hen, Scaler.ampUpdate, hfi', hg]
          refine ⟨a + 1, ?_, ?_⟩
          · rw [h1, hsc, hfi']
            have : ((false == true) = true) ↔ False := by decide
            simp only [this, if_false, Nat.add_zero, pow_succ]
            ring
          · rw [hfi']
            simpa using h2
        · have hsc : (s.event .update).scale = s.scale := by
            simp [Scaler.event, Scaler.update, hen, Scaler.ampUpdate, hfi', hg]
          refine ⟨a, ?_, ?_⟩
          · rw [h1, hsc, hfi']
            simp
          · rw [hfi']
            simp only [beq_self_eq_true, if_true]
            omega

/-- C92.  The scale stays positive. -/
theorem C92_scale_positive (s : Scaler) (es : List ScalerEvent) (h0 : 0 < s.scale) (hg : 0 < s.growthFactor)
    (hb : 0 < s.backoffFactor) : 0 < (s.run es).scale := by
  by_cases hen : s.enabled = true
  · obtain ⟨a, h, _⟩ := C92_scale_history s hen es
    rw [h]
    positivity
  · rw [run_disabled s (by simpa using hen)]
    exact h0

theorem run_good (s : Scaler) (hen : s.enabled = true) (hfi : s.foundInf = false) (n : Nat)
    (hn : s.growthTracker + n < s.growthInterval) :
    s.run (List.replicate n .update) = { s with growthTracker := s.growthTracker + n } := by
  induction n generalizing s with
  | zero => simp [Scaler.run]
  | succ n ih =>
    have hev : s.event .update = { s with growthTracker := s.growthTracker + 1 } := by
      have hne : ¬ s.growthTracker + 1 = s.growthInterval := by omega
      obtain ⟨en, gf, bf, gi, gt, sc, fi⟩ := s
      simp only at hen hfi hne
      subst hen hfi
      simp [Scaler.event, Scaler.update, Scaler.ampUpdate, hne]
    have hrun : s.run (List.replicate (n + 1) .update) = (s.event .update).run (List.replicate n .update) := rfl
    rw [hrun, hev]
    have := ih { s with growthTracker := s.growthTracker + 1 } hen hfi (by simp only; push_cast at hn; omega)
    rw [this]
    congr 1
    push_cast
    ring

/-- C92.  After `growthInterval` good updates in a row (counted from a fresh count) the scale has
grown by the growth factor exactly once, and not before. -/
theorem C92_growth (s : Scaler) (hen : s.enabled = true) (hfi : s.foundInf = false) (ht : s.growthTracker = 0)
    (hi : 1 ≤ s.growthInterval) :
    (∀ n : Nat, (n : Int) < s.growthInterval → (s.run (List.replicate n .update)).scale = s.scale) ∧
    (s.run (List.replicate s.growthInterval.toNat .update)).scale = s.scale * s.growthFactor ∧
    (s.run (List.replicate s.growthInterval.toNat .update)).growthTracker = 0 := by
  refine ⟨?_, ?_⟩
  · intro n hn
    rw [run_good s hen hfi n (by omega)]
  · obtain ⟨m, hm⟩ : ∃ m : Nat, s.growthInterval.toNat = m + 1 := ⟨s.growthInterval.toNat - 1, by omega⟩
    have hsplit : s.run (List.replicate (m + 1) .update) = (s.run (List.replicate m .update)).event .update := by
      rw [List.replicate_succ', Scaler.run, List.foldl_append]
      rfl
    rw [hm, hsplit, run_good s hen hfi m (by omega)]
    have hg : s.growthTracker + (m : Int) + 1 = s.growthInterval := by omega
    constructor
    · simp [Scaler.event, Scaler.update, hen, Scaler.ampUpdate, hfi, hg]
    · simp [Scaler.event, Scaler.update, hen, Scaler.ampUpdate, hfi, hg]

/-- C92, non-vacuity: the default scaler. -/
example : (Scaler.init true).enabled = true ∧ (Scaler.init true).foundInf = false ∧
    (Scaler.init true).growthTracker = 0 ∧ 1 ≤ (Scaler.init true).growthInterval ∧ 0 < (Scaler.init true).scale := by
  refine ⟨rfl, rfl, rfl, by norm_num [Scaler.init], by norm_num [Scaler.init]⟩

theorem scaleItems_ok (s : Scaler) (hasAmp : Bool) (items : List (Option (Bool × Tensor))) :
    (∃ ts, s.scaleItems hasAmp items = .ok ts) ↔ ∀ x ∈ items, hasAmp = true ∧ ∃ t, x = some (true, t) := by
  induction items with
  | nil => simp [Scaler.scaleItems]
  | cons x rest ih =>
    simp only [List.forall_mem_cons]
    rw [← ih]
    cases x with
    | none => simp [Scaler.scaleItems]
    | some q =>
      obtain ⟨cuda, t⟩ := q
      cases hasAmp with
      | false => simp [Scaler.scaleItems, Scaler.scaleTensor, bind, Except.bind]
      | true =>
        cases cuda with
        | false => simp [Scaler.scaleItems, Scaler.scaleTensor, bind, Except.bind]
        | true =>
          simp only [Scaler.scaleItems, Scaler.scaleTensor, Bool.not_true, Bool.false_eq_true, if_false, bind,
            Except.bind]
          cases h : s.scaleItems true rest with
          | ok ts => simp
          | error e => simp

theorem scaleItems_value (s : Scaler) (hasAmp : Bool) (items : List (Option (Bool × Tensor))) (ts : List Tensor)
    (h : s.scaleItems hasAmp items = .ok ts) :
    ts = (ScaleArg.iterable items).tensors.map (mulScalar s.scale) := by
  induction items generalizing ts with
  | nil =>
    simp only [Scaler.scaleItems, Except.ok.injEq] at h
    subst h
    rfl
  | cons x rest ih =>
    cases x with
    | none => simp [Scaler.scaleItems] at h
    | some q =>
      obtain ⟨cuda, t⟩ := q
      cases hasAmp with
      | false => simp [Scaler.scaleItems, Scaler.scaleTensor, bind, Except.bind] at h
      | true =>
        cases cuda with
        | false => simp [Scaler.scaleItems, Scaler.scaleTensor, bind, Except.bind] at h
        | true =>
          simp only [Scaler.scaleItems, Scaler.scaleTensor, Bool.not_true, Bool.false_eq_true, if_false, bind,
            Except.bind] at h
          cases hr : s.scaleItems true rest with
          | error e => simp [hr] at h
          | ok ts' =>
            simp only [hr, Except.ok.injEq] at h
            subst h
            have := ih ts' hr
            simp only [ScaleArg.tensors, List.filterMap_cons, Option.map_some, List.map_cons] at this ⊢
            rw [← this]

theorem scaleItems_error (s : Scaler) (hasAmp : Bool) (items : List (Option (Bool × Tensor))) (e : PyErr)
    (h : s.scaleItems hasAmp items = .error e) : e = .valueError := by
  induction items with
  | nil => cases h
  | cons x rest ih =>
    cases x with
    | none => cases h; rfl
    | some q =>
      obtain ⟨cuda, t⟩ := q
      cases hasAmp with
      | false => cases h; rfl
      | true =>
        cases cuda with
        | false => cases h; rfl
        | true =>
          simp only [Scaler.scaleItems, Scaler.scaleTensor, Bool.not_true, Bool.false_eq_true, if_false, bind,
            Except.bind] at h
          cases hr : s.scaleItems true rest with
          | error e' =>
            rw [hr] at h ih
            cases h
            exact ih rfl
          | ok ts => simp [hr] at h

/-- C92.  With the scaler on, `scale` accepts a CUDA tensor or an iterable of CUDA tensors, on a
machine that supports mixed precision, multiplies each by the scale, and raises ValueError otherwise. -/
theorem C92_scale_args (s : Scaler) (hasAmp : Bool) (arg : ScaleArg) (hen : s.enabled = true) :
    ((∃ ts, s.scaleUp hasAmp arg = .ok ts) ↔
      (hasAmp = true ∧ ∃ t, arg = .tensor true t) ∨
        ∃ items, arg = .iterable items ∧ ∀ x ∈ items, hasAmp = true ∧ ∃ t, x = some (true, t)) ∧
    (∀ ts, s.scaleUp hasAmp arg = .ok ts → ts = arg.tensors.map (mulScalar s.scale)) ∧
    ∀ e, s.scaleUp hasAmp arg = .error e → e = .valueError := by
  cases arg with
  | tensor cuda t =>
    cases hasAmp <;> cases cuda <;>
      simp [Scaler.scaleUp, hen, Scaler.scaleTensor, Except.map, ScaleArg.tensors]
  | iterable items =>
    simp only [Scaler.scaleUp, hen, Bool.not_true, Bool.false_eq_true, if_false, scaleItems_ok]
    constructor
    · constructor
      · intro h
        exact .inr ⟨items, rfl, h⟩
      · rintro (⟨_, t, ht⟩ | ⟨items', h1, h2⟩)
        · exact absurd ht (by simp)
        · obtain rfl := ScaleArg.iterable.inj h1
          exact h2
    · exact ⟨fun ts h => scaleItems_value s hasAmp items ts h, fun e h => scaleItems_error s hasAmp items e h⟩
  | other => simp [Scaler.scaleUp, hen]

/-- C92, what is missing: with the scaler on and shared memory the caller's own gradient array is
multiplied by the scale. -/
theorem C92_caller_scaled (sh : Shim) (g : List ℝ) (hen : sh.scaler.enabled = true) :
    sh.backpropCaller true (fin g) = fin (scaleV sh.scaler.scale g) ∧ sh.backpropCaller false (fin g) = fin g := by
  simp only [Shim.backpropCaller, hen, Bool.and_true, if_true, Bool.and_false, Bool.false_eq_true, if_false,
    mulScalar_fin, and_self]

/-- C92.  Without mixed precision the caller's own gradient array is left alone, shared memory or not. -/
theorem C92_caller_unscaled (sh : Shim) (shared : Bool) (dY : Tensor) (hen : sh.scaler.enabled = false) : sh.backpropCaller shared dY = dY := by
  simp [Shim.backpropCaller, hen]

/-- C92.  A scaler made with the default settings is off.  One that is only turned on starts with the scale `2 ^ 16`, keeps it for 1999 good updates
in a row, doubles it with the next, and over any history has the scale `2 ^ (16 + a) / 2 ^ b` after `b` updates that saw an overflow. -/
theorem C92_defaults : Scaler.init.enabled = false ∧ (Scaler.init true).enabled = true ∧ (Scaler.init true).scale = 2 ^ 16 ∧
    (∀ n < 2000, ((Scaler.init true).run (List.replicate n .update)).scale = 2 ^ 16) ∧
    ((Scaler.init true).run (List.replicate 2000 .update)).scale = 2 ^ 17 ∧
    ∀ es, ∃ a : Nat, ((Scaler.init true).run es).scale = 2 ^ (16 + a) / 2 ^ ((overflows false es).count true) ∧ a ≤ (overflows false es).count false := by
  obtain ⟨h1, h2, -⟩ := C92_growth (Scaler.init true) rfl rfl rfl (by simp [Scaler.init])
  refine ⟨rfl, rfl, rfl, fun n hn => h1 n (by show (n : Int) < 2000; omega), ?_, fun es => ?_⟩
  · refine h2.trans ?_
    show (2 : ℝ) ^ 16 * 2 = 2 ^ 17
    norm_num
  · obtain ⟨a, ha, hle⟩ := C92_scale_history (Scaler.init true) rfl es
    refine ⟨a, ha.trans ?_, hle⟩
    show (2 : ℝ) ^ 16 * 2 ^ a * (1 / 2) ^ ((overflows false es).count true) = _
    rw [pow_add, one_div, inv_pow, div_eq_mul_inv]

end Thinc.Torch
