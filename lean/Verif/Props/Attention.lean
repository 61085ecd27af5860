import Verif.Model.Attention
import Verif.Lemmas.Attention
import Verif.Props.Uniqued
import Verif.Props.Linear
import Verif.Props.Combinators
import Verif.Props.Dropout
/-!
# C61: parametric attention
-/
namespace Thinc
open Spec Spec.Tensor Real

/-! ### The weights -/

/-- The weights of every sequence are positive and add up to one. -/
theorem C61_weights (ls : List ℕ) (s : Fin ls.sum → ℝ) (i : Fin ls.sum) :
    0 < attention ls s i ∧ (∑ i' : Fin ls.sum, if memberOf ls i' = memberOf ls i then attention ls s i' else 0) = 1 := by
  have hS := attention_sum_pos ls s
  refine ⟨div_pos (exp_pos _) (hS i), ?_⟩
  have : ∀ i' : Fin ls.sum, (if memberOf ls i' = memberOf ls i then attention ls s i' else 0) =
      (if memberOf ls i' = memberOf ls i then exp (s i') else 0) /
        ∑ i' : Fin ls.sum, if memberOf ls i' = memberOf ls i then exp (s i') else 0 := by
    intro i'
    split
    · rename_i h
      rw [attention, h]
    · rw [zero_div]
  simp only [this]
  rw [← Finset.sum_div, div_self (hS i).ne']

/-- The weights of a sequence depend on the scores of that sequence alone. -/
theorem C61_local (ls : List ℕ) (s s' : Fin ls.sum → ℝ) (i : Fin ls.sum)
    (h : ∀ i' : Fin ls.sum, memberOf ls i' = memberOf ls i → s i' = s' i') : attention ls s i = attention ls s' i := by
  unfold attention
  rw [h i rfl]
  congr 1
  refine Finset.sum_congr rfl fun i' _ => ?_
  by_cases hi : memberOf ls i' = memberOf ls i
  · rw [if_pos hi, if_pos hi, h i' hi]
  · rw [if_neg hi, if_neg hi]

/-! ### Gradients -/

section
variable {n m k : ℕ}

theorem IsVJP_score (p : (Fin n → Fin k → ℝ) × (Fin 1 → Fin k → ℝ)) :
    IsVJP (fun (p : (Fin n → Fin k → ℝ) × (Fin 1 → Fin k → ℝ)) i => ∑ l, p.1 i l * p.2 0 l) p
      (fun d => (fun i l => d i * p.2 0 l, fun _ l => ∑ i, d i * p.1 i l)) := by
  let P := (Fin n → Fin k → ℝ) × (Fin 1 → Fin k → ℝ)
  let a (i : Fin n) (l : Fin k) : P →L[ℝ] ℝ :=
    (ContinuousLinearMap.proj (R := ℝ) (φ := fun _ : Fin k => ℝ) l).comp
      ((ContinuousLinearMap.proj (R := ℝ) (φ := fun _ : Fin n => Fin k → ℝ) i).comp (ContinuousLinearMap.fst ℝ _ _))
  let b (l : Fin k) : P →L[ℝ] ℝ :=
    (ContinuousLinearMap.proj (R := ℝ) (φ := fun _ : Fin k => ℝ) l).comp
      ((ContinuousLinearMap.proj (R := ℝ) (φ := fun _ : Fin 1 => Fin k → ℝ) 0).comp (ContinuousLinearMap.snd ℝ _ _))
  refine ⟨ContinuousLinearMap.pi fun i => ∑ l, (a i l p • b l + b l p • a i l), ?_, ?_⟩
  · exact hasFDerivAt_pi.2 fun i => HasFDerivAt.fun_sum fun l _ => (a i l).hasFDerivAt.mul (b l).hasFDerivAt
  · intro d v
    have e : ∀ i, (ContinuousLinearMap.pi fun i => ∑ l, (a i l p • b l + b l p • a i l)) v i =
        ∑ l, (p.1 i l * v.2 0 l + p.2 0 l * v.1 i l) := by
      intro i
      simp only [ContinuousLinearMap.coe_pi', _root_.sum_apply]
      rfl
    rw [dot_pi]
    simp only [e]
    simp only [dot_prod, dot_pi, dot_real, Fin.sum_univ_one, Fin.isValue, Finset.sum_mul, Finset.mul_sum, mul_add,
      Finset.sum_add_distrib]
    rw [add_comm, Finset.sum_comm]
    congr 1 <;> exact Finset.sum_congr rfl fun i _ => Finset.sum_congr rfl fun l _ => by ring

theorem IsVJP_scaleRows (p : (Fin n → Fin m → ℝ) × (Fin n → ℝ)) :
    IsVJP (fun (p : (Fin n → Fin m → ℝ) × (Fin n → ℝ)) i j => p.1 i j * p.2 i) p
      (fun dy => (fun i j => dy i j * p.2 i, fun i => ∑ j, p.1 i j * dy i j)) := by
  let P := (Fin n → Fin m → ℝ) × (Fin n → ℝ)
  let a (i : Fin n) (j : Fin m) : P →L[ℝ] ℝ :=
    (ContinuousLinearMap.proj (R := ℝ) (φ := fun _ : Fin m => ℝ) j).comp
      ((ContinuousLinearMap.proj (R := ℝ) (φ := fun _ : Fin n => Fin m → ℝ) i).comp (ContinuousLinearMap.fst ℝ _ _))
  let b (i : Fin n) : P →L[ℝ] ℝ :=
    (ContinuousLinearMap.proj (R := ℝ) (φ := fun _ : Fin n => ℝ) i).comp (ContinuousLinearMap.snd ℝ _ _)
  refine ⟨ContinuousLinearMap.pi fun i => ContinuousLinearMap.pi fun j => a i j p • b i + b i p • a i j, ?_, ?_⟩
  · exact hasFDerivAt_pi.2 fun i => hasFDerivAt_pi.2 fun j => (a i j).hasFDerivAt.mul (b i).hasFDerivAt
  · intro dy v
    have e : ∀ i j, (ContinuousLinearMap.pi fun i => ContinuousLinearMap.pi fun j => a i j p • b i + b i p • a i j) v i j =
        p.1 i j * v.2 i + p.2 i * v.1 i j := fun i j => rfl
    simp only [dot_prod, dot_pi, dot_real, e, Finset.sum_mul, ← Finset.sum_add_distrib]
    exact Finset.sum_congr rfl fun i _ => Finset.sum_congr rfl fun j _ => by ring
end

section
variable {N : ℕ} {sh : Fin N → ℕ × ℕ} {θ : Params sh} {ls : List ℕ} {m k : ℕ}

theorem npOuter_isMat {n : ℕ} {A B : Mat ℝ} {a : Fin n → Fin 1 → ℝ} {b : Fin 1 → Fin m → ℝ} (hA : IsMat A a) (hB : IsMat B b) :
    IsMat (npOuter A B) (fun i j => a i 0 * b 0 j) := by
  unfold npOuter
  rw [hA.1, hB.2.1]
  refine isMat_ofFn' _ _ fun i j => ?_
  exact congrArg₂ _ (hA.2.2 i 0) (hB.2.2 0 j)

/-- The weights that the code computes from the keys `y` and the query `q`. -/
theorem attentionWeights_isMat {K Q : Mat ℝ} {y : Fin ls.sum → Fin k → ℝ} {q : Fin 1 → Fin k → ℝ} (hK : IsMat K y) (hQ : IsMat Q q)
    (hn : 0 < ls.sum) : ∃ A, attentionWeights Q K ls = .ok A ∧
      IsMat A (fun i (_ : Fin 1) => attention ls (fun i => npClip (∑ l, y i l * q 0 l) (-20) 20) i) := by
  obtain ⟨S, eS, hS⟩ := hK.gemm_nn hQ.transpose
  obtain ⟨A, eA, hA⟩ := softmaxSequences_isMat hS hn
  refine ⟨A, ?_, hA.congr fun i j => ?_⟩
  · unfold attentionWeights
    simp only [eS, bind, Except.bind]
    exact eA
  · have : j = 0 := Subsingleton.elim _ _
    rw [this]

theorem attentionBackward_isMat {K Q A D : Mat ℝ} {y : Fin ls.sum → Fin k → ℝ} {q : Fin 1 → Fin k → ℝ} {a d : Fin ls.sum → ℝ}
    (hK : IsMat K y) (hQ : IsMat Q q) (hA : IsMat A (fun i (_ : Fin 1) => a i)) (hD : IsMat D (fun i (_ : Fin 1) => d i))
    (hn : 0 < ls.sum) : ∃ r : Mat ℝ × Mat ℝ, attentionBackward Q K A ls D = .ok r ∧
      IsMat r.1 (fun l (_ : Fin 1) => ∑ i : Fin ls.sum, y i l *
        (a i * d i - a i * ∑ i' : Fin ls.sum, if memberOf ls i' = memberOf ls i then a i' * d i' else 0)) ∧
      IsMat r.2 (fun i l => (a i * d i - a i * ∑ i' : Fin ls.sum, if memberOf ls i' = memberOf ls i then a i' * d i' else 0) * q 0 l) := by
  obtain ⟨S, eS, hS⟩ := backpropSoftmaxSequences_isMat hD hA hn
  obtain ⟨B, eB, hB⟩ := hK.gemm_tn hS
  refine ⟨(B, npOuter S Q), ?_, hB, npOuter_isMat hS hQ⟩
  unfold attentionBackward
  have eS' : backpropSoftmaxSequences D A (ls.map Int.ofNat) = .ok S := eS
  simp only [eS', eB, bind, Except.bind, pure, Except.pure]

theorem applyBackward_isMat {n : ℕ} {A X D : Mat ℝ} {a : Fin n → ℝ} {x d : Fin n → Fin m → ℝ}
    (hA : IsMat A (fun i (_ : Fin 1) => a i)) (hX : IsMat X x) (hD : IsMat D d) :
    ∃ r : Mat ℝ × Mat ℝ, applyBackward A X D = .ok r ∧ IsMat r.1 (fun i j => d i j * a i) ∧
      IsMat r.2 (fun i (_ : Fin 1) => ∑ j, x i j * d i j) := by
  obtain ⟨B, eB, hB⟩ := hX.npBinary hD (· * ·)
  obtain ⟨C, eC, hC⟩ := hD.npBinary_col hA (· * ·)
  refine ⟨(C, B.rowSums), ?_, hC, hB.rowSums⟩
  unfold applyBackward
  simp only [eB, eC, bind, Except.bind, pure, Except.pure]

theorem npClip_id (x : ℝ) (h : |x| ≤ 20) : npClip x (-20) 20 = x := by
  have := abs_le.1 h
  unfold npClip
  rw [max_eq_left this.1, min_eq_left this.2]

/-- Version 2 of the layer, with any layer for the keys that has exact gradients: the output is every row times its
weight, and the gradients of the input, the query and the parameters of the keys' layer are exact.  The batch has at
least one row, and the scores lie between -20 and 20. -/
theorem C61_attention_v2_partial {train : Bool} {L : Layer} {key : Params sh × (Fin ls.sum → Fin m → ℝ) → Fin ls.sum → Fin k → ℝ}
    {x : Fin ls.sum → Fin m → ℝ} (Q : Fin N) (hQ : sh Q = (1, k)) (hn : 0 < ls.sum)
    (hL : Exact L train (Kind.arr ls.sum m) (Kind.arr ls.sum k) key θ x)
    (hs : ∀ i, |∑ l, key (θ, x) i l * θ.vec Q hQ l| ≤ 20) :
    Exact (parametricAttentionV2 Q L) train (Kind.ragged ls m) (Kind.ragged ls m)
      (fun p i j => p.2 i j * attention ls (fun i => ∑ l, key p i l * p.1.vec Q hQ l) i) θ x := by
  refine Exact.intro' ?_
  rintro P v hP ⟨X, rfl, hX⟩
  have hPQ := hP.get Q hQ
  obtain ⟨_, bp, bk, eK, ⟨K, rfl, hK⟩, hbk, hcall⟩ := hL P (.arr X) hP ⟨X, rfl, hX⟩
  obtain ⟨A, eA, hA⟩ := attentionWeights_isMat hK hPQ hn
  have hA' : IsMat A (fun i (_ : Fin 1) => attention ls (fun i => ∑ l, key (θ, x) i l * θ.vec Q hQ l) i) := by
    refine hA.congr fun i _ => ?_
    congr 1
    funext i
    exact npClip_id _ (hs i)
  obtain ⟨Y, eY, hY⟩ := hX.npBinary_col hA' (· * ·)
  apply ok_intro
  · simp only [parametricAttentionV2, Val.raggedData, Val.lengths, Val.asArr, eK, eA, eY, bind, Except.bind, pure, Except.pure]
    rfl
  · refine ⟨⟨Y, rfl, hY⟩, ?_⟩
    have h1 : IsVJP (fun p : Params sh × (Fin ls.sum → Fin m → ℝ) => (key p, p.1.get Q hQ)) (θ, x) _ :=
      IsVJP_prod hbk (IsVJP_comp (f := fun p : Params sh × (Fin ls.sum → Fin m → ℝ) => p.1) (x := (θ, x)) (IsVJP_get Q hQ θ) (IsVJP_fst _))
    have h2 := IsVJP_comp (f := fun p : Params sh × (Fin ls.sum → Fin m → ℝ) => (key p, p.1.get Q hQ)) (IsVJP_score _) h1
    have h3 := IsVJP_comp (f := fun (p : Params sh × (Fin ls.sum → Fin m → ℝ)) i => ∑ l, key p i l * p.1.get Q hQ 0 l)
      (IsVJP_attention ls _) h2
    have h4 := IsVJP_prod (IsVJP_snd (θ, x)) h3
    have h5 := IsVJP_comp (f := fun (p : Params sh × (Fin ls.sum → Fin m → ℝ)) =>
      (p.2, attention ls (fun i => ∑ l, key p i l * p.1.get Q hQ 0 l))) (IsVJP_scaleRows _) h4
    refine ⟨_, h5, ?_⟩
    rintro _ dy G g ⟨D, rfl, hD⟩ hG
    obtain ⟨⟨dX, dA⟩, e1, hdX, hdA⟩ := applyBackward_isMat hA' hX hD
    obtain ⟨⟨dQ, dK⟩, e2, hdQ, hdK⟩ := attentionBackward_isMat hK hPQ hA' hdA hn
    obtain ⟨_, G1, e3, ⟨dX2, rfl, hdX2⟩, hG1⟩ := hcall (.arr dK) _ G g ⟨dK, rfl, hdK⟩ hG
    obtain ⟨G2, e4, hG2⟩ := hG1.incGrad Q hQ hdQ.transpose
    obtain ⟨dX3, e5, hdX3⟩ := hdX.npUpdate hdX2 (· + ·)
    refine ⟨.ragged dX3 ls, G2, ?_, ⟨dX3, rfl, ?_⟩, ?_⟩
    · simp only [e1, e2, e3, e4, e5]
    · refine hdX3.congr fun i j => ?_
      simp only [Prod.snd_add, Pi.add_apply, Pi.zero_apply, Prod.snd_zero, add_zero]
      rfl
    · rw [add_assoc] at hG2
      refine Eq.mp (congrArg (fun e => IsGrads G2 (g + e)) ?_) hG2
      simp only [Prod.fst_add, Prod.fst_zero, zero_add]
      congr 2
      funext _ l
      exact Finset.sum_congr rfl fun i _ => mul_comm _ _

/-- Version 1 of the layer is version 2 with the rows themselves as keys. -/
theorem parametricAttention_eq (Q : ℕ) : parametricAttention Q = parametricAttentionV2 Q noop := by
  funext train P v
  unfold parametricAttention parametricAttentionV2
  cases v <;> rfl

/-- Version 1 of the layer: the output is every row times its weight, where the score of a row is its product with the
query, and the gradients of the input and the query are exact.  The batch has at least one row, and the scores lie
between -20 and 20. -/
theorem C61_attention_partial {train : Bool} {x : Fin ls.sum → Fin m → ℝ} (Q : Fin N) (hQ : sh Q = (1, m)) (hn : 0 < ls.sum)
    (hs : ∀ i, |∑ l, x i l * θ.vec Q hQ l| ≤ 20) :
    Exact (parametricAttention Q) train (Kind.ragged ls m) (Kind.ragged ls m)
      (fun p i j => p.2 i j * attention ls (fun i => ∑ l, p.2 i l * p.1.vec Q hQ l) i) θ x := by
  rw [parametricAttention_eq]
  exact C61_attention_v2_partial Q hQ hn (C54_noop (Kind.arr ls.sum m) x) hs

/-- What version 1 of the layer computes from any input with at least one row: the scores are clipped. -/
noncomputable def clippedAttention (Q : Fin N) (hQ : sh Q = (1, m)) (p : Params sh × (Fin ls.sum → Fin m → ℝ)) (i : Fin ls.sum)
    (j : Fin m) : ℝ :=
  p.2 i j * attention ls (fun i => npClip (∑ l, p.2 i l * p.1.vec Q hQ l) (-20) 20) i
end

/-! ### Large scores -/

theorem Spec.IsGrads.unique {N : ℕ} {sh : Fin N → ℕ × ℕ} {G : GradStore} {g g' : Params sh} (h : IsGrads G g) (h' : IsGrads G g') :
    g = g' := by
  funext p
  have h1 := h p
  have h2 := h' p
  cases hG : G p with
  | none => rw [hG] at h1 h2; exact h1.trans h2.symm
  | some A =>
    rw [hG] at h1 h2
    funext i j
    exact (h1.2.2 i j).symm.trans (h2.2.2 i j)

/-- One query of width one. -/
def attShape : Fin 1 → ℕ × ℕ := fun _ => (1, 1)

/-- The query. -/
def attQuery : Params attShape := fun _ _ _ => 1

/-- One sequence of two rows. -/
def attRows : Fin [2].sum → Fin 1 → ℝ := fun i _ => if i.1 = 0 then 30 else 25

theorem attention_saturated (s : Fin [2].sum → ℝ) (hs : ∀ i, 20 ≤ s i) (i : Fin [2].sum) :
    attention [2] (fun i => npClip (s i) (-20) 20) i = 1 / 2 := by
  have h : ∀ i, npClip (s i) (-20) 20 = 20 := fun i => by
    unfold npClip
    rw [max_eq_left (by linarith [hs i]), min_eq_right (hs i)]
  have h0 : ∀ i : Fin [2].sum, memberOf [2] i = 0 := fun i => if_pos i.2
  unfold attention
  simp only [h, h0, if_true]
  rw [Fin.sum_const]
  have := (exp_pos (20 : ℝ)).ne'
  simp
  field_simp

theorem attOpen : IsOpen {p : Params attShape × (Fin [2].sum → Fin 1 → ℝ) | ∀ i, 20 < p.2 i 0 * p.1.get 0 rfl 0 0} := by
  rw [Set.setOf_forall]
  refine isOpen_iInter_of_finite fun i => isOpen_lt continuous_const ?_
  refine Continuous.mul ?_ ?_
  · exact (continuous_apply 0).comp ((continuous_apply i).comp continuous_snd)
  · have h : Continuous fun p : Params attShape × (Fin [2].sum → Fin 1 → ℝ) => p.1 0 := (continuous_apply 0).comp continuous_fst
    exact (continuous_apply (A := fun _ : Fin 1 => ℝ) 0).comp ((continuous_apply (A := fun _ : Fin 1 => Fin 1 → ℝ) 0).comp h)

/-- Scores above 20 are cut, so the weights do not depend on the query; but the callback adds a gradient for it.  So the
gradients are not those of the function that the layer computes. -/
theorem C61_large_scores_wrong : ¬ Exact (parametricAttention 0) true (Kind.ragged [2] 1) (Kind.ragged [2] 1)
    (clippedAttention (sh := attShape) 0 rfl) attQuery attRows := by
  intro h
  let dy : Fin [2].sum → Fin 1 → ℝ := fun i _ => if i.1 = 0 then 1 else 0
  let P : ParamVals := fun _ => Mat.ofFn 1 1 fun _ _ => 1
  let X : Mat ℝ := Mat.ofFn 2 1 fun i _ => if i = 0 then 30 else 25
  let D : Mat ℝ := Mat.ofFn 2 1 fun i _ => if i = 0 then 1 else 0
  have hX : IsMat X attRows := isMat_ofFn' _ _ fun i j => rfl
  have hD : IsMat D dy := isMat_ofFn' _ _ fun i j => rfl
  have hP : IsParams P attQuery := fun p => isMat_ofFn' _ _ fun i j => rfl
  have hn : 0 < [2].sum := by decide
  obtain ⟨v', cb, back, e, hv, hb, hcb⟩ := h P (.ragged X [2]) hP ⟨X, rfl, hX⟩
  obtain ⟨dv', G', e2, -, hG'⟩ := hcb (.ragged D [2]) dy (fun _ => none) 0 ⟨D, rfl, hD⟩ isGrads_none
  have hPQ : IsMat (P 0) (attQuery.get 0 rfl) := hP.get 0 rfl
  obtain ⟨A, eA, hA⟩ := attentionWeights_isMat hX hPQ hn
  have hw : ∀ i : Fin [2].sum, attention [2] (fun i => npClip (∑ l, attRows i l * attQuery.get 0 rfl 0 l) (-20) 20) i = 1 / 2 :=
    fun i => attention_saturated _ (fun i => by
      have e1 : ∑ l, attRows i l * attQuery.get 0 rfl 0 l = attRows i 0 * 1 := Fin.sum_univ_one _
      rw [e1]
      unfold attRows
      split <;> norm_num) i
  have hA' : IsMat A (fun (i : Fin [2].sum) (_ : Fin 1) => (1 / 2 : ℝ)) := hA.congr fun i _ => hw i
  obtain ⟨Y, eY, hY⟩ := hX.npBinary_col hA' (· * ·)
  obtain ⟨⟨dX, dA⟩, e3, hdX, hdA⟩ := applyBackward_isMat hA' hX hD
  obtain ⟨⟨dQ, dK⟩, e4, hdQ, hdK⟩ := attentionBackward_isMat hX hPQ hA' hdA hn
  obtain ⟨G2, e5, hG2⟩ := (isGrads_none (sh := attShape)).incGrad 0 rfl hdQ.transpose
  obtain ⟨dX3, e6, hdX3⟩ := hdX.npUpdate hdK (· + ·)
  have e0 : parametricAttention 0 true P (.ragged X [2]) = .ok (v', cb) := e
  simp only [parametricAttention, Val.raggedData, Val.lengths, eA, eY, bind, Except.bind, pure, Except.pure] at e0
  obtain ⟨rfl, rfl⟩ := Prod.mk.inj (Except.ok.inj e0)
  have e5' : incGrad (fun _ => none) 0 dQ.transpose = .ok G2 := e5
  simp only [Val.raggedData, Val.lengths, e3, e4, e5', e6] at e2
  obtain ⟨rfl, rfl⟩ := Prod.mk.inj (Except.ok.inj e2)
  have hnear : clippedAttention (sh := attShape) (ls := [2]) 0 rfl =ᶠ[nhds (attQuery, attRows)] fun p i j => p.2 i j * (1 / 2) := by
    filter_upwards [attOpen.mem_nhds (show (attQuery, attRows) ∈ _ from fun i => by
      show 20 < attRows i 0 * 1
      unfold attRows
      split <;> norm_num)] with p hp
    funext i j
    unfold clippedAttention
    congr 1
    refine attention_saturated _ (fun i => ?_) i
    have e1 : ∑ l, p.2 i l * p.1.vec 0 rfl l = p.2 i 0 * p.1.get 0 rfl 0 0 := Fin.sum_univ_one _
    rw [e1]
    exact (hp i).le
  have hb2 : IsVJP (fun (p : Params attShape × (Fin [2].sum → Fin 1 → ℝ)) (i : Fin [2].sum) (j : Fin 1) => p.2 i j * (1 / 2))
      (attQuery, attRows) back := by
    obtain ⟨f', h1, h2⟩ := hb
    exact ⟨f', h1.congr_of_eventuallyEq hnear.symm, h2⟩
  have hb3 := IsVJP_mask (sh := attShape) (θ := attQuery) (fun (_ : Fin [2].sum) (_ : Fin 1) => 1 / 2) attRows
  have hzero : (back dy).1 = 0 := by rw [IsVJP_unique hb2 hb3]
  rw [hzero] at hG'
  have h1 := congrArg (fun g : Params attShape => g.get 0 rfl 0 0) (IsGrads.unique hG2 hG')
  have h0 : ∀ i : Fin [2].sum, memberOf [2] i = 0 := fun i => if_pos i.2
  simp only [Params.get, Params.put, zero_add, Pi.single_eq_same, h0, if_true] at h1
  clear * - h1
  have sum2 : ∀ f : Fin [2].sum → ℝ, ∑ x, f x = f ⟨0, by decide⟩ + f ⟨1, by decide⟩ := fun f => Fin.sum_univ_two f
  rw [sum2] at h1
  simp only [sum2, Fin.sum_univ_one] at h1
  norm_num [attRows, dy] at h1

/-- A batch whose sequences are all empty makes the layer fail. -/
theorem C61_no_rows_fails (train : Bool) (P : ParamVals) (Q : ℕ) (X : Mat ℝ) (ls : List ℕ) (hX : X.rows = 0) (hQ : (P Q).rows = 1)
    (hc : X.cols = (P Q).cols) (hls : ls ≠ []) :
    parametricAttention Q train P (.ragged X ls) = .error .indexError := by
  have h1 : gemm X (P Q).transpose false false = .ok (Mat.ofFn X.rows (P Q).rows fun i j =>
      ∑ k ∈ Finset.range X.cols, X.at i k * (P Q).transpose.at k j) := if_pos hc
  have h2 := C37_all_empty_raises (((Mat.ofFn X.rows (P Q).rows fun i j =>
      ∑ k ∈ Finset.range X.cols, X.at i k * (P Q).transpose.at k j).map (fun x => npClip x (-20) 20)).map exp) ls hX
      (show 0 < (P Q).rows by omega) hls
  have h3 : softmaxSequences (Mat.ofFn X.rows (P Q).rows fun i j =>
      ∑ k ∈ Finset.range X.cols, X.at i k * (P Q).transpose.at k j) (ls.map Int.ofNat) = .error .indexError := by
    unfold softmaxSequences
    have h4 := h2.1
    unfold asInts at h4
    simp only [h4, bind, Except.bind]
  simp only [parametricAttention, Val.raggedData, Val.lengths, attentionWeights, h1, h3, bind, Except.bind]

/-! ### An instance -/

/-- Two sequences, one of them of one row. -/
example : Exact (parametricAttention 0) true (Kind.ragged [2, 0, 1] 1) (Kind.ragged [2, 0, 1] 1)
    (fun p i j => p.2 i j * attention [2, 0, 1] (fun i => ∑ l, p.2 i l * p.1.vec 0 rfl l) i) attQuery (fun i _ => i.1) := by
  refine C61_attention_partial (sh := attShape) (θ := attQuery) (ls := [2, 0, 1]) 0 rfl (by decide) fun i => ?_
  have e : ∑ l, (i.1 : ℝ) * attQuery.vec 0 rfl l = (i.1 : ℝ) * 1 := Fin.sum_univ_one _
  rw [e, mul_one, abs_of_nonneg (Nat.cast_nonneg _)]
  have : i.1 ≤ 20 := by have := i.2; simp only [List.sum_cons, List.sum_nil] at this; omega
  exact_mod_cast this

/-- With a linear layer for the keys. -/
example (θ : Params (fun p : Fin 3 => if p = 0 then (1, 1) else if p = 1 then (1, 2) else (1, 1)))
    (x : Fin [1, 3].sum → Fin 2 → ℝ)
    (hs : ∀ i, |∑ l, affine x (θ.get 1 rfl) (θ.vec 2 rfl) i l * θ.vec 0 rfl l| ≤ 20) :=
  C61_attention_v2_partial (train := true) 0 rfl (by decide) (C56_linear 1 2 rfl rfl true θ x) hs

end Thinc
