import Verif.Model.SoftmaxLayer
import Verif.Spec.Training
import Verif.Props.CrossentropyGrad
import Verif.Props.Dense
import Verif.Props.Dropout
import Verif.Lemmas.Attention
/-!
# C73: Softmax with the cross entropy.  C62: MultiSoftmax
-/
namespace Thinc
open Spec Spec.Tensor

theorem isMat_ofFin {n m : ℕ} (x : Fin n → Fin m → ℝ) : IsMat (Mat.ofFin x) x :=
  isMat_ofFn' _ _ fun i j => dif_pos ⟨i.2, j.2⟩

theorem Spec.IsMat.softmax {n m : ℕ} {Y : Mat ℝ} {y : Fin n → Fin m → ℝ} (hY : IsMat Y y) (hm : 0 < m) (T : ℝ) :
    ∃ S, Y.softmax T = .ok S ∧ IsMat S (fun i => Spec.softmax fun k => y i k / T) := by
  obtain ⟨rfl, rfl, h⟩ := hY
  have e : (fun (i : Fin Y.rows) (j : Fin Y.cols) => Y.at i j) = y := by
    funext i j
    exact h i j
  unfold Mat.softmax
  rw [e]
  clear h e
  generalize Y.rows = n at *
  generalize Y.cols = m at *
  obtain ⟨k, rfl⟩ : ∃ k, m = k + 1 := ⟨m - 1, by omega⟩
  rw [softmax_eq]
  exact ⟨_, rfl, isMat_ofFin _⟩

section
variable {N : ℕ} {sh : Fin N → ℕ × ℕ} {n nO nI : ℕ}

theorem affine_run {P : ParamVals} {θ : Params sh} (hP : IsParams P θ) (W b : Fin N) (hW : sh W = (nO, nI)) (hb : sh b = (1, nO))
    {X : Mat ℝ} {x : Fin n → Fin nI → ℝ} (hX : IsMat X x) :
    ∃ Z, opsAffine X (P W) (P b) = .ok Z ∧ IsMat Z (affine x (θ.get W hW) (θ.vec b hb)) := by
  obtain ⟨Y, eY, hY⟩ := hX.gemm_nt (hP.get W hW)
  obtain ⟨Z, eZ, hZ⟩ := hY.npUpdate_row (hP.get b hb) (· + ·)
  refine ⟨Z, ?_, hZ⟩
  simp only [opsAffine, addBias, eY, eZ, bind, Except.bind]

/-- The common end of the callbacks, as the vector-Jacobian product of `X Wᵀ + b`. -/
theorem denseBackprop_run {P : ParamVals} {θ : Params sh} (hP : IsParams P θ) (W b : Fin N) (hW : sh W = (nO, nI)) (hb : sh b = (1, nO))
    {X D : Mat ℝ} {x : Fin n → Fin nI → ℝ} {d : Fin n → Fin nO → ℝ} (hX : IsMat X x) (hD : IsMat D d) (bFirst : Bool)
    {back : (Fin n → Fin nO → ℝ) → Params sh × (Fin n → Fin nI → ℝ)}
    (hv : IsVJP (fun p : Params sh × (Fin n → Fin nI → ℝ) => affine p.2 (p.1.get W hW) (p.1.vec b hb)) (θ, x) back)
    {G : GradStore} {g : Params sh} (hG : IsGrads G g) :
    ∃ dX G', denseBackprop W b bFirst P X D G = .ok (.arr dX, G') ∧ IsMat dX (back d).2 ∧ IsGrads G' (g + (back d).1) := by
  rw [IsVJP_unique hv (IsVJP_params2 W b hW hb (IsVJP_affine ((θ.get W hW, θ.get b hb), x)))]
  obtain ⟨dW, eW, hdW⟩ := hD.gemm_tn hX
  obtain ⟨dX, eX, hdX⟩ := hD.gemm_nn (hP.get W hW)
  cases bFirst with
  | true =>
    obtain ⟨G1, e1, hG1⟩ := hG.incGrad b hb hD.colSums
    obtain ⟨G2, e2, hG2⟩ := hG1.incGrad W hW hdW
    refine ⟨dX, G2, ?_, hdX, ?_⟩
    · simp only [denseBackprop, if_true, bind, Except.bind, e1, eW, e2, eX, pure, Except.pure]
    · rw [add_assoc, add_comm (Params.put b hb _)] at hG2
      exact hG2
  | false =>
    obtain ⟨G1, e1, hG1⟩ := hG.incGrad W hW hdW
    obtain ⟨G2, e2, hG2⟩ := hG1.incGrad b hb hD.colSums
    refine ⟨dX, G2, ?_, hdX, ?_⟩
    · simp only [denseBackprop, if_false, Bool.false_eq_true, bind, Except.bind, e1, eW, e2, eX, pure, Except.pure]
    · rw [add_assoc] at hG2
      exact hG2

theorem IsVJP_affine_params (W b : Fin N) (hW : sh W = (nO, nI)) (hb : sh b = (1, nO)) (θ : Params sh) (x : Fin n → Fin nI → ℝ) :
    ∃ back, IsVJP (fun p : Params sh × (Fin n → Fin nI → ℝ) => affine p.2 (p.1.get W hW) (p.1.vec b hb)) (θ, x) back :=
  ⟨_, IsVJP_params2 W b hW hb (IsVJP_affine ((θ.get W hW, θ.get b hb), x))⟩

/-! ### MultiSoftmax -/

theorem multiSoftmaxLoop_ok {m : ℕ} {Y : Mat ℝ} {y : Fin n → Fin m → ℝ} (hY : IsMat Y y) (nOs : List ℕ) (hpos : ∀ k ∈ nOs, 0 < k)
    (i : ℕ) (hi : i + nOs.sum ≤ m) : multiSoftmaxLoop Y nOs i = .ok () := by
  induction nOs generalizing i with
  | nil => rfl
  | cons k nOs ih =>
    rw [List.sum_cons] at hi
    have hk := hpos k (List.mem_cons_self)
    have hB : IsMat (Y.colBlock i (i + k)) (fun (r : Fin n) (c : Fin k) => y r ⟨i + c, by omega⟩) := by
      unfold Mat.colBlock
      rw [hY.1, hY.2.1, Nat.min_eq_left (by omega : i + k ≤ m), Nat.min_eq_left (by omega : i ≤ m), Nat.add_sub_cancel_left]
      exact isMat_ofFn' _ _ fun r c => hY.at r.2 (by omega)
    obtain ⟨S, eS, -⟩ := hB.softmax hk 1
    simp only [multiSoftmaxLoop, eS, bind, Except.bind]
    exact ih (fun k hk => hpos k (List.mem_cons_of_mem _ hk)) (i + k) (by omega)

/-- MultiSoftmax returns `X Wᵀ + b` itself, without any softmax, with the exact gradients of that. -/
theorem C62_multisoftmax_partial (W b : Fin N) (hW : sh W = (nO, nI)) (hb : sh b = (1, nO)) (nOs : List ℕ)
    (hpos : ∀ k ∈ nOs, 0 < k) (hsum : nOs.sum = nO) (train : Bool) (θ : Params sh) (x : Fin n → Fin nI → ℝ) :
    Exact (multiSoftmax W b nOs) train (Kind.arr n nI) (Kind.arr n nO)
      (fun p => affine p.2 (p.1.get W hW) (p.1.vec b hb)) θ x := by
  obtain ⟨back, hv⟩ := IsVJP_affine_params W b hW hb θ x
  refine Exact.intro hv ?_
  rintro P v hP ⟨X, rfl, hX⟩
  obtain ⟨Y, eY, hY⟩ := affine_run hP W b hW hb hX
  have eL := multiSoftmaxLoop_ok hY nOs hpos 0 (by omega)
  simp only [opsAffine, bind, Except.bind] at eY
  apply ok_intro
  · simp only [multiSoftmax, Val.asArr, bind, Except.bind, pure, Except.pure]
    split at eY
    · exact absurd eY (by simp)
    · rename_i e
      simp only [e, eY, eL]
      rfl
  · refine ⟨⟨Y, rfl, hY⟩, ?_⟩
    rintro _ dy G g ⟨D, rfl, hD⟩ hG
    obtain ⟨dX, G', e, h1, h2⟩ := denseBackprop_run hP W b hW hb hX hD false hv hG
    exact ⟨.arr dX, G', by simp only [e], ⟨dX, rfl, h1⟩, h2⟩

/-- After `init`, where all weights are zero, every entry of the output is zero, for every input.  So no block adds up
to one. -/
theorem C62_not_distributions (W b : Fin N) (hW : sh W = (nO, nI)) (hb : sh b = (1, nO)) (nOs : List ℕ)
    (hpos : ∀ k ∈ nOs, 0 < k) (hsum : nOs.sum = nO) (train : Bool) (P : ParamVals) (hP : IsParams P (0 : Params sh)) (X : Mat ℝ)
    (hX : X.cols = nI) :
    ∃ Y callback, multiSoftmax W b nOs train P (.arr X) = .ok (.arr Y, callback) ∧ Y.rows = X.rows ∧ Y.cols = nO ∧
      ∀ i < Y.rows, ∀ start stop, stop ≤ nO → ∑ j ∈ Finset.Ico start stop, Y.at i j = 0 := by
  obtain ⟨_, cb, _, e, ⟨Y, rfl, hY⟩, -⟩ := C62_multisoftmax_partial W b hW hb nOs hpos hsum train 0
    (fun (i : Fin X.rows) (j : Fin nI) => X.at i j) P (.arr X) hP ⟨X, rfl, rfl, hX, fun _ _ => rfl⟩
  refine ⟨Y, cb, e, hY.1, hY.2.1, fun i hi start stop hs => Finset.sum_eq_zero fun j hj => ?_⟩
  have h := hY.at (i := i) (j := j) (by rw [← hY.1]; exact hi) (by have := (Finset.mem_Ico.1 hj).2; omega)
  rw [h]
  simp [affine, Params.get, Params.vec]

/-! ### Softmax -/

theorem IsVJP_divide (T : ℝ) (z : Fin n → Fin nO → ℝ) :
    IsVJP (fun (z : Fin n → Fin nO → ℝ) i k => z i k / T) z (fun dy i k => dy i k / T) := by
  refine IsVJP_linear' (fun x y => ?_) (fun a x => ?_) fun dy v => ?_
  · funext i j; simp [add_div]
  · funext i j; simp [mul_div_assoc]
  · simp only [dot_pi, dot_real]
    exact Finset.sum_congr rfl fun i _ => Finset.sum_congr rfl fun j _ => by ring

theorem softmaxLayer_run (W b : Fin N) (hW : sh W = (nO, nI)) (hb : sh b = (1, nO)) (hO : 0 < nO) {normalize train : Bool} {T : ℝ}
    (hT : 0 < T) (hnt : (normalize || train) = true) {P : ParamVals} {θ : Params sh} (hP : IsParams P θ) {X : Mat ℝ}
    {x : Fin n → Fin nI → ℝ} (hX : IsMat X x) :
    ∃ Y, softmaxLayer W b normalize T train P (.arr X) = .ok (.arr Y, softmaxBackprop W b T P X Y) ∧
      IsMat Y (fun i => Spec.softmax fun k => affine x (θ.get W hW) (θ.vec b hb) i k / T) := by
  obtain ⟨Z, eZ, hZ⟩ := affine_run hP W b hW hb hX
  obtain ⟨S, eS, hS⟩ := hZ.softmax hO T
  refine ⟨S, ?_, hS⟩
  simp only [softmaxLayer, Val.asArr, bind, Except.bind, not_le.2 hT, if_false, eZ, hnt, if_true, eS, pure, Except.pure]

/-- The output of Softmax: the softmax of `(X Wᵀ + b) / temperature` in every row, so positive numbers that add up to
one. -/
theorem C73_forward (W b : Fin N) (hW : sh W = (nO, nI)) (hb : sh b = (1, nO)) (hO : 0 < nO) {normalize train : Bool} {T : ℝ}
    (hT : 0 < T) (hnt : (normalize || train) = true) {P : ParamVals} {θ : Params sh} (hP : IsParams P θ) {X : Mat ℝ}
    {x : Fin n → Fin nI → ℝ} (hX : IsMat X x) :
    ∃ Y callback y, softmaxLayer W b normalize T train P (.arr X) = .ok (.arr Y, callback) ∧ IsMat Y y ∧
      (∀ i : Fin n, y i = Spec.softmax fun k => affine x (θ.get W hW) (θ.vec b hb) i k / T) ∧
      (∀ i k, 0 < y i k) ∧ ∀ i, ∑ k, y i k = 1 := by
  obtain ⟨Y, e, hY⟩ := softmaxLayer_run W b hW hb hO hT hnt hP hX
  have : Nonempty (Fin nO) := ⟨⟨0, hO⟩⟩
  exact ⟨Y, _, _, e, hY, fun _ => rfl, fun i k => specSoftmax_pos _ _, fun i => specSoftmax_sum _⟩

/-- Without normalization the output is `X Wᵀ + b`, and the callback always raises. -/
theorem C73_unnormalized (W b : Fin N) (hW : sh W = (nO, nI)) (hb : sh b = (1, nO)) {T : ℝ} (hT : 0 < T) {P : ParamVals}
    {θ : Params sh} (hP : IsParams P θ) {X : Mat ℝ} {x : Fin n → Fin nI → ℝ} (hX : IsMat X x) :
    ∃ Y callback, softmaxLayer W b false T false P (.arr X) = .ok (.arr Y, callback) ∧
      IsMat Y (affine x (θ.get W hW) (θ.vec b hb)) ∧ ∀ dY G, callback dY G = .error .valueError := by
  obtain ⟨Z, eZ, hZ⟩ := affine_run hP W b hW hb hX
  refine ⟨Z, _, ?_, hZ, fun _ _ => rfl⟩
  simp only [softmaxLayer, Val.asArr, bind, Except.bind, not_le.2 hT, if_false, eZ, Bool.or_self, Bool.false_eq_true, pure, Except.pure]

/-- A temperature that is not positive is rejected in every call. -/
theorem C73_temperature (W b : ℕ) (normalize train : Bool) {T : ℝ} (hT : T ≤ 0) (P : ParamVals) (X : Mat ℝ) :
    softmaxLayer W b normalize T train P (.arr X) = .error .valueError := by
  simp only [softmaxLayer, Val.asArr, bind, Except.bind, hT, if_true]

/-- The callback rejects a gradient of another shape than the output. -/
theorem C73_shape_checked (W b : ℕ) (T : ℝ) (P : ParamVals) (X Y D : Mat ℝ) (G : GradStore)
    (h : D.rows ≠ Y.rows ∨ D.cols ≠ Y.cols) : softmaxBackprop W b T P X Y (.arr D) G = .error .valueError := by
  have : ¬ (D.rows = Y.rows ∧ D.cols = Y.cols) := by tauto
  simp only [softmaxBackprop, Val.asArr, checkConsistency, this, if_false, bind, Except.bind]

theorem softmax_trains (W b : Fin N) (hW : sh W = (nO, nI)) (hb : sh b = (1, nO)) (hO : 0 < nO) {normalize train : Bool} {T : ℝ}
    (hT : 0 < T) (hnt : (normalize || train) = true) (θ : Params sh) (x : Fin n → Fin nI → ℝ) {lossGrad : Val → Except PyErr Val}
    {ℓ : (Fin n → Fin nO → ℝ) → ℝ} {d : Fin n → Fin nO → ℝ}
    (hgrad : ∀ Y, IsMat Y (fun i => Spec.softmax fun k => affine x (θ.get W hW) (θ.vec b hb) i k / T) →
      ∃ D, lossGrad (.arr Y) = .ok (.arr D) ∧ IsMat D d)
    (hℓ : IsVJP ℓ (fun i k => affine x (θ.get W hW) (θ.vec b hb) i k / T) (fun dl i k => dl * d i k)) :
    Trains (softmaxLayer W b normalize T) train (Kind.arr n nI) lossGrad
      (fun p => ℓ fun i k => affine p.2 (p.1.get W hW) (p.1.vec b hb) i k / T) θ x := by
  obtain ⟨back, hv⟩ := IsVJP_affine_params W b hW hb θ x
  intro P v hP hv'
  obtain ⟨X, rfl, hX⟩ := hv'
  obtain ⟨Y, e, hY⟩ := softmaxLayer_run W b hW hb hO hT hnt hP hX
  obtain ⟨D, eD, hD⟩ := hgrad Y hY
  have h2 : IsVJP (fun p : Params sh × (Fin n → Fin nI → ℝ) => ℓ fun i k => affine p.2 (p.1.get W hW) (p.1.vec b hb) i k / T) (θ, x)
      (fun dl => back fun i k => dl * d i k / T) := by
    have h1 := IsVJP_comp (f := fun (p : Params sh × (Fin n → Fin nI → ℝ)) => affine p.2 (p.1.get W hW) (p.1.vec b hb))
      (x := (θ, x)) (IsVJP_divide T _) hv
    have h3 := IsVJP_comp (f := fun (p : Params sh × (Fin n → Fin nI → ℝ)) i k => affine p.2 (p.1.get W hW) (p.1.vec b hb) i k / T)
      (x := (θ, x)) hℓ h1
    exact h3
  refine ⟨.arr Y, softmaxBackprop W b T P X Y, .arr D, fun dl => back fun i k => dl * d i k / T, e, eD, h2, ?_⟩
  intro G g hG
  have hD' : IsMat (if T ≠ 1 then D.map (· / T) else D) (fun i k => 1 * d i k / T) := by
    split
    · exact (isMat_map hD (· / T)).congr fun i k => by rw [one_mul]
    · rename_i h
      refine hD.congr fun i k => ?_
      rw [not_not.1 h, one_mul, div_one]
  obtain ⟨dX, G', e2, h3, h4⟩ := denseBackprop_run hP W b hW hb hX hD' true hv hG
  refine ⟨.arr dX, G', ?_, ⟨dX, rfl, h3⟩, h4⟩
  have hs : D.rows = Y.rows ∧ D.cols = Y.cols := ⟨hD.1.trans hY.1.symm, hD.2.1.trans hY.2.1.symm⟩
  simp only [softmaxBackprop, Val.asArr, checkConsistency, if_pos hs, bind, Except.bind, e2]

/-- `CategoricalCrossentropy.get_grad` on the output of a layer. -/
noncomputable def cceGrad (c : CCE) (truths : Truths) (Y : Val) : Except PyErr Val := do
  return .arr (← c.getGrad (← Y.asArr) truths)

theorem softmax_isProb' {Y : Mat ℝ} {z : Fin n → Fin nO → ℝ} (hY : IsMat Y fun i => Spec.softmax (z i)) : isProb Y := by
  intro i hi k hk
  obtain ⟨hr, hc, h⟩ := hY
  rw [hr] at hi
  rw [hc] at hk
  have h1 := softmax_isProb z i hi k hk
  have e1 := toMat_at (fun i => Spec.softmax (z i)) ⟨i, hi⟩ ⟨k, hk⟩
  have e2 := h ⟨i, hi⟩ ⟨k, hk⟩
  rw [e2.trans e1.symm]
  exact h1

/-- Labels: the gradient that `get_grad` returns for the softmax of `z`. -/
theorem cce_labels (c : CCE) (z : Fin n → Fin nO → ℝ) (hs : validSmoothing nO c.smoothing)
    (hn : c.namesFit nO) (ts : List Int) (hlen : ts.length = n)
    (hts : ∀ y ∈ ts, (0 ≤ y ∧ y < nO) ∨ (c.missing = .int y ∧ -(nO : Int) ≤ y ∧ y < nO))
    (truths : Truths) (htr : truths = .intList ts ∨ truths = .intArray ts)
    (target : Fin n → Option (Fin nO → ℝ))
    (hmiss : ∀ i : Fin n, c.missing = .int (ts.get (i.cast hlen.symm)) → target i = none)
    (htgt : ∀ i : Fin n, c.missing ≠ .int (ts.get (i.cast hlen.symm)) →
      target i = some (fun k : Fin nO => smoothed nO c.smoothing (ts.get (i.cast hlen.symm)).toNat k)) :
    (∀ i t, target i = some t → ∑ k, t k = 1) ∧
    ∀ Y, IsMat Y (fun i => Spec.softmax (z i)) → ∃ D, cceGrad c truths (.arr Y) = .ok (.arr D) ∧
      IsMat D (fun i k => match target i with | none => 0 | some t => (Spec.softmax (z i) k - t k) / c.divisor n) := by
  refine ⟨fun i t hit => ?_, fun Y hY => ?_⟩
  · by_cases hm : c.missing = .int (ts.get (i.cast hlen.symm))
    · rw [hmiss i hm] at hit; simp at hit
    · rw [htgt i hm] at hit
      obtain rfl := Option.some.inj hit
      rw [Fin.sum_univ_eq_sum_range (fun k => smoothed nO c.smoothing (ts.get (i.cast hlen.symm)).toNat k)]
      refine smoothed_sum nO c.smoothing _ ?_ ?_
      · rcases hts _ (List.get_mem ts (i.cast hlen.symm)) with h | h
        · omega
        · exact absurd h.1 hm
      · rcases hs with h | h
        · exact Or.inl h.1
        · exact Or.inr h.2.1
  · obtain ⟨rfl, rfl, hYe⟩ := id hY
    obtain ⟨D, d1, d2, d3, d4⟩ := C46_int_labels_partial c Y ⟨hs, hn, softmax_isProb' hY⟩ ts hlen hts truths htr
    refine ⟨D, ?_, d2, d3, fun i k => ?_⟩
    · simp only [cceGrad, Val.asArr, d1, bind, Except.bind, pure, Except.pure]
    · have hi : i.val < ts.length := by omega
      obtain ⟨e1, e2⟩ := d4 i.val hi k.val k.2
      beta_reduce
      by_cases hm : c.missing = .int ts[i.val]
      · rw [e1 hm, hmiss i hm]
      · rw [e2 hm, htgt i hm, hYe]
        rfl

/-- **C73** A training step with Softmax and `CategoricalCrossentropy` on labels: the gradient of the batch's cross
entropy (of the softmax of the logits divided by the temperature) is added to the gradients of the weights and the bias,
and the callback returns its gradient with respect to the input. -/
theorem C73_labels (W b : Fin N) (hW : sh W = (nO, nI)) (hb : sh b = (1, nO)) (hO : 0 < nO) {normalize train : Bool} {T : ℝ}
    (hT : 0 < T) (hnt : (normalize || train) = true) (θ : Params sh) (x : Fin n → Fin nI → ℝ)
    (c : CCE) (hs : validSmoothing nO c.smoothing)
    (hn : c.namesFit nO) (ts : List Int) (hlen : ts.length = n)
    (hts : ∀ y ∈ ts, (0 ≤ y ∧ y < nO) ∨ (c.missing = .int y ∧ -(nO : Int) ≤ y ∧ y < nO))
    (truths : Truths) (htr : truths = .intList ts ∨ truths = .intArray ts)
    (target : Fin n → Option (Fin nO → ℝ))
    (hmiss : ∀ i : Fin n, c.missing = .int (ts.get (i.cast hlen.symm)) → target i = none)
    (htgt : ∀ i : Fin n, c.missing ≠ .int (ts.get (i.cast hlen.symm)) →
      target i = some (fun k : Fin nO => smoothed nO c.smoothing (ts.get (i.cast hlen.symm)).toNat k)) :
    Trains (softmaxLayer W b normalize T) train (Kind.arr n nI) (cceGrad c truths)
      (fun p => batchXent c target fun i k => affine p.2 (p.1.get W hW) (p.1.vec b hb) i k / T) θ x := by
  obtain ⟨h1, h2⟩ := cce_labels c (fun i k => affine x (θ.get W hW) (θ.vec b hb) i k / T) hs hn ts hlen hts truths htr target hmiss htgt
  exact softmax_trains W b hW hb hO hT hnt θ x h2 (IsVJP_batchXent c target _ h1)

/-- The same for a matrix of targets whose rows are probability distributions. -/
theorem C73_targets (W b : Fin N) (hW : sh W = (nO, nI)) (hb : sh b = (1, nO)) (hO : 0 < nO) {normalize train : Bool} {T : ℝ}
    (hT : 0 < T) (hnt : (normalize || train) = true) (θ : Params sh) (x : Fin n → Fin nI → ℝ)
    (c : CCE) (hs : c.smoothing = 0) (hn : c.namesFit nO) (t : Fin n → Fin nO → ℝ) (A : Mat ℝ) (hA : IsMat A t)
    (ht : ∀ i k, 0 ≤ t i k) (hsum : ∀ i, ∑ k, t i k = 1) (hmiss : ∀ i < n, ¬ missingRow c A i) :
    Trains (softmaxLayer W b normalize T) train (Kind.arr n nI) (cceGrad c (.floats A))
      (fun p => batchXent c (fun i => some (t i)) fun i k => affine p.2 (p.1.get W hW) (p.1.vec b hb) i k / T) θ x := by
  refine softmax_trains W b hW hb hO hT hnt θ x ?_ (IsVJP_batchXent c _ _ fun i s h => by
    obtain rfl := Option.some.inj h; exact hsum i)
  intro Y hY
  have hp := softmax_isProb' hY
  have hprob : isProb A := by
    intro i hi k hk
    have e := hA.at (i := i) (j := k) (by rw [← hA.1]; exact hi) (by rw [← hA.2.1]; exact hk)
    rw [e]
    refine ⟨ht _ _, ?_⟩
    rw [← hsum ⟨i, by rw [← hA.1]; exact hi⟩]
    exact Finset.single_le_sum (f := fun k => t ⟨i, by rw [← hA.1]; exact hi⟩ k) (fun j _ => ht _ j) (Finset.mem_univ _)
  obtain ⟨D, d1, d2, d3, d4⟩ := C46_matrix_targets c Y A ⟨Or.inl ⟨hs, by rw [hY.2.1]; exact hO⟩, by rw [hY.2.1]; exact hn, hp⟩ hs
    (hA.1.trans hY.1.symm) (hA.2.1.trans hY.2.1.symm) hprob
  refine ⟨D, ?_, d2.trans hY.1, d3.trans hY.2.1, fun i k => ?_⟩
  · simp only [cceGrad, Val.asArr, d1, bind, Except.bind, pure, Except.pure]
  · rw [(d4 i (by rw [hY.1]; exact i.2) k (by rw [hY.2.1]; exact k.2)).2 (hmiss i i.2), hY.2.2, hA.2.2, hY.1]
end

/-- Two groups of outputs of sizes 2 and 1. -/
example (θ : Params (fun p : Fin 2 => if p = 0 then (3, 2) else (1, 3))) (x : Fin 4 → Fin 2 → ℝ) :=
  C62_multisoftmax_partial 0 1 rfl rfl [2, 1] (by decide) (by decide) true θ x

/-- Two rows with given distributions over two classes. -/
example (θ : Params (fun p : Fin 2 => if p = 0 then (2, 3) else (1, 2))) (x : Fin 2 → Fin 3 → ℝ) :=
  C73_targets 0 1 rfl rfl (by decide) (normalize := false) (train := true) (T := 1) (by norm_num) rfl θ x
    ⟨false, none, .none, none, 0⟩ rfl (fun _ h => by simp at h) (fun _ _ => 1 / 2) (Mat.ofFn 2 2 fun _ _ => 1 / 2)
    (isMat_ofFn' _ _ fun _ _ => rfl) (fun _ _ => by norm_num) (fun _ => by norm_num) (fun _ _ => by simp [missingRow])

end Thinc
