import Verif.Props.SoftmaxLayer
import Verif.Props.Distance
import Verif.Props.Chain
/-!
# C73: training steps
-/
namespace Thinc
open Spec Spec.Tensor

section
variable {N : ℕ} {sh : Fin N → ℕ × ℕ} {E F : Type}
  [NormedAddCommGroup E] [NormedSpace ℝ E] [Tensor E] [NormedAddCommGroup F] [NormedSpace ℝ F] [Tensor F]

theorem Spec.Trains.comp {L : Layer} {Ls : List Layer} (hLs : Ls ≠ []) {train : Bool} {K : Kind E} {M : Kind F}
    {lossGrad : Val → Except PyErr Val} {f : Params sh × E → F} {ℓ : Params sh × F → ℝ} {θ : Params sh} {x : E}
    (hf : Exact L train K M f θ x) (hg : Trains (chain Ls) train M lossGrad ℓ θ (f (θ, x))) :
    Trains (chain (L :: Ls)) train K lossGrad (fun p => ℓ (p.1, f p)) θ x := by
  intro P v hP hv
  obtain ⟨v1, cb1, b1, e1, hv1, hb1, hc1⟩ := hf P v hP hv
  obtain ⟨v2, cb2, D, b2, e2, eD, hb2, hc2⟩ := hg P v1 hP hv1
  refine ⟨v2, fun dZ G => (do
      let (dY, G) ← cb2 dZ G
      cb1 dY G), D, _, ?_, eD, IsVJP_chain hb2 hb1, ?_⟩
  · rw [C51_composes L Ls hLs, e1]
    simp only [bind, Except.bind, e2]
    rfl
  · intro G g hG
    obtain ⟨dv1, G1, h1, hk1, hG1⟩ := hc2 G g hG
    obtain ⟨dv2, G2, h2, hk2, hG2⟩ := hc1 dv1 _ G1 _ hk1 hG1
    refine ⟨dv2, G2, ?_, hk2, ?_⟩
    · simp only [bind, Except.bind, h1, h2]
    · rw [← add_assoc]
      exact hG2

end

/-- Exact layers in front of a last layer that is trained with a loss: the whole chain is trained with the loss of its
last layer, and all parameters of all layers get their gradients, including parameters that layers share. -/
theorem C73_chain {N : ℕ} {sh : Fin N → ℕ × ℕ} {E F : Type}
    [NormedAddCommGroup E] [NormedSpace ℝ E] [Tensor E] [NormedAddCommGroup F] [NormedSpace ℝ F] [Tensor F]
    {train : Bool} {θ : Params sh} {Ls : List Layer} {L : Layer} {K : Kind E} {M : Kind F} {f : Params sh × E → F} {x : E}
    {lossGrad : Val → Except PyErr Val} {ℓ : Params sh × F → ℝ}
    (h : ExactChain train θ Ls K M f x) (hL : Trains L train M lossGrad ℓ θ (f (θ, x))) :
    Trains (chain (Ls ++ [L])) train K lossGrad (fun p => ℓ (p.1, f p)) θ x := by
  induction h with
  | one h =>
    refine Spec.Trains.comp (Ls := [L]) (by simp) h ?_
    rw [C51_one]; exact hL
  | @cons _ _ _ _ _ _ _ _ _ _ _ _ _ Ls _ _ _ f g _ h1 h2 ih =>
    exact Spec.Trains.comp (Ls := Ls ++ [L]) (ℓ := fun p => ℓ (p.1, g p)) (by simp) h1 (ih hL)

section
variable {N : ℕ} {sh : Fin N → ℕ × ℕ} {E F : Type}
  [NormedAddCommGroup E] [NormedSpace ℝ E] [Tensor E] [NormedAddCommGroup F] [NormedSpace ℝ F] [Tensor F]

/-- An exact layer (so also a network of exact layers) with a loss whose gradient is exact. -/
theorem C73_exact {L : Layer} {train : Bool} {K : Kind E} {M : Kind F} {f : Params sh × E → F} {θ : Params sh} {x : E}
    {lossGrad : Val → Except PyErr Val} {ℓ : F → ℝ} {d : ℝ → F} (hL : Exact L train K M f θ x)
    (hgrad : ∀ Y, M.val Y (f (θ, x)) → ∃ D, lossGrad Y = .ok D ∧ M.grad D (d 1)) (hℓ : IsVJP ℓ (f (θ, x)) d) :
    Trains L train K lossGrad (fun p => ℓ (f p)) θ x := by
  intro P v hP hv
  obtain ⟨Y, cb, b, e, hY, hb, hc⟩ := hL P v hP hv
  obtain ⟨D, eD, hD⟩ := hgrad Y hY
  exact ⟨Y, cb, D, _, e, eD, IsVJP_comp hℓ hb, fun G g hG => hc D _ G g hD hG⟩

/-- `L2Distance.get_grad` on the output of a layer. -/
noncomputable def l2GradVal (normalize : Bool) (truths : Mat ℝ) (Y : Val) : Except PyErr Val := do
  return .arr (← l2Grad normalize (← Y.asArr) truths)

/-- A training step of any exact network with `L2Distance`: the gradient of half the squared distance (divided by the
number of rows if `normalize` is set) is added to the gradients of all parameters. -/
theorem C73_l2 {L : Layer} {train : Bool} {K : Kind E} {n m : ℕ} {f : Params sh × E → Fin n → Fin m → ℝ} {θ : Params sh} {x : E}
    (hL : Exact L train K (Kind.arr n m) f θ x) (normalize : Bool) {A : Mat ℝ} {t : Fin n → Fin m → ℝ} (hA : IsMat A t) :
    Trains L train K (l2GradVal normalize A)
      (fun p => (∑ i, ∑ k, (f p i k - t i k) ^ 2) / (2 * if normalize then (n : ℝ) else 1)) θ x := by
  refine C73_exact (ℓ := fun y => sqDist y t / (2 * l2Divisor normalize n)) hL ?_ (IsVJP_sqDist (f (θ, x)) t _)
  rintro _ ⟨Y, rfl, hY⟩
  have hs : ¬ (Y.rows ≠ A.rows ∨ Y.cols ≠ A.cols) := by
    rw [hY.1, hY.2.1, hA.1, hA.2.1]; simp
  have hB : IsMat (Mat.ofFn Y.rows Y.cols (fun i j => Y.at i j - A.at i j)) (fun i k => f (θ, x) i k - t i k) := by
    rw [hY.1, hY.2.1]
    exact isMat_ofFn' _ _ fun i j => by rw [hY.2.2, hA.2.2]
  refine ⟨.arr (if normalize then (Mat.ofFn Y.rows Y.cols (fun i j => Y.at i j - A.at i j)).map (· / (Y.rows : ℝ)) else
    Mat.ofFn Y.rows Y.cols (fun i j => Y.at i j - A.at i j)), ?_, _, rfl, ?_⟩
  · simp only [l2GradVal, l2Grad, Val.asArr, if_neg hs, bind, Except.bind, pure, Except.pure]
  · cases normalize with
    | true =>
      simp only [if_true]
      refine (isMat_map hB (· / (Y.rows : ℝ))).congr fun i k => ?_
      rw [hY.1, l2Divisor, if_pos rfl, one_mul, mul_div_mul_left _ _ two_ne_zero]
    | false =>
      simp only [Bool.false_eq_true, if_false]
      refine hB.congr fun i k => ?_
      rw [l2Divisor, if_neg (by simp), one_mul, mul_div_mul_left _ _ two_ne_zero, div_one]
end

/-- Softmax on its own does not have the gradients of the function it computes: the callback passes the gradient on as
if it were that of the logits.  (With one class the output is always 1.) -/
theorem C73_softmax_alone_wrong :
    ¬ Exact (sh := fun _ : Fin 2 => (1, 1)) (softmaxLayer 0 1 true 1) true (Kind.arr 1 1) (Kind.arr 1 1)
      (fun p i => Spec.softmax fun k => affine p.2 (p.1.get 0 rfl) (p.1.vec 1 rfl) i k / 1) (fun _ _ _ => 1) (fun _ _ => 1) := by
  intro h
  let P : ParamVals := fun _ => Mat.ofFn 1 1 fun _ _ => 1
  let X : Mat ℝ := Mat.ofFn 1 1 fun _ _ => 1
  let θ : Params (fun _ : Fin 2 => (1, 1)) := fun _ _ _ => 1
  have hX : IsMat X (fun (_ : Fin 1) (_ : Fin 1) => 1) := isMat_ofFn' _ _ fun i j => rfl
  have hP : IsParams P θ := fun p => isMat_ofFn' _ _ fun i j => rfl
  obtain ⟨v', cb, back, e, hv, hb, hcb⟩ := h P (.arr X) hP ⟨X, rfl, hX⟩
  obtain ⟨Y, e2, hY⟩ := softmaxLayer_run (sh := fun _ : Fin 2 => (1, 1)) 0 1 rfl rfl Nat.one_pos (normalize := true) (train := true)
    one_pos rfl hP hX
  obtain ⟨rfl, rfl⟩ := Prod.mk.inj (Except.ok.inj (e.symm.trans e2))
  have hc : IsVJP (fun (p : Params (fun _ : Fin 2 => (1, 1)) × (Fin 1 → Fin 1 → ℝ)) (i : Fin 1) =>
      Spec.softmax fun k : Fin 1 => affine p.2 (p.1.get 0 rfl) (p.1.vec 1 rfl) i k / 1) (θ, fun _ _ => 1) (fun _ => 0) := by
    refine IsVJP_congr (IsVJP_const (fun (_ : Fin 1) (_ : Fin 1) => (1 : ℝ)) _) fun p => ?_
    funext i k
    unfold Spec.softmax
    rw [Fin.sum_univ_one, Subsingleton.elim k 0, div_self (Real.exp_pos _).ne']
  obtain ⟨dv', G', e3, ⟨dX, rfl, hdX⟩, -⟩ := hcb (.arr X) (fun _ _ => 1) (fun _ => none) 0 ⟨X, rfl, hX⟩ isGrads_none
  obtain ⟨bk, hbk⟩ := IsVJP_affine_params (n := 1) (sh := fun _ : Fin 2 => (1, 1)) 0 1 rfl rfl θ (fun _ _ => 1)
  obtain ⟨dX2, G2, e4, h1, -⟩ := denseBackprop_run (sh := fun _ : Fin 2 => (1, 1)) hP 0 1 rfl rfl hX hX true hbk isGrads_none
  have hs : X.rows = Y.rows ∧ X.cols = Y.cols := ⟨hX.1.trans hY.1.symm, hX.2.1.trans hY.2.1.symm⟩
  have e4' : denseBackprop 0 1 true P X X (fun _ => none) = .ok (.arr dX2, G2) := e4
  simp only [softmaxBackprop, Val.asArr, checkConsistency, if_pos hs, bind, Except.bind, ne_eq, not_true, if_false] at e3
  have e5 := (Prod.mk.inj (Except.ok.inj (e3.symm.trans e4'))).1
  have e6 : dX = dX2 := by injection e5
  rw [IsVJP_unique hb hc] at hdX
  rw [IsVJP_unique hbk (IsVJP_params2 0 1 rfl rfl (IsVJP_affine _))] at h1
  have a1 := hdX.2.2 0 0
  have a2 := h1.2.2 0 0
  rw [← e6, a1] at a2
  simp [Params.get, θ] at a2

/-- Two layers, labels with a missing value: the hypotheses of `C73_labels` and `C73_chain` can be met. -/
example (θ : Params (fun p : Fin 4 => if p = 0 then (2, 1) else if p = 1 then (1, 2) else if p = 2 then (3, 2) else (1, 3)))
    (x : Fin 2 → Fin 1 → ℝ) :=
  C73_chain (ExactChain.one (C56_linear 0 1 rfl rfl true θ x))
    (C73_labels 2 3 rfl rfl (by decide) (normalize := true) (T := 2) (by norm_num) rfl θ
      (affine x (θ.get 0 rfl) (θ.vec 1 rfl)) ⟨true, none, .int 1, none, 0.5⟩ (Or.inr (by norm_num)) (fun _ h => by simp at h)
      [2, 1] rfl (by simp) (.intList [2, 1]) (Or.inl rfl) ![some (fun k : Fin 3 => smoothed 3 0.5 2 k), none]
      (by
        intro i h
        fin_cases i
        · simp at h
        · rfl)
      (by
        intro i h
        fin_cases i
        · rfl
        · simp at h))

end Thinc
