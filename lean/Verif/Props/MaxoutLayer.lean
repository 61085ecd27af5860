import Verif.Model.MaxoutLayer
import Verif.Spec.MaxoutLayer
import Verif.Lemmas.Columns
import Verif.Props.Linear
import Verif.Props.Maxout
/-!
# C74: the Maxout layer
-/
namespace Thinc
open Spec Spec.Tensor Topology

theorem IsVJP_congr_nhds {E F : Type} [NormedAddCommGroup E] [NormedSpace ℝ E] [Tensor E]
    [NormedAddCommGroup F] [NormedSpace ℝ F] [Tensor F] {f g : E → F} {x : E} {b : F → E} (h : IsVJP g x b)
    (hfg : f =ᶠ[𝓝 x] g) : IsVJP f x b := by
  obtain ⟨g', h1, h2⟩ := h
  exact ⟨g', h1.congr_of_eventuallyEq hfg, h2⟩

section
variable {n nO nP nI : ℕ}

theorem pieceRow_val (o : Fin nO) (p : Fin nP) : (pieceRow o p : ℕ) = o * nP + p := by
  simp only [pieceRow, finProdFinEquiv_apply_val]
  rw [Nat.mul_comm, Nat.add_comm]

theorem sum_pieceRow (f : Fin (nO * nP) → ℝ) : ∑ j, f j = ∑ o, ∑ p, f (pieceRow o p) := by
  rw [← Finset.sum_product', Finset.univ_product_univ]
  exact (Equiv.sum_comp finProdFinEquiv f).symm

/-- The bias as one row. -/
def biasRow (b : Fin nO → Fin nP → ℝ) : Fin 1 → Fin (nO * nP) → ℝ :=
  fun _ j => b (finProdFinEquiv.symm j).1 (finProdFinEquiv.symm j).2

theorem biasRow_pieceRow (b : Fin nO → Fin nP → ℝ) (i : Fin 1) (o : Fin nO) (p : Fin nP) : biasRow b i (pieceRow o p) = b o p := by
  simp [biasRow, pieceRow]

theorem IsVJP_biasRow (b : Fin nO → Fin nP → ℝ) : IsVJP biasRow b (fun d o p => d 0 (pieceRow o p)) := by
  refine IsVJP_linear' (fun x y => rfl) (fun a x => rfl) fun dy v => ?_
  simp only [dot_pi, dot_real, Fin.sum_univ_one, sum_pieceRow, biasRow_pieceRow]

/-- The winning pieces' gradient. -/
def routeGrad (w : Fin n → Fin nO → Fin nP) (d : Fin n → Fin nO → ℝ) : Fin n → Fin (nO * nP) → ℝ :=
  fun i j => if w i (finProdFinEquiv.symm j).1 = (finProdFinEquiv.symm j).2 then d i (finProdFinEquiv.symm j).1 else 0

theorem routeGrad_pieceRow (w : Fin n → Fin nO → Fin nP) (d : Fin n → Fin nO → ℝ) (i : Fin n) (o : Fin nO) (p : Fin nP) :
    routeGrad w d i (pieceRow o p) = if w i o = p then d i o else 0 := by
  simp [routeGrad, pieceRow]

theorem IsVJP_maxPieces (z : Fin n → Fin (nO * nP) → ℝ) (w : Fin n → Fin nO → Fin nP)
    (hw : ∀ i o p, p ≠ w i o → z i (pieceRow o p) < z i (pieceRow o (w i o))) :
    IsVJP (fun (z : Fin n → Fin (nO * nP) → ℝ) i o => ⨆ p, z i (pieceRow o p)) z (routeGrad w) := by
  have h1 : IsVJP (fun (z : Fin n → Fin (nO * nP) → ℝ) (i : Fin n) (o : Fin nO) => z i (pieceRow o (w i o))) z (routeGrad w) := by
    refine IsVJP_linear' (fun x y => rfl) (fun a x => rfl) fun dy v => ?_
    simp only [dot_pi, dot_real, sum_pieceRow, routeGrad_pieceRow, ite_mul, zero_mul, Finset.sum_ite_eq, Finset.mem_univ, if_true]
  refine IsVJP_congr_nhds h1 ?_
  have h2 : ∀ᶠ z' in 𝓝 z, ∀ i o p, p ≠ w i o → z' i (pieceRow o p) < z' i (pieceRow o (w i o)) := by
    simp only [Filter.eventually_all]
    intro i o p hp
    have c : ∀ j, ContinuousAt (fun z : Fin n → Fin (nO * nP) → ℝ => z i j) z := fun j =>
      ((continuous_apply j).comp (continuous_apply i)).continuousAt
    exact (c _).eventually_lt (c _) (hw i o p hp)
  filter_upwards [h2] with z' hz'
  funext i o
  have : Nonempty (Fin nP) := ⟨w i o⟩
  refine le_antisymm (ciSup_le fun p => ?_) (le_ciSup (f := fun p => z' i (pieceRow o p)) (Set.finite_range _).bddAbove (w i o))
  by_cases hp : p = w i o
  · rw [hp]
  · exact (hz' i o p hp).le

end

theorem Spec.IsMat.val_eq {n m : ℕ} {A : Mat ℝ} {x : Fin n → Fin m → ℝ} (h : IsMat A x) (i : Fin n) (j : Fin m) :
    A.val (i * m + j) = x i j := by
  have := h.2.2 i j
  rw [Mat.at, h.2.1] at this
  exact this

theorem Spec.IsMat.reshape_row {nO nP : ℕ} {B : Mat ℝ} {b : Fin nO → Fin nP → ℝ} (h : IsMat B b) :
    ∃ C, B.reshape 1 (nO * nP) = .ok C ∧ IsMat C (biasRow b) := by
  refine ⟨_, if_pos (by rw [h.1, h.2.1, Nat.one_mul]), rfl, rfl, fun i j => ?_⟩
  obtain ⟨⟨o, p⟩, rfl⟩ := finProdFinEquiv.surjective j
  have := h.val_eq o p
  have e : ((finProdFinEquiv (o, p) : Fin (nO * nP)) : ℕ) = o * nP + p := pieceRow_val o p
  simp only [Mat.at, Fin.val_eq_zero, Nat.zero_mul, Nat.zero_add, e, this]
  exact (biasRow_pieceRow b i o p).symm

theorem Spec.IsMat.reshape_self {n m : ℕ} {A : Mat ℝ} {x : Fin n → Fin m → ℝ} (h : IsMat A x) :
    ∃ C, A.reshape n m = .ok C ∧ IsMat C x :=
  ⟨_, if_pos (by rw [h.1, h.2.1]), rfl, rfl, fun i j => h.val_eq i j⟩

section
variable {N : ℕ} {sh : Fin N → ℕ × ℕ} {n nO nP nI : ℕ}

theorem IsVJP_maxout (W b : Fin N) (hW : sh W = (nO * nP, nI)) (hb : sh b = (nO, nP)) (θ : Params sh) (x : Fin n → Fin nI → ℝ)
    (w : Fin n → Fin nO → Fin nP)
    (hw : ∀ i o p, p ≠ w i o → pieceOut x (θ.get W hW) (θ.get b hb) i o p < pieceOut x (θ.get W hW) (θ.get b hb) i o (w i o)) :
    IsVJP (fun p : Params sh × (Fin n → Fin nI → ℝ) => maxoutOf p.2 (p.1.get W hW) (p.1.get b hb)) (θ, x)
      (fun dy => (Params.put W hW (fun j k => ∑ i, routeGrad w dy i j * x i k)
        + Params.put b hb (fun o p => ∑ i, routeGrad w dy i (pieceRow o p)),
        fun i k => ∑ j, routeGrad w dy i j * θ.get W hW j k)) := by
  have key : IsVJP (fun p : ((Fin (nO * nP) → Fin nI → ℝ) × (Fin nO → Fin nP → ℝ)) × (Fin n → Fin nI → ℝ) =>
      maxoutOf p.2 p.1.1 p.1.2) ((θ.get W hW, θ.get b hb), x)
      (fun dy => ((fun j k => ∑ i, routeGrad w dy i j * x i k, fun o p => ∑ i, routeGrad w dy i (pieceRow o p)),
        fun i k => ∑ j, routeGrad w dy i j * θ.get W hW j k)) := by
    let P := ((Fin (nO * nP) → Fin nI → ℝ) × (Fin nO → Fin nP → ℝ)) × (Fin n → Fin nI → ℝ)
    let q : P := ((θ.get W hW, θ.get b hb), x)
    have h1 : IsVJP (fun p : P => p.1.1) q _ := IsVJP_comp (f := fun p : P => p.1) (x := q) (IsVJP_fst _) (IsVJP_fst _)
    have h2 : IsVJP (fun p : P => p.1.2) q _ := IsVJP_comp (f := fun p : P => p.1) (x := q) (IsVJP_snd _) (IsVJP_fst _)
    have h3 : IsVJP (fun p : P => biasRow p.1.2) q _ := IsVJP_comp (f := fun p : P => p.1.2) (x := q) (IsVJP_biasRow _) h2
    have h4 := IsVJP_prod (IsVJP_prod h1 h3) (IsVJP_snd q)
    have h5 := IsVJP_comp (f := fun p : P => ((p.1.1, biasRow p.1.2), p.2)) (x := q) (IsVJP_affine _) h4
    have e : ∀ (p : P) i o t, affine p.2 p.1.1 (biasRow p.1.2 0) i (pieceRow o t) = pieceOut p.2 p.1.1 p.1.2 i o t := fun p i o t => by
      simp only [affine, pieceOut, biasRow_pieceRow]
    have h6 := IsVJP_comp (f := fun p : P => affine p.2 p.1.1 (biasRow p.1.2 0)) (x := q)
      (IsVJP_maxPieces _ w fun i o p hp => by rw [e q, e q]; exact hw i o p hp) h5
    refine IsVJP_congr₂ h6 (fun p => ?_) fun dy => ?_
    · funext i o
      simp only [maxoutOf, e]
    · refine Prod.ext (Prod.ext ?_ ?_) ?_
      · exact ((add_zero _).trans (add_zero _)).symm
      · exact ((add_zero _).trans (zero_add _)).symm
      · exact ((congrArg (· + _) (zero_add _)).trans (zero_add _)).symm
  exact IsVJP_params2 W b hW hb key

/-- The Maxout layer gives for every row and unit the largest output of the unit's pieces, with exact gradients, when there is at
least one row and one unit and for every row and unit one piece is larger than the others.  (Where two pieces are equal and
largest, the function is in general not differentiable.)  Missing: batches without rows, see `C74_no_rows`. -/
theorem C74_maxout_partial (junk : ℕ → ℝ) (junkW : ℕ → ℤ) (W b : Fin N) (hW : sh W = (nO * nP, nI)) (hb : sh b = (nO, nP)) (hn : 0 < n) (hO : 0 < nO)
    (train : Bool) (θ : Params sh) (x : Fin n → Fin nI → ℝ)
    (hwin : ∀ i o, ∃ w, ∀ p, p ≠ w →
      pieceOut x (θ.get W hW) (θ.get b hb) i o p < pieceOut x (θ.get W hW) (θ.get b hb) i o w) :
    Exact (maxoutLayer junk junkW W b nO nP nI) train (Kind.arr n nI) (Kind.arr n nO)
      (fun p => maxoutOf p.2 (p.1.get W hW) (p.1.get b hb)) θ x := by
  choose w hw using hwin
  have hP0 : 0 < nP := lt_of_le_of_lt (Nat.zero_le _) (w ⟨0, hn⟩ ⟨0, hO⟩).2
  refine Exact.intro (IsVJP_maxout W b hW hb θ x w hw) ?_
  rintro P v hP ⟨X, rfl, hX⟩
  obtain ⟨W2, eW2, hW2⟩ := (hP.get W hW).reshape_self
  obtain ⟨b1, eb1, hb1⟩ := (hP.get b hb).reshape_row
  obtain ⟨Y0, eY0, hY0⟩ := hX.gemm_nt hW2
  obtain ⟨Y, eY, hY⟩ := hY0.npUpdate_row hb1 (· + ·)
  have hYv : ∀ (i : Fin n) (o : Fin nO) (p : Fin nP), Y.val ((i * nO + o) * nP + p) = pieceOut x (θ.get W hW) (θ.get b hb) i o p := by
    intro i o p
    have := hY.val_eq i (pieceRow o p)
    rw [pieceRow_val, biasRow_pieceRow] at this
    rw [pieceOut, ← this]
    congr 1
    ring
  have eZ : Y.reshape3 Y.rows nO nP = .ok ⟨n, nO, nP, Y.val⟩ := by
    unfold Mat.reshape3
    rw [hY.1, hY.2.1, if_pos (by ring)]
  obtain ⟨best, which, eM, r1, r2, r3, r4, hM⟩ := C41_maxout junk junkW ⟨n, nO, nP, Y.val⟩ hO hP0
  have hM' : ∀ (i : Fin n) (o : Fin nO), which.at i o = (w i o : ℕ) ∧ best.at i o = maxoutOf x (θ.get W hW) (θ.get b hb) i o := by
    intro i o
    obtain ⟨t, ⟨ht1, ht2, ht3⟩, g1, g2⟩ := hM i i.2 o o.2
    have htw : (⟨t, ht1⟩ : Fin nP) = w i o := by
      by_contra hne
      have := hw i o _ hne
      rw [← hYv, ← hYv] at this
      exact absurd (ht2 (w i o) (w i o).2) (not_le.2 this)
    have : Nonempty (Fin nP) := ⟨w i o⟩
    refine ⟨by rw [g1, ← htw], ?_⟩
    rw [g2, show Cube.at ⟨n, nO, nP, Y.val⟩ i o t = _ from hYv i o ⟨t, ht1⟩, htw]
    refine le_antisymm (le_ciSup (f := fun p => pieceOut x (θ.get W hW) (θ.get b hb) i o p) (Set.finite_range _).bddAbove _)
      (ciSup_le fun p => ?_)
    by_cases hp : p = w i o
    · rw [hp]
    · exact (hw i o p hp).le
  apply ok_intro
  · simp only [maxoutLayer, Val.asArr, bind, Except.bind, eW2, eY0, eb1, eY, eZ, eM, pure, Except.pure]
    rfl
  · refine ⟨⟨best, rfl, r1, r2, fun i o => (hM' i o).2⟩, ?_⟩
    rintro _ dy G g ⟨D, rfl, hD⟩ hG
    obtain ⟨dZ, eB, d0, d1, d2, hB⟩ := (C41_backprop_maxout_partial D which nP (by rw [hD.1]; exact hn) (by rw [hD.2.1]; exact hO)
      (by rw [hD.1]; exact r3) (by rw [hD.2.1]; exact r4) (fun i hi o ho => by
        rw [hD.1] at hi; rw [hD.2.1] at ho
        rw [(hM' ⟨i, hi⟩ ⟨o, ho⟩).1]; omega)).1 (fun i hi o ho => by
        rw [hD.1] at hi; rw [hD.2.1] at ho
        rw [(hM' ⟨i, hi⟩ ⟨o, ho⟩).1]; exact_mod_cast (w _ _).2)
    have hdZ : ∀ (i : Fin n) (o : Fin nO) (p : Fin nP), dZ.at i o p = routeGrad w dy i (pieceRow o p) := by
      intro i o p
      rw [routeGrad_pieceRow, hB i (by rw [hD.1]; exact i.2) o (by rw [hD.2.1]; exact o.2) p p.2, (hM' i o).1, hD.2.2]
      by_cases h : w i o = p
      · rw [if_pos h, if_pos (by rw [h])]
      · rw [if_neg h, if_neg (fun h' => h (Fin.ext (by exact_mod_cast h')))]
    rw [hD.1] at d0
    rw [hD.2.1] at d1
    have hsum : IsMat dZ.sum0 (fun o p => ∑ i, routeGrad w dy i (pieceRow o p)) := by
      unfold Cube.sum0
      rw [d0, d1, d2]
      refine isMat_ofFn' _ _ fun o p => ?_
      rw [Finset.sum_range]
      exact Finset.sum_congr rfl fun i _ => hdZ i o p
    have eR : dZ.reshape2 dZ.d0 (nO * nP) = .ok ⟨n, nO * nP, dZ.val⟩ := by
      unfold Cube.reshape2
      rw [d0, d1, d2, if_pos (by ring)]
    have hR : IsMat (⟨n, nO * nP, dZ.val⟩ : Mat ℝ) (routeGrad w dy) := by
      refine ⟨rfl, rfl, fun i j => ?_⟩
      obtain ⟨⟨o, p⟩, rfl⟩ := finProdFinEquiv.surjective j
      have h1 := hdZ i o p
      rw [Cube.at, d1, d2] at h1
      rw [Mat.at, show ((finProdFinEquiv (o, p) : Fin (nO * nP)) : ℕ) = o * nP + p from pieceRow_val o p]
      refine Eq.trans ?_ h1
      congr 1
      ring
    obtain ⟨G1, e1, hG1⟩ := hG.incGrad b hb hsum
    obtain ⟨dW, eW, hdW⟩ := hR.gemm_tn hX
    obtain ⟨G2, e2, hG2⟩ := hG1.incGrad W hW hdW
    obtain ⟨dX, eX, hdX⟩ := hR.gemm_nn hW2
    refine ⟨.arr dX, G2, ?_, ⟨dX, rfl, hdX⟩, ?_⟩
    · simp only [eB, e1, eR, eW, e2, eX]
    · rw [add_assoc, add_comm (Params.put b hb _)] at hG2
      exact hG2

/-- Ties do not disturb the forward pass: for all parameters and inputs, also with no rows at all, the output is the largest of
the pieces. -/
theorem C74_forward (junk : ℕ → ℝ) (junkW : ℕ → ℤ) (W b : Fin N) (hW : sh W = (nO * nP, nI)) (hb : sh b = (nO, nP)) (hO : 0 < nO) (hP0 : 0 < nP)
    (train : Bool) (θ : Params sh) (x : Fin n → Fin nI → ℝ) (P : ParamVals) (hP : IsParams P θ) (X : Mat ℝ) (hX : IsMat X x) :
    ∃ Y callback, maxoutLayer junk junkW W b nO nP nI train P (.arr X) = .ok (.arr Y, callback) ∧
      IsMat Y (maxoutOf x (θ.get W hW) (θ.get b hb)) := by
  obtain ⟨W2, eW2, hW2⟩ := (hP.get W hW).reshape_self
  obtain ⟨b1, eb1, hb1⟩ := (hP.get b hb).reshape_row
  obtain ⟨Y0, eY0, hY0⟩ := hX.gemm_nt hW2
  obtain ⟨Y, eY, hY⟩ := hY0.npUpdate_row hb1 (· + ·)
  have hYv : ∀ (i : Fin n) (o : Fin nO) (p : Fin nP), Y.val ((i * nO + o) * nP + p) = pieceOut x (θ.get W hW) (θ.get b hb) i o p := by
    intro i o p
    have := hY.val_eq i (pieceRow o p)
    rw [pieceRow_val, biasRow_pieceRow] at this
    rw [pieceOut, ← this]
    congr 1
    ring
  have eZ : Y.reshape3 Y.rows nO nP = .ok ⟨n, nO, nP, Y.val⟩ := by
    unfold Mat.reshape3
    rw [hY.1, hY.2.1, if_pos (by ring)]
  obtain ⟨best, which, eM, r1, r2, r3, r4, hM⟩ := C41_maxout junk junkW ⟨n, nO, nP, Y.val⟩ hO hP0
  refine ⟨best, _, by
    simp only [maxoutLayer, Val.asArr, bind, Except.bind, eW2, eY0, eb1, eY, eZ, eM, pure, Except.pure]; rfl, r1, r2, fun i o => ?_⟩
  obtain ⟨t, ⟨ht1, ht2, -⟩, -, g2⟩ := hM i i.2 o o.2
  have : Nonempty (Fin nP) := ⟨⟨t, ht1⟩⟩
  rw [g2, show Cube.at ⟨n, nO, nP, Y.val⟩ i o t = _ from hYv i o ⟨t, ht1⟩]
  refine le_antisymm (le_ciSup (f := fun p => pieceOut x (θ.get W hW) (θ.get b hb) i o p) (Set.finite_range _).bddAbove _)
    (ciSup_le fun p => ?_)
  have := ht2 p p.2
  rw [← hYv i o p, ← hYv i o ⟨t, ht1⟩]
  exact this

/-- Where the claim fails: for a batch without rows the forward pass succeeds and the callback raises IndexError. -/
theorem C74_no_rows (junk : ℕ → ℝ) (junkW : ℕ → ℤ) (W b : Fin N) (hW : sh W = (nO * nP, nI)) (hb : sh b = (nO, nP)) (hO : 0 < nO) (hP0 : 0 < nP)
    (train : Bool) (θ : Params sh) (P : ParamVals) (hP : IsParams P θ) (X : Mat ℝ) (hX : X.rows = 0) (hX' : X.cols = nI) :
    ∃ Y callback, maxoutLayer junk junkW W b nO nP nI train P (.arr X) = .ok (.arr Y, callback) ∧ Y.rows = 0 ∧ Y.cols = nO ∧
      ∀ D : Mat ℝ, D.rows = 0 → ∀ G, callback (.arr D) G = .error .indexError := by
  have hXm : IsMat X (fun (_ : Fin 0) (_ : Fin nI) => (0 : ℝ)) := ⟨hX, hX', fun i => i.elim0⟩
  obtain ⟨W2, eW2, hW2⟩ := (hP.get W hW).reshape_self
  obtain ⟨b1, eb1, hb1⟩ := (hP.get b hb).reshape_row
  obtain ⟨Y0, eY0, hY0⟩ := hXm.gemm_nt hW2
  obtain ⟨Y, eY, hY⟩ := hY0.npUpdate_row hb1 (· + ·)
  have eZ : Y.reshape3 Y.rows nO nP = .ok ⟨0, nO, nP, Y.val⟩ := by
    unfold Mat.reshape3
    rw [hY.1, hY.2.1, if_pos (by ring)]
  obtain ⟨best, which, eM, r1, r2, r3, r4, -⟩ := C41_maxout junk junkW ⟨0, nO, nP, Y.val⟩ hO hP0
  refine ⟨best, _, by
    simp only [maxoutLayer, Val.asArr, bind, Except.bind, eW2, eY0, eb1, eY, eZ, eM, pure, Except.pure]; rfl, r1, r2, fun D hD G => ?_⟩
  simp only [backpropMaxout, Mat.pointer, if_pos (Or.inl hD : D.rows = 0 ∨ D.cols = 0), bind, Except.bind]
end

/-- One row, one unit with two pieces `x` and `-x`, at `x = 1`. -/
example (junk : ℕ → ℝ) (junkW : ℕ → ℤ) :=
  C74_maxout_partial (N := 2) (sh := fun p => if p = 0 then (1 * 2, 1) else (1, 2)) (n := 1) (nO := 1) (nP := 2) (nI := 1) junk junkW 0 1 rfl rfl
    (by decide) (by decide) true
    (fun p i _ => if p = 0 then (if (i : ℕ) = 0 then 1 else -1) else 0) (fun _ _ => 1) (by
      refine fun i o => ⟨0, fun p hp => ?_⟩
      obtain rfl : p = 1 := by omega
      obtain rfl : o = 0 := by omega
      norm_num [pieceOut, Params.get, pieceRow_val])

end Thinc
