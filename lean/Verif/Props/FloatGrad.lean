import Verif.Lemmas.FloatGrad
import Verif.Props.FloatNet
import Mathlib.Analysis.Calculus.Deriv.Mul
import Mathlib.Analysis.Calculus.Deriv.Add
/-!
# C137: gradients of feed-forward networks in floating point
-/
namespace Thinc
open Spec FloatLib BigOperators
variable {L : FloatLib} {count : ℕ} {u η v : ℝ}

/-- **C137.**  The gradients of the inputs, weights and biases of a network of `Relu` layers that ends with `Linear`, computed in floating point, are near
those of real numbers, for every number and width of the layers, every batch and every order of the additions, unless a number may overflow or
rounding may turn a hidden unit on or off. -/
theorem C137_gradients (ok : IsFloatLib L count) (ac : Accurate L u η v) {cpu : Bool} {ds : List FlDense} {ls : List DenseReal}
    (hs : List.Forall₂ (IsFlDense L) ds ls) {d : FlDense} {last : DenseReal} (hd : IsFlDense L d last) {X dY dX : Mat Fl} {gs : List FlGrad} {g : FlGrad}
    (h : L.Backward cpu ds d X dY dX gs g) {x : ℕ → ℕ → ℝ} {M e : ℝ} (hM : 0 ≤ M) (he : 0 ≤ e) (hX : NearMat L X x M e) {δ : ℕ → ℕ → ℝ} {D f : ℝ}
    (hD : 0 ≤ D) (hf : 0 ≤ f) (hdY : NearMat L dY δ D f) (hb : NoOverflow u η L.big ls M e) (hg : GradFits u η L.big X.rows D f (ls ++ [last]) M e)
    (hc : ClearUnits u η X.rows ls x M e) :
    dX.rows = X.rows ∧ dX.cols = X.cols ∧
    NearMat L dX (fun i => inputGrad ls last (x i) (δ i)) (gradSize (ls ++ [last]) D) (gradError u η (ls ++ [last]) D f) ∧
    GradsNear u η X.rows δ D f ls last x M e gs g := by
  induction hs generalizing X dX gs x M e with
  | nil =>
    cases gs with
    | cons _ _ => exact h.elim
    | nil =>
      obtain ⟨h1, h2, h3⟩ := h
      have h2' := h2.trans hd.cols
      obtain ⟨k1, k2, k3, k4⟩ := linearBack_near ok ac hd h3 h1 h2' hM he hD hf hX hdY hg.1 hg.2.1 hg.2.2.1
      exact ⟨k1, k2.trans h2'.symm, k3, k4⟩
  | @cons a l ds ls ha _ ih =>
    cases gs with
    | nil => exact h.elim
    | cons g₀ gs =>
      obtain ⟨Y, dY', ⟨Z, hZ, y1, y2, y3⟩, hrest, d1, d2, dZ, m1, m2, m3, hback⟩ := h
      obtain ⟨a1, a2, a3⟩ := affine_near ok ac ha hZ hM he hX hb.1
      have hXc : X.cols = l.nI := (affine_shape hZ).1.trans ha.cols
      have hs' := outSize_nonneg ha.size hM
      have he' := outError_nonneg ac ha.size hM he
      have hrows : Y.rows = X.rows := y1.trans a1
      obtain ⟨r1, r2, r3, r4⟩ := ih hrest hs' he' (relu_near ok hs' y1 y2 y3 a3) hb.2 (by rw [hrows]; exact hg.2.2.2) (by rw [hrows]; exact hc.2)
      have hD' := gradSize_nonneg hD (ls ++ [last])
      have hf' := gradError_nonneg ac hD hf (ls ++ [last])
      have hm := maskRelu_near ok hf' hD' a3 y1 y2 y3 (by rw [a1, a2]; exact hc.1) d1 d2 r3 m1 m2 m3
      obtain ⟨k1, k2, k3, k4⟩ := linearBack_near ok ac ha hback (m1.trans (d1.trans hrows)) hXc hM he hD' hf' hX hm hg.1 hg.2.1 hg.2.2.1
      rw [hrows] at r4
      exact ⟨k1, k2.trans hXc.symm, k3, k4, r4⟩

/-- So two backward passes, on any backends and with any order of the additions, differ by at most twice the error. -/
theorem C137_backends (ok : IsFloatLib L count) (ac : Accurate L u η v) {cpu cpu' : Bool} {ds : List FlDense} {ls : List DenseReal}
    (hs : List.Forall₂ (IsFlDense L) ds ls) {d : FlDense} {last : DenseReal} (hd : IsFlDense L d last) {X dY dX dX' : Mat Fl} {gs gs' : List FlGrad}
    {g g' : FlGrad} (h : L.Backward cpu ds d X dY dX gs g) (h' : L.Backward cpu' ds d X dY dX' gs' g') {x : ℕ → ℕ → ℝ} {M e : ℝ} (hM : 0 ≤ M) (he : 0 ≤ e)
    (hX : NearMat L X x M e) {δ : ℕ → ℕ → ℝ} {D f : ℝ} (hD : 0 ≤ D) (hf : 0 ≤ f) (hdY : NearMat L dY δ D f) (hb : NoOverflow u η L.big ls M e)
    (hg : GradFits u η L.big X.rows D f (ls ++ [last]) M e) (hc : ClearUnits u η X.rows ls x M e) :
    ∀ i < X.rows, ∀ k < X.cols, ∃ r s, dX.at i k = .fin r ∧ dX'.at i k = .fin s ∧ |r - s| ≤ 2 * gradError u η (ls ++ [last]) D f := by
  obtain ⟨a1, a2, a3, -⟩ := C137_gradients ok ac hs hd h hM he hX hD hf hdY hb hg hc
  obtain ⟨b1, b2, b3, -⟩ := C137_gradients ok ac hs hd h' hM he hX hD hf hdY hb hg hc
  intro i hi k hk
  obtain ⟨-, r, r1, -, r2⟩ := a3 i (a1.symm ▸ hi) k (a2.symm ▸ hk)
  obtain ⟨-, s, s1, -, s2⟩ := b3 i (b1.symm ▸ hi) k (b2.symm ▸ hk)
  refine ⟨r, s, r1, s1, ?_⟩
  rw [abs_le] at *
  constructor <;> linarith [r2.1, r2.2, s2.1, s2.2]

/-! ### The numbers of `inputGrad` and `GradsNear` are the derivatives -/

theorem hasDerivAt_out {l : DenseReal} (v : DenseDir) {x : ℝ → ℕ → ℝ} {x' : ℕ → ℝ} (hx : ∀ k < l.nI, HasDerivAt (fun t => x t k) (x' k) 0) (j : ℕ) :
    HasDerivAt (fun t => (l.move v t).out (x t) j)
      (∑ k ∈ Finset.range l.nI, (x' k * l.w j k + x 0 k * v.w j k) + v.c j) 0 := by
  have hlin : ∀ a b : ℝ, HasDerivAt (fun t : ℝ => a + t * b) b 0 := by
    intro a b
    simpa using ((hasDerivAt_id (0 : ℝ)).mul_const b).const_add a
  unfold DenseReal.out
  refine HasDerivAt.add ?_ (hlin _ _)
  have := HasDerivAt.fun_sum (u := Finset.range l.nI) (A := fun k t => x t k * (l.w j k + t * v.w j k))
    (A' := fun k => x' k * (l.w j k + 0 * v.w j k) + x 0 k * v.w j k) (x := 0) fun k hk => (hx k (Finset.mem_range.1 hk)).mul (hlin _ _)
  simp only [zero_mul, add_zero] at this
  exact this

theorem hasDerivAt_max {f : ℝ → ℝ} {f' : ℝ} (hf : HasDerivAt f f' 0) (h0 : f 0 ≠ 0) :
    HasDerivAt (fun t => max 0 (f t)) (if 0 < f 0 then f' else 0) 0 := by
  rcases lt_or_gt_of_ne h0 with h | h
  · rw [if_neg (not_lt.2 h.le)]
    refine (hasDerivAt_const (0 : ℝ) (0 : ℝ)).congr_of_eventuallyEq ?_
    filter_upwards [hf.continuousAt.eventually (gt_mem_nhds h)] with t ht
    exact max_eq_left ht.le
  · rw [if_pos h]
    refine hf.congr_of_eventuallyEq ?_
    filter_upwards [hf.continuousAt.eventually (lt_mem_nhds h)] with t ht
    exact max_eq_right ht.le

theorem move_zero (l : DenseReal) (v : DenseDir) : l.move v 0 = l := by
  unfold DenseReal.move
  simp

/-- One layer of the chain rule. -/
theorem along_sum (l : DenseReal) (v : DenseDir) (delta x x' : ℕ → ℝ) :
    ∑ j ∈ Finset.range l.nO, delta j * (∑ k ∈ Finset.range l.nI, (x' k * l.w j k + x k * v.w j k) + v.c j) =
      ∑ k ∈ Finset.range l.nI, (∑ j ∈ Finset.range l.nO, delta j * l.w j k) * x' k + alongLayer l v delta x := by
  unfold alongLayer
  have e1 : ∑ k ∈ Finset.range l.nI, (∑ j ∈ Finset.range l.nO, delta j * l.w j k) * x' k =
      ∑ j ∈ Finset.range l.nO, ∑ k ∈ Finset.range l.nI, delta j * (x' k * l.w j k) := by
    rw [Finset.sum_comm]
    refine Finset.sum_congr rfl fun k _ => ?_
    rw [Finset.sum_mul]
    exact Finset.sum_congr rfl fun j _ => by ring
  rw [e1, ← Finset.sum_add_distrib]
  refine Finset.sum_congr rfl fun j _ => ?_
  rw [mul_add, Finset.mul_sum, ← add_assoc, ← Finset.sum_add_distrib]
  congr 1
  exact Finset.sum_congr rfl fun k _ => by ring

/-- The first layer's number of inputs. -/
def netInputs : List DenseReal → DenseReal → ℕ
  | [], last => last.nI
  | l :: _, _ => l.nI

/-- No hidden unit is zero. -/
def NonzeroUnits : List DenseReal → (ℕ → ℝ) → Prop
  | [], _ => True
  | l :: ls, x => (∀ j < l.nO, l.out x j ≠ 0) ∧ NonzeroUnits ls fun j => max 0 (l.out x j)

/-- The gradients are the derivatives of the network: if the input moves with the velocity `x'`, and the parameters move in the directions `vs` and `v`,
then the scores, weighted by `d`, change by the sum of the gradients times the velocities.  No unit may be zero, where there is no derivative. -/
theorem C137_derivative : ∀ (ls : List DenseReal) (last : DenseReal) (vs : List DenseDir) (v : DenseDir) (d : ℕ → ℝ) (x : ℝ → ℕ → ℝ) (x' : ℕ → ℝ),
    vs.length = ls.length → Widths (netInputs ls last) ls last.nI → (∀ k < netInputs ls last, HasDerivAt (fun t => x t k) (x' k) 0) →
    NonzeroUnits ls (x 0) →
    HasDerivAt (fun t => ∑ j ∈ Finset.range last.nO, d j * scoresReal (List.zipWith (fun l w => l.move w t) ls vs) (last.move v t) (x t) j)
      (∑ k ∈ Finset.range (netInputs ls last), inputGrad ls last (x 0) d k * x' k + alongNet ls last vs v (x 0) d) 0
  | [], last, [], v, d, x, x', _, _, hx, _ => by
    have h := HasDerivAt.fun_sum (u := Finset.range last.nO) (A := fun j t => d j * (last.move v t).out (x t) j) (x := 0)
      fun j _ => (hasDerivAt_out v hx j).const_mul (d j)
    rw [along_sum] at h
    exact h
  | l :: ls, last, w :: vs, v, d, x, x', hlen, hw, hx, hn => by
    have hO : l.nO = netInputs ls last := by
      cases ls with
      | nil => exact hw.2
      | cons b ls => exact hw.2.1.symm
    have hout := hasDerivAt_out w hx
    have e0 : ∀ j, (l.move w 0).out (x 0) j = l.out (x 0) j := fun j => by rw [move_zero]
    have e1 : (fun j => max 0 ((l.move w 0).out (x 0) j)) = fun j => max 0 (l.out (x 0) j) := funext fun j => by rw [e0]
    have hrelu : ∀ j < l.nO, HasDerivAt (fun t => max 0 ((l.move w t).out (x t) j))
        (if 0 < l.out (x 0) j then ∑ k ∈ Finset.range l.nI, (x' k * l.w j k + x 0 k * w.w j k) + w.c j else 0) 0 := fun j hj => by
      have := hasDerivAt_max (hout j) (by rw [e0]; exact hn.1 j hj)
      rwa [e0] at this
    have ih := C137_derivative ls last vs v d (fun t j => max 0 ((l.move w t).out (x t) j)) _ (by simpa using hlen)
      (by rw [← hO]; exact hw.2) (fun k hk => hrelu k (hO ▸ hk)) (by
        show NonzeroUnits ls (fun j => max 0 ((l.move w 0).out (x 0) j))
        rw [e1]; exact hn.2)
    refine HasDerivAt.congr_deriv ih ?_
    show _ = ∑ k ∈ Finset.range l.nI, inputGrad (l :: ls) last (x 0) d k * x' k +
      (alongLayer l w (firstDelta l ls last (x 0) d) (x 0) + alongNet ls last vs v (fun j => max 0 (l.out (x 0) j)) d)
    rw [e1, ← add_assoc]
    congr 1
    rw [← hO]
    have e2 := along_sum l w (firstDelta l ls last (x 0) d) (x 0) x'
    refine Eq.trans (Finset.sum_congr rfl fun j _ => ?_) e2
    unfold firstDelta
    split
    · rfl
    · simp

/-- Units that are clear of zero are not zero. -/
theorem C137_clear (ac : Accurate L u η v) {N : ℕ} : ∀ {ls : List DenseReal} {x : ℕ → ℕ → ℝ} {M e : ℝ}, (∀ l ∈ ls, l.IsSize) → 0 ≤ M → 0 ≤ e →
    ClearUnits u η N ls x M e → ∀ i < N, NonzeroUnits ls (x i)
  | [], _, _, _, _, _, _, _, _, _ => trivial
  | l :: ls, x, M, e, hs, hM, he, h, i, hi => by
    have h1 := hs l (by simp)
    refine ⟨fun j hj h0 => ?_, C137_clear ac (fun a ha => hs a (by simp [ha])) (outSize_nonneg h1 hM) (outError_nonneg ac h1 hM he) h.2 i hi⟩
    have h2 := h.1 i hi j hj
    have h3 := outError_nonneg ac h1 hM he
    rw [h0, abs_zero] at h2
    linarith

/-- The backends agree on `backprop_relu` of finite numbers.  They differ for gradients that are infinite or NaN, where a unit is off: the kernel of
`NumpyOps` returns zero, and the other backends NaN.  For a unit that is NaN the kernel hands the gradient on, and the other backends return zero. -/
theorem C137_relu (ok : IsFloatLib L count) :
    (∀ dy y, IsFinite L dy → IsFinite L y → L.backpropReluFl true dy y = L.backpropReluFl false dy y) ∧
    (∀ s, L.backpropReluFl true (.inf s) (.fin 0) = .fin 0 ∧ L.backpropReluFl false (.inf s) (.fin 0) = .nan) ∧
    L.backpropReluFl true .nan (.fin 0) = .fin 0 ∧ L.backpropReluFl false .nan (.fin 0) = .nan ∧
    ∀ r, IsFinite L (.fin r) → L.backpropReluFl true (.fin r) .nan = .fin r ∧ L.backpropReluFl false (.fin r) .nan = .fin 0 := by
  have hz : ¬ (Fl.fin 0).lt (.fin 0) := fun h => lt_irrefl (0 : ℝ) h
  have hz' : (Fl.fin 0).le (.fin 0) := show (0 : ℝ) ≤ 0 from le_rfl
  refine ⟨fun dy y h1 h2 => ?_, fun s => ⟨if_pos hz', ?_⟩, if_pos hz', ?_, fun r _ => ⟨if_neg id, ?_⟩⟩
  · obtain ⟨r, rfl, -⟩ := id h1
    obtain ⟨s, rfl, -⟩ := h2
    rw [backRelu_fin ok h1, backRelu_fin ok h1]
  · show L.opsBackpropReluFl _ _ = _
    unfold opsBackpropReluFl
    rw [if_neg hz]
    exact if_pos rfl
  · show L.opsBackpropReluFl .nan (.fin 0) = .nan
    unfold opsBackpropReluFl
    rw [if_neg hz]
    rfl
  · show L.opsBackpropReluFl (.fin r) .nan = _
    unfold opsBackpropReluFl
    rw [if_neg (show ¬ (Fl.fin 0).lt .nan from id)]
    show L.round (r * 0) = _
    have := ok.bigBound
    rw [mul_zero, round_fin ok (by rw [abs_zero]; linarith), ok.zero]

/-! ### A concrete case: the network of C134 in float32, the row (1, 2) and the gradient (1, 2) of the scores -/

theorem linearBack_exists (L : FloatLib) (X W dY : Mat Fl) (h1 : dY.cols = W.rows) (h2 : dY.rows = X.rows) :
    ∃ (dX : Mat Fl) (g : FlGrad), L.LinearBack X W dY dX g.dW g.db ∧ dX.rows = X.rows ∧ dX.cols = W.cols := by
  obtain ⟨dX, h3⟩ := gemm_exists L dY W h1
  obtain ⟨dW, h4⟩ := gemm_exists L (flTranspose dY) X h2
  exact ⟨dX, ⟨dW, fun o => L.sum ((List.range dY.rows).map fun n => dY.at n o)⟩, ⟨h3, h4, fun _ _ => rfl⟩, h3.2.1.trans h2, h3.2.2.1⟩

/-- Networks whose widths fit together have gradients. -/
theorem backward_exists (L : FloatLib) (cpu : Bool) (d : FlDense) (dY : Mat Fl) (hdY : dY.cols = d.W.rows) : ∀ (ds : List FlDense) (X : Mat Fl),
    dY.rows = X.rows → (ds ++ [d]).IsChain (fun a b => a.W.rows = b.W.cols) → (∀ a, (ds ++ [d]).head? = some a → X.cols = a.W.cols) →
    ∃ dX gs g, L.Backward cpu ds d X dY dX gs g ∧ dX.rows = X.rows ∧ dX.cols = X.cols
  | [], X, hr, _, h => by
    obtain ⟨dX, g, h1, h2, h3⟩ := linearBack_exists L X d.W dY hdY hr
    exact ⟨dX, [], g, ⟨hr, h d rfl, h1⟩, h2, h3.trans (h d rfl).symm⟩
  | a :: ds, X, hr, hc, h => by
    obtain ⟨Y, h1, h2, h3⟩ := relu_exists L cpu a X (h a rfl)
    obtain ⟨dY', gs, g, k1, k2, k3⟩ := backward_exists L cpu d dY hdY ds Y (hr.trans h2.symm) (List.IsChain.tail hc) (by
      intro b hb
      rw [h3]
      exact (List.isChain_cons.1 hc).1 b hb)
    let dZ : Mat Fl := ⟨dY'.rows, dY'.cols, fun k => L.backpropReluFl cpu (dY'.val k) (Y.val k)⟩
    obtain ⟨dX, g₀, m1, m2, m3⟩ := linearBack_exists L X a.W dZ (k3.trans h3) (k2.trans h2)
    refine ⟨dX, g₀ :: gs, g, ⟨Y, dY', h1, k1, k2, k3, dZ, rfl, rfl, fun i _ j _ => ?_, m1⟩, m2, m3.trans (h a rfl).symm⟩
    show L.backpropReluFl cpu (dY'.val (i * dY'.cols + j)) (Y.val (i * dY'.cols + j)) = L.backpropReluFl cpu (dY'.at i j) (Y.at i j)
    rw [k3]
    unfold Mat.at
    rw [k3]

theorem realHidden_col : realHidden.colSize = 2 := by
  simp only [DenseReal.colSize, realHidden, maxTo, Finset.sum_range_succ, Finset.sum_range_zero]
  norm_num

theorem realLast_col : realLast.colSize = 7 := by
  show maxTo (fun k => ∑ j ∈ Finset.range realLast.nO, |realLast.w j k|) 0 = 7
  simp only [DenseReal.colSize, realLast, maxTo, Finset.sum_range_succ, Finset.sum_range_zero]
  norm_num

theorem net_clear : ClearUnits (1 / 2 ^ 23) (1 / 2 ^ 149) 1 [realHidden] (fun _ k => (k : ℝ) + 1) 2 0 := by
  refine ⟨fun i _ j _ => ?_, trivial⟩
  have h1 : realHidden.out (fun k => (k : ℝ) + 1) j = 8 := by
    simp [DenseReal.out, realHidden, Finset.sum_range_succ]
    norm_num
  rw [h1]
  simp only [DenseReal.outError, DenseReal.outSize, dotError, realHidden]
  norm_num

theorem net_gradFits : GradFits (1 / 2 ^ 23) (1 / 2 ^ 149) float32Lib.big 1 2 0 ([realHidden] ++ [realLast]) 2 0 := by
  have hb := float32Lib_ok.bigBound
  simp only [List.cons_append, List.nil_append, GradFits, gradSize, gradError, realHidden_col, realLast_col]
  simp only [DenseReal.outError, DenseReal.outSize, dotError, realHidden, realLast, and_true]
  refine ⟨?_, ?_, ?_, ?_, ?_, ?_⟩ <;> refine le_trans ?_ (show (1000 : ℝ) ≤ _ by linarith) <;> norm_num

theorem net_hiddenFits : NoOverflow (1 / 2 ^ 23) (1 / 2 ^ 149) float32Lib.big [realHidden] 2 0 := ⟨net_fits.1, trivial⟩

/-- Gradients exist on every backend, and every result is near the gradients (11, 22) of the input, (11, 22) and 11 of the hidden layer, and (8, 16)
and (1, 2) of the last layer. -/
example (cpu : Bool) : (∃ dX gs g, float32Lib.Backward cpu [netHidden] netLast flA flA dX gs g) ∧
    ∀ dX g₀ g, float32Lib.Backward cpu [netHidden] netLast flA flA dX [g₀] g → ∃ r s t b w,
      dX.at 0 0 = .fin r ∧ |r - 11| ≤ 1 / 1000 ∧ dX.at 0 1 = .fin s ∧ |s - 22| ≤ 1 / 1000 ∧ g₀.dW.at 0 1 = .fin t ∧ |t - 22| ≤ 1 / 1000 ∧
      g₀.db 0 = .fin b ∧ |b - 11| ≤ 1 / 1000 ∧ g.dW.at 1 0 = .fin w ∧ |w - 16| ≤ 1 / 1000 := by
  refine ⟨?_, fun dX g₀ g h => ?_⟩
  · obtain ⟨dX, gs, g, h, -⟩ := backward_exists float32Lib cpu netLast flA rfl [netHidden] flA rfl (by simp [netHidden, netLast, flA, flB])
      (by intro a h; cases h; rfl)
    exact ⟨dX, gs, g, h⟩
  · obtain ⟨h1, h2, h3, h4, h5⟩ := C137_gradients float32Lib_ok float32_accurate (.cons (netHidden_dense float32Lib_ok) .nil) (netLast_dense float32Lib_ok) h
      (by norm_num) le_rfl (net_input float32Lib_ok) (by norm_num) le_rfl (net_input float32Lib_ok) net_hiddenFits net_gradFits net_clear
    have e1 : realHidden.out (fun k => (k : ℝ) + 1) 0 = 8 := by
      simp [DenseReal.out, realHidden, Finset.sum_range_succ]
      norm_num
    have e2 : inputGrad [] realLast (fun j => max 0 (realHidden.out (fun k => (k : ℝ) + 1) j)) (fun k => (k : ℝ) + 1) 0 = 11 := by
      simp [inputGrad, realLast, Finset.sum_range_succ]
      norm_num
    have e3 : firstDelta realHidden [] realLast (fun k => (k : ℝ) + 1) (fun k => (k : ℝ) + 1) 0 = 11 := by
      unfold firstDelta
      rw [e1, if_pos (by norm_num), e2]
    have e4 : ∀ k : ℕ, inputGrad [realHidden] realLast (fun k => (k : ℝ) + 1) (fun k => (k : ℝ) + 1) k = 11 * (k + 1) := by
      intro k
      show ∑ j ∈ Finset.range 1, firstDelta realHidden [] realLast (fun k => (k : ℝ) + 1) (fun k => (k : ℝ) + 1) j * ((k : ℝ) + 1) = _
      rw [Finset.sum_range_one, e3]
    have b1 : gradError (1 / 2 ^ 23) (1 / 2 ^ 149) ([realHidden] ++ [realLast]) 2 0 ≤ 1 / 1000 := by
      simp only [List.cons_append, List.nil_append, gradSize, gradError, realHidden_col, realLast_col]
      simp only [dotError, realHidden, realLast]
      norm_num
    obtain ⟨-, r, r1, -, r2⟩ := h3 0 (h1 ▸ by decide) 0 (h2 ▸ by decide)
    obtain ⟨-, s, s1, -, s2⟩ := h3 0 (h1 ▸ by decide) 1 (h2 ▸ by decide)
    obtain ⟨t, t1, t2⟩ := h4.dW 0 (by decide) 1 (by decide)
    obtain ⟨b, b3, b4⟩ := h4.db 0 (by decide)
    have h5 : LayerGradNear _ _ _ _ _ _ _ _ _ _ _ := h5
    obtain ⟨w, w1, w2⟩ := h5.dW 1 (by decide) 0 (by decide)
    refine ⟨r, s, t, b, w, r1, ?_, s1, ?_, t1, ?_, b3, ?_, w1, ?_⟩
    · beta_reduce at r2
      rw [e4] at r2
      have := r2.trans b1
      norm_num at this ⊢
      exact this
    · beta_reduce at s2
      rw [e4] at s2
      have := s2.trans b1
      norm_num at this ⊢
      exact this
    · have q : weightError (1 / 2 ^ 23) (1 / 2 ^ 149) 1 (gradSize ([] ++ [realLast]) 2) (gradError (1 / 2 ^ 23) (1 / 2 ^ 149) ([] ++ [realLast]) 2 0) 2 0 ≤
          1 / 1000 := by
        simp only [List.nil_append, gradSize, gradError, realLast_col, weightError]
        simp only [dotError, realLast]
        norm_num
      have t3 := t2.trans q
      rw [show flA.rows = 1 from rfl, Finset.sum_range_one, e3] at t3
      norm_num at t3 ⊢
      exact t3
    · have q : biasError (1 / 2 ^ 23) (1 / 2 ^ 149) 1 (gradSize ([] ++ [realLast]) 2) (gradError (1 / 2 ^ 23) (1 / 2 ^ 149) ([] ++ [realLast]) 2 0) ≤
          1 / 1000 := by
        simp only [List.nil_append, gradSize, gradError, realLast_col, biasError]
        simp only [dotError, realLast]
        norm_num
      have t3 := b4.trans q
      rw [show flA.rows = 1 from rfl, Finset.sum_range_one, e3] at t3
      exact t3
    · have q : weightError (1 / 2 ^ 23) (1 / 2 ^ 149) 1 2 0 (realHidden.outSize 2) (realHidden.outError (1 / 2 ^ 23) (1 / 2 ^ 149) 2 0) ≤ 1 / 1000 := by
        simp only [weightError, DenseReal.outError, DenseReal.outSize, dotError, realHidden]
        norm_num
      have t3 := w2.trans q
      rw [show flA.rows = 1 from rfl, Finset.sum_range_one, e1] at t3
      norm_num at t3 ⊢
      exact t3

/-- The hypotheses of `C137_derivative` are met by this network: the scores, weighted by (1, 2), change by 11 if the first input moves. -/
example : HasDerivAt (fun t : ℝ => ∑ j ∈ Finset.range 2, ((j : ℝ) + 1) *
    scoresReal (List.zipWith (fun l w => l.move w t) [realHidden] [⟨fun _ _ => 0, fun _ => 0⟩]) (realLast.move ⟨fun _ _ => 0, fun _ => 0⟩ t)
      (fun k => (k : ℝ) + 1 + t * (if k = 0 then 1 else 0)) j) 11 0 := by
  have hu : ∀ j, realHidden.out (fun k => (k : ℝ) + 1 + 0 * (if k = 0 then 1 else 0)) j = 8 := by
    intro j
    simp [DenseReal.out, realHidden, Finset.sum_range_succ]
    norm_num
  have h := C137_derivative [realHidden] realLast [⟨fun _ _ => 0, fun _ => 0⟩] ⟨fun _ _ => 0, fun _ => 0⟩ (fun j => (j : ℝ) + 1)
    (fun t k => (k : ℝ) + 1 + t * (if k = 0 then 1 else 0)) (fun k => if k = 0 then 1 else 0) rfl ⟨rfl, rfl⟩
    (fun k _ => by simpa using ((hasDerivAt_id (0 : ℝ)).mul_const (if k = 0 then (1 : ℝ) else 0)).const_add ((k : ℝ) + 1))
    ⟨fun j _ => by rw [hu]; norm_num, trivial⟩
  refine HasDerivAt.congr_deriv h ?_
  have e1 : ∀ k : ℕ, inputGrad [realHidden] realLast (fun k => (k : ℝ) + 1 + 0 * (if k = 0 then 1 else 0)) (fun j => (j : ℝ) + 1) k = 11 * (k + 1) := by
    intro k
    simp only [inputGrad, hu]
    simp [realHidden, realLast, Finset.sum_range_succ]
    norm_num
  have e2 : ∀ (x d : ℕ → ℝ), alongNet [realHidden] realLast [⟨fun _ _ => 0, fun _ => 0⟩] ⟨fun _ _ => 0, fun _ => 0⟩ x d = 0 := by
    intro x d
    simp [alongNet, alongLayer]
  rw [e2]
  simp only [e1]
  simp [netInputs, realHidden, Finset.sum_range_succ]

end Thinc
