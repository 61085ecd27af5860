import Verif.Spec.FloatTrain
import Verif.Props.FloatGrad
import Verif.Props.FloatMaxout
import Verif.Props.Float
import Mathlib.Analysis.SpecialFunctions.Log.Deriv
import Mathlib.Analysis.SpecialFunctions.ExpDeriv
/-!
# C138: a training step of a classifier in floating point
-/
namespace Thinc
open Spec FloatLib BigOperators
variable {L : FloatLib} {count : ℕ} {u η v : ℝ}

/-- The joint passes are a forward pass and a backward pass. -/
theorem trainPass_split {cpu : Bool} : ∀ {ds : List FlDense} {d : FlDense} {X Y dY dX : Mat Fl} {gs : List FlGrad} {g : FlGrad},
    L.TrainPass cpu ds d X Y dY dX gs g → L.Scores cpu ds d X Y ∧ (dY.rows = Y.rows ∧ dY.cols = Y.cols) ∧ Y.rows = X.rows ∧ L.Backward cpu ds d X dY dX gs g
  | [], d, X, Y, dY, dX, [], g, h => by
    obtain ⟨h1, h2, h3, h4⟩ := h
    obtain ⟨s1, s2, -⟩ := affine_shape h1
    exact ⟨⟨X, rfl, h1⟩, ⟨h2, h3⟩, s2, h2.trans s2, s1, h4⟩
  | l :: ds, d, X, Y, dY, dX, g₀ :: gs, g, h => by
    obtain ⟨Z, dZ, h1, h2, h3⟩ := h
    obtain ⟨⟨W, k1, k2⟩, k3, k4, k5⟩ := trainPass_split h2
    refine ⟨⟨W, ⟨Z, h1, k1⟩, k2⟩, k3, ?_, Z, dZ, h1, k5, h3⟩
    obtain ⟨A, a1, a2, -⟩ := h1
    exact k4.trans (a2.trans (affine_shape a1).2.1)
  | [], _, _, _, _, _, _ :: _, _, h => h.elim
  | _ :: _, _, _, _, _, _, [], _, h => h.elim

theorem sub_fin (ok : IsFloatLib L count) (x y : ℝ) : L.sub (.fin x) (.fin y) = L.round (x - y) := by
  show L.round (x + -y) = _
  rw [sub_eq_add_neg]

/-- The gradient of one score. -/
theorem entropyGrad_near (ok : IsFloatLib L count) (ac : Accurate L u η v) {normalize : Bool} {N : ℕ} (hN : 0 < N) (hcount : N ≤ count) {missing : Bool}
    {p q ε : ℝ} (hp : L.rnd p = p) (h0 : 0 ≤ p) (h1 : p ≤ 1) (hq : |p - q| ≤ ε) (label j : ℕ) :
    ∃ r, L.entropyGradFl normalize N missing (.fin p) (oneHotFl label j) = .fin r ∧ IsFinite L (.fin r) ∧
      |r - rowShare normalize N missing * (q - if j = label then 1 else 0)| ≤ scoreGradError u η normalize N ε := by
  have hb := ok.bigBound
  have hu := ac.uNonneg
  have he := ac.etaNonneg
  have hε : 0 ≤ ε := (abs_nonneg _).trans hq
  have hNr : (0 : ℝ) < N := by exact_mod_cast hN
  have hN1 : (1 : ℝ) ≤ N := by exact_mod_cast hN
  have hsh : 0 ≤ fullShare normalize N := by unfold fullShare; split <;> positivity
  obtain ⟨t, ht, ht2, ht3⟩ : ∃ t : ℝ, oneHotFl label j = .fin t ∧ (if j = label then (1 : ℝ) else 0) = t ∧ (t = 0 ∨ t = 1) := by
    unfold oneHotFl
    by_cases c : j = label
    · exact ⟨1, by rw [if_pos c], by rw [if_pos c], .inr rfl⟩
    · exact ⟨0, by rw [if_neg c], by rw [if_neg c], .inl rfl⟩
  have htr : L.rnd (-t) = -t := by
    rcases ht3 with rfl | rfl
    · rw [neg_zero, ok.zero]
    · exact ok.neg ok.one
  have hpt : |p - t| ≤ 1 := by
    rw [abs_le]
    rcases ht3 with rfl | rfl <;> constructor <;> linarith
  -- the difference
  have hd1 : L.sub (.fin p) (.fin t) = .fin (L.rnd (p - t)) := by rw [sub_fin ok, round_fin ok (by linarith)]
  have hd2 : |L.rnd (p - t) - (p - t)| ≤ u := by
    have := ac.addNear p (-t) hp htr
    rw [← sub_eq_add_neg] at this
    exact this.trans (by nlinarith)
  have hd3 : |L.rnd (p - t)| ≤ 1 := ok.abs_le ok.one hpt
  unfold entropyGradFl
  rw [ht, ht2, hd1]
  cases missing with
  | true =>
    have hm : L.mul (.fin (L.rnd (p - t))) (if true = true then .fin 0 else .fin 1) = .fin 0 := by
      show L.round (L.rnd (p - t) * 0) = _
      rw [mul_zero, round_fin ok (by rw [abs_zero]; linarith), ok.zero]
    rw [hm]
    have hz : L.div (.fin 0) (.fin (N : ℝ)) = .fin 0 := by
      show (if (N : ℝ) = 0 then _ else L.round (0 / N)) = _
      rw [if_neg hNr.ne', zero_div, round_fin ok (by rw [abs_zero]; linarith), ok.zero]
    refine ⟨0, ?_, ⟨0, rfl, ok.zero, by rw [abs_zero]; linarith⟩, ?_⟩
    · show (if normalize = true then L.div (.fin 0) (.fin (N : ℝ)) else .fin 0) = _
      rw [hz, ite_self]
    · have : rowShare normalize N true = 0 := if_pos rfl
      rw [this, zero_mul, sub_zero, abs_zero]
      unfold scoreGradError
      have := mul_nonneg hsh (by linarith : 0 ≤ ε + 2 * u)
      linarith
  | false =>
    have hm : L.mul (.fin (L.rnd (p - t))) (if false = true then .fin 0 else .fin 1) = .fin (L.rnd (p - t)) := by
      show L.round (L.rnd (p - t) * 1) = _
      rw [mul_one, round_fin ok (by linarith), ok.idem]
    rw [hm]
    have hshare : rowShare normalize N false = fullShare normalize N := rfl
    have hdq : |L.rnd (p - t) - (q - t)| ≤ ε + u := by
      rw [abs_le] at *
      constructor <;> linarith [hd2.1, hd2.2, hq.1, hq.2]
    cases normalize with
    | false =>
      refine ⟨_, rfl, ⟨_, rfl, ok.idem _, by linarith⟩, ?_⟩
      have e1 : rowShare false N false = 1 := rfl
      have e2 : fullShare false N = 1 := rfl
      unfold scoreGradError
      rw [e1, e2, one_mul, one_mul]
      linarith
    | true =>
      have e1 : rowShare true N false = 1 / N := rfl
      have e2 : fullShare true N = 1 / N := rfl
      have hq1 : |L.rnd (p - t) / N| ≤ 1 / N := by
        rw [abs_div, abs_of_pos hNr]
        exact div_le_div_of_nonneg_right hd3 hNr.le
      have hq2 : (1 : ℝ) / N ≤ 1 := by rw [div_le_one hNr]; exact hN1
      have hq3 := ac.near (L.rnd (p - t) / N)
      have hq4 : u * |L.rnd (p - t) / N| ≤ u * (1 / N) := mul_le_mul_of_nonneg_left hq1 hu
      refine ⟨L.rnd (L.rnd (p - t) / N), ?_, ⟨_, rfl, ok.idem _, ok.abs_le ok.rndBig (by linarith)⟩, ?_⟩
      · show (if (N : ℝ) = 0 then _ else L.round (L.rnd (p - t) / N)) = _
        rw [if_neg hNr.ne', round_fin ok (by linarith)]
      · unfold scoreGradError
        rw [e1, e2]
        have h5 : |L.rnd (p - t) / N - 1 / N * (q - t)| ≤ 1 / N * (ε + u) := by
          have : L.rnd (p - t) / N - 1 / N * (q - t) = 1 / N * (L.rnd (p - t) - (q - t)) := by ring
          rw [this, abs_mul, abs_of_nonneg (by positivity)]
          exact mul_le_mul_of_nonneg_left hdq (by positivity)
        rw [abs_le] at *
        constructor <;> linarith [hq3.1, hq3.2, h5.1, h5.2]

theorem probReal_mem (ls : List DenseReal) (last : DenseReal) (x : ℕ → ℝ) {j : ℕ} (hj : j < last.nO) : 0 ≤ probReal ls last x j ∧ probReal ls last x j ≤ 1 := by
  have hpos : 0 < ∑ k ∈ Finset.range last.nO, Real.exp (scoresReal ls last x k) :=
    Finset.sum_pos (fun _ _ => Real.exp_pos _) ⟨j, Finset.mem_range.2 hj⟩
  refine ⟨div_nonneg (Real.exp_pos _).le hpos.le, (div_le_one hpos).2 ?_⟩
  exact Finset.single_le_sum (f := fun k => Real.exp (scoresReal ls last x k)) (fun _ _ => (Real.exp_pos _).le) (Finset.mem_range.2 hj)

theorem softmaxReal_prob (ls : List DenseReal) (last : DenseReal) (x : ℕ → ℝ) {j : ℕ} (hj : j < last.nO) :
    (softmaxReal ((List.range last.nO).map (scoresReal ls last x)))[j]? = some (probReal ls last x j) := by
  unfold softmaxReal probReal
  rw [List.getElem?_map, List.getElem?_map, List.getElem?_range hj, List.map_map]
  simp only [Option.map_some]
  congr 2

/-- The gradient of the loss with respect to the scores, and the absence of exceptions. -/
theorem entropy_near (ok : IsFloatLib L count) (ac : Accurate L u η v) {normalize : Bool} {label : ℕ → ℕ} {missing : ℕ → Bool} {ls : List DenseReal}
    {last : DenseReal} (hO : 0 < last.nO) (hcount : last.nO ≤ count) {Y P : Mat Fl} (hN : Y.rows ≤ count) (p1 : P.rows = Y.rows) (p2 : P.cols = Y.cols)
    (hc : Y.cols = last.nO) (hl : ∀ i < Y.rows, label i < last.nO) (hP : ∀ i < Y.rows, L.softmaxRow (.fin 1) (flRow Y i) = .ok (flRow P i)) {x : ℕ → ℕ → ℝ} {E : ℝ}
    (hY : ∀ i < Y.rows, ∀ j < last.nO, ∃ r, Y.at i j = .fin r ∧ IsFinite L (Y.at i j) ∧ |r - scoresReal ls last (x i) j| ≤ E) :
    ∃ dY, L.entropyFl normalize label missing P = .ok dY ∧ dY.rows = Y.rows ∧ dY.cols = last.nO ∧
      (∀ i < Y.rows, ∀ j < last.nO, ∃ r, P.at i j = .fin r ∧ |r - probReal ls last (x i) j| ≤ softmaxNetError u η v E last.nO) ∧
      NearMat L dY (scoreGrad normalize Y.rows label missing ls last x) (fullShare normalize Y.rows)
        (scoreGradError u η normalize Y.rows (softmaxNetError u η v E last.nO)) := by
  have hprob : ∀ i < Y.rows, ∀ j < last.nO, ∃ r, P.at i j = .fin r ∧ L.rnd r = r ∧ 0 ≤ r ∧ r ≤ 1 ∧
      |r - probReal ls last (x i) j| ≤ softmaxNetError u η v E last.nO := by
    intro i hi j hj
    obtain ⟨ps, q1, q2, q3⟩ := softmaxRow_near ok ac hO hcount hc (hY i hi)
    obtain ⟨ys, y1, -, y2, -⟩ := C126_softmax_partial ok (le_refl (1 : ℝ)) (flRow Y i)
      (by unfold flRow; rw [hc]; intro h; rw [List.map_eq_nil_iff, List.range_eq_nil] at h; omega)
      (by unfold flRow; rw [List.length_map, List.length_range, hc]; exact hcount) (by
        intro z hz
        unfold flRow at hz
        obtain ⟨k, hk, rfl⟩ := List.mem_map.1 hz
        obtain ⟨r, -, h2, -⟩ := hY i hi k (by rw [← hc]; exact List.mem_range.1 hk)
        exact h2)
    rw [hP i hi] at q1 y1
    have e1 : flRow P i = ps.map .fin := by simpa using q1
    have e2 : flRow P i = ys := by simpa using y1
    have e3 : (flRow P i)[j]? = some (P.at i j) := by
      unfold flRow
      rw [List.getElem?_map, List.getElem?_range (by rw [p2, hc]; exact hj)]
      rfl
    have hmem : P.at i j ∈ ys := e2 ▸ List.mem_of_getElem? e3
    obtain ⟨r, r1, r2, -, r3, r4⟩ := y2 _ hmem
    refine ⟨r, r1, r2, r3, r4, ?_⟩
    have e4 : ps[j]? = some r := by
      rw [e1, List.getElem?_map, r1] at e3
      obtain ⟨a, ha, hb⟩ := Option.map_eq_some_iff.1 e3
      cases hb
      exact ha
    exact q3 j r _ e4 (softmaxReal_prob ls last (x i) hj)
  have hok : ¬ ∃ i < P.rows, ∃ j < P.cols, (Fl.fin 1).lt (P.at i j) ∨ (P.at i j).lt (.fin 0) := by
    rintro ⟨i, hi, j, hj, h⟩
    obtain ⟨r, r1, -, r3, r4, -⟩ := hprob i (p1 ▸ hi) j (by rw [← hc, ← p2]; exact hj)
    rw [r1] at h
    rcases h with h | h
    · exact absurd (show (1 : ℝ) < r from h) (not_lt.2 r4)
    · exact absurd (show r < 0 from h) (not_lt.2 r3)
  have hok' : ¬ ∃ i < P.rows, P.cols ≤ label i := by
    rintro ⟨i, hi, h⟩
    exact absurd (hl i (p1 ▸ hi)) (not_lt.2 (by rw [← hc, ← p2]; exact h))
  refine ⟨_, (if_neg hok').trans (if_neg hok), p1, p2.trans hc, fun i hi j hj => ?_, fun i hi j hj => ?_⟩
  · obtain ⟨r, r1, -, -, -, r2⟩ := hprob i hi j hj
    exact ⟨r, r1, r2⟩
  · have hi' : i < Y.rows := p1 ▸ hi
    have hjc : j < P.cols := hj
    have hj' : j < last.nO := by rw [← hc, ← p2]; exact hj
    obtain ⟨r, r1, r2, r3, r4, r5⟩ := hprob i hi' j hj'
    obtain ⟨s, s1, s2, s3⟩ := entropyGrad_near ok ac (normalize := normalize) (N := Y.rows) (by omega) hN (missing := missing i) r2 r3 r4 r5 (label i) j
    have e1 : (i * P.cols + j) / P.cols = i := by rw [Nat.add_comm, Nat.add_mul_div_right _ _ (by omega), Nat.div_eq_of_lt hjc, Nat.zero_add]
    have e2 : (i * P.cols + j) % P.cols = j := by rw [Nat.add_comm, Nat.add_mul_mod_self_right, Nat.mod_eq_of_lt hjc]
    have e3 : L.entropyGradFl normalize P.rows (missing ((i * P.cols + j) / P.cols)) (P.val (i * P.cols + j))
        (oneHotFl (label ((i * P.cols + j) / P.cols)) ((i * P.cols + j) % P.cols)) = .fin s := by
      rw [e1, e2, p1, ← s1, ← r1]
      rfl
    refine ⟨?_, s, e3, ?_, s3⟩
    · obtain ⟨q1, q2⟩ := probReal_mem ls last (x i) hj'
      have hs : |rowShare normalize Y.rows (missing i)| ≤ fullShare normalize Y.rows := by
        unfold rowShare fullShare
        cases missing i <;> cases normalize <;> simp
      have hd : |probReal ls last (x i) j - if j = label i then 1 else 0| ≤ 1 := by
        rw [abs_le]
        split <;> constructor <;> linarith
      show |rowShare normalize Y.rows (missing i) * (probReal ls last (x i) j - if j = label i then 1 else 0)| ≤ _
      rw [abs_mul]
      have := mul_le_mul hs hd (abs_nonneg _) ((abs_nonneg _).trans hs)
      linarith
    · show IsFinite L (L.entropyGradFl normalize P.rows (missing ((i * P.cols + j) / P.cols)) (P.val (i * P.cols + j))
        (oneHotFl (label ((i * P.cols + j) / P.cols)) ((i * P.cols + j) % P.cols)))
      rw [e3]
      exact s2

/-- **C138.**  A training step in floating point of a network of `Relu` layers that ends with `Softmax`, with the loss `CategoricalCrossentropy`: the
probabilities, and the gradients of the input and of all weights and biases, are near those of real numbers, `scoreGrad` being the gradient of the
scores.  By `C138_derivative` the latter are the derivatives of the cross-entropy. -/
theorem C138_step (ok : IsFloatLib L count) (ac : Accurate L u η v) {cpu normalize : Bool} {label : ℕ → ℕ} {missing : ℕ → Bool} {ds : List FlDense}
    {ls : List DenseReal} (hs : List.Forall₂ (IsFlDense L) ds ls) {d : FlDense} {last : DenseReal} (hd : IsFlDense L d last) (hO : 0 < last.nO)
    (hcount : last.nO ≤ count) {X P dX : Mat Fl} (hN : X.rows ≤ count) {gs : List FlGrad} {g : FlGrad}
    (h : L.TrainGrad cpu normalize label missing ds d X P dX gs g) {x : ℕ → ℕ → ℝ} {M e : ℝ} (hM : 0 ≤ M) (he : 0 ≤ e) (hX : NearMat L X x M e) {ε f : ℝ}
    (hε : ε = softmaxNetError u η v (netError u η (ls ++ [last]) M e) last.nO) (hf : f = scoreGradError u η normalize X.rows ε) (hf0 : 0 ≤ f)
    (hb : NoOverflow u η L.big (ls ++ [last]) M e)
    (hg : GradFits u η L.big X.rows (fullShare normalize X.rows) f (ls ++ [last]) M e) (hc : ClearUnits u η X.rows ls x M e) :
    (∀ i < X.rows, ∀ j < last.nO, ∃ r, P.at i j = .fin r ∧ |r - probReal ls last (x i) j| ≤ ε) ∧
    dX.rows = X.rows ∧ dX.cols = X.cols ∧
    NearMat L dX (fun i => inputGrad ls last (x i) (scoreGrad normalize X.rows label missing ls last x i))
      (gradSize (ls ++ [last]) (fullShare normalize X.rows)) (gradError u η (ls ++ [last]) (fullShare normalize X.rows) f) ∧
    GradsNear u η X.rows (scoreGrad normalize X.rows label missing ls last x) (fullShare normalize X.rows) f ls last x M e gs g := by
  obtain ⟨Y, dY, p1, p2, hP, hdY, hpass⟩ := h
  obtain ⟨h1, -, h3, h4⟩ := trainPass_split hpass
  obtain ⟨c1, c2, c3⟩ := C134_scores ok ac hs hd h1 hM he hX hb
  have hl : ∀ i < Y.rows, label i < last.nO := by
    intro i hi
    by_contra hcon
    unfold FloatLib.entropyFl at hdY
    rw [if_pos ⟨i, p1 ▸ hi, by rw [p2, c2]; exact not_lt.1 hcon⟩] at hdY
    cases hdY
  obtain ⟨dY', e1, e2, e3, e4, e5⟩ := entropy_near ok ac (normalize := normalize) (label := label) (missing := missing) hO hcount (by rw [c1]; exact hN)
    p1 p2 c2 hl hP (x := x) (ls := ls) (by rw [c1]; exact c3)
  rw [hdY] at e1
  cases e1
  rw [c1, ← hε] at e4 e5
  rw [← hf] at e5
  have hfull : 0 ≤ fullShare normalize X.rows := by unfold fullShare; split <;> positivity
  have hb' : NoOverflow u η L.big ls M e := by
    have aux : ∀ (ls : List DenseReal) (M e : ℝ), NoOverflow u η L.big (ls ++ [last]) M e → NoOverflow u η L.big ls M e := by
      intro ls
      induction ls with
      | nil => exact fun _ _ _ => trivial
      | cons l ls ih => exact fun M e h => ⟨h.1, ih _ _ h.2⟩
    exact aux ls M e hb
  exact ⟨e4, C137_gradients ok ac hs hd h4 hM he hX hfull hf0 e5 hb' hg hc⟩

/-- The forward pass has a result, and for it the backward pass has one for every gradient of the right shape. -/
theorem trainPass_exists (L : FloatLib) (cpu : Bool) (d : FlDense) : ∀ (ds : List FlDense) (X : Mat Fl),
    (ds ++ [d]).IsChain (fun a b => a.W.rows = b.W.cols) → (∀ a, (ds ++ [d]).head? = some a → X.cols = a.W.cols) →
    ∃ Y, L.Scores cpu ds d X Y ∧ Y.rows = X.rows ∧ Y.cols = d.W.rows ∧ ∀ dY : Mat Fl, dY.rows = Y.rows → dY.cols = Y.cols →
      ∃ dX gs g, L.TrainPass cpu ds d X Y dY dX gs g ∧ dX.rows = X.rows ∧ dX.cols = X.cols
  | [], X, _, h => by
    have hc := h d rfl
    obtain ⟨Y, hY⟩ := affine_exists L X d.W d.b hc
    obtain ⟨-, s2, s3⟩ := affine_shape hY
    refine ⟨Y, ⟨X, rfl, hY⟩, s2, s3, fun dY d1 d2 => ?_⟩
    obtain ⟨dX, g, k1, k2, k3⟩ := linearBack_exists L X d.W dY (d2.trans s3) (d1.trans s2)
    exact ⟨dX, [], g, ⟨hY, d1, d2, k1⟩, k2, k3.trans hc.symm⟩
  | a :: ds, X, hc, h => by
    obtain ⟨Z, h1, h2, h3⟩ := relu_exists L cpu a X (h a rfl)
    obtain ⟨Y, ⟨W, k1, k2⟩, k3, k4, k5⟩ := trainPass_exists L cpu d ds Z (List.IsChain.tail hc) (by
      intro b hb
      rw [h3]
      exact (List.isChain_cons.1 hc).1 b hb)
    refine ⟨Y, ⟨W, ⟨Z, h1, k1⟩, k2⟩, k3.trans h2, k4, fun dY d1 d2 => ?_⟩
    obtain ⟨dZ, gs, g, m1, m2, m3⟩ := k5 dY d1 d2
    let dA : Mat Fl := ⟨dZ.rows, dZ.cols, fun k => L.backpropReluFl cpu (dZ.val k) (Z.val k)⟩
    obtain ⟨dX, g₀, n1, n2, n3⟩ := linearBack_exists L X a.W dA (m3.trans h3) (m2.trans h2)
    refine ⟨dX, g₀ :: gs, g, ⟨Z, dZ, h1, m1, m2, m3, dA, rfl, rfl, fun i _ j _ => ?_, n1⟩, n2, n3.trans (h a rfl).symm⟩
    show L.backpropReluFl cpu (dZ.val (i * dZ.cols + j)) (Z.val (i * dZ.cols + j)) = L.backpropReluFl cpu (dZ.at i j) (Z.at i j)
    unfold Mat.at
    rw [m3]

/-- A training step raises no exception: the probabilities never leave the interval from 0 to 1 by rounding, whatever the order of the additions,
so that `get_grad` accepts them. -/
theorem C138_runs (ok : IsFloatLib L count) (ac : Accurate L u η v) (cpu normalize : Bool) (label : ℕ → ℕ) (missing : ℕ → Bool) {ds : List FlDense}
    {ls : List DenseReal} (hs : List.Forall₂ (IsFlDense L) ds ls) {d : FlDense} {last : DenseReal} (hd : IsFlDense L d last) (hO : 0 < last.nO)
    (hcount : last.nO ≤ count) {X : Mat Fl} (hN : X.rows ≤ count) (hlabel : ∀ i < X.rows, label i < last.nO) {x : ℕ → ℕ → ℝ} {M e : ℝ}
    (hM : 0 ≤ M) (he : 0 ≤ e) (hX : NearMat L X x M e) (hb : NoOverflow u η L.big (ls ++ [last]) M e) (hchain : (ds ++ [d]).IsChain (fun a b => a.W.rows = b.W.cols))
    (hin : ∀ a, (ds ++ [d]).head? = some a → X.cols = a.W.cols) :
    (∃ P dX gs g, L.TrainGrad cpu normalize label missing ds d X P dX gs g) ∧
    ∀ Y P, L.Scores cpu ds d X Y → P.rows = Y.rows → P.cols = Y.cols → (∀ i < Y.rows, L.softmaxRow (.fin 1) (flRow Y i) = .ok (flRow P i)) →
      ∃ dY, L.entropyFl normalize label missing P = .ok dY := by
  have hall : ∀ Y P, L.Scores cpu ds d X Y → P.rows = Y.rows → P.cols = Y.cols → (∀ i < Y.rows, L.softmaxRow (.fin 1) (flRow Y i) = .ok (flRow P i)) →
      ∃ dY, L.entropyFl normalize label missing P = .ok dY ∧ dY.rows = Y.rows ∧ dY.cols = Y.cols := by
    intro Y P hY p1 p2 hP
    obtain ⟨c1, c2, c3⟩ := C134_scores ok ac hs hd hY hM he hX hb
    obtain ⟨dY, e1, e2, e3, -⟩ := entropy_near ok ac (normalize := normalize) (label := label) (missing := missing) hO hcount (by rw [c1]; exact hN)
      p1 p2 c2 (by rw [c1]; exact hlabel) hP (x := x) (ls := ls) (by rw [c1]; exact c3)
    exact ⟨dY, e1, e2, e3.trans c2.symm⟩
  refine ⟨?_, fun Y P h1 h2 h3 h4 => ?_⟩
  · obtain ⟨Y, hY, y1, y2, hback⟩ := trainPass_exists L cpu d ds X hchain hin
    obtain ⟨c1, c2, c3⟩ := C134_scores ok ac hs hd hY hM he hX hb
    have hsoft : ∀ i, i < Y.rows → ∃ ys : List Fl, L.softmaxRow (.fin 1) (flRow Y i) = .ok ys ∧ ys.length = Y.cols := by
      intro i hi
      obtain ⟨ys, y1, y2, -⟩ := C126_softmax_partial ok (le_refl (1 : ℝ)) (flRow Y i)
        (by unfold flRow; rw [c2]; intro h; rw [List.map_eq_nil_iff, List.range_eq_nil] at h; omega)
        (by unfold flRow; rw [List.length_map, List.length_range, c2]; exact hcount) (by
          intro z hz
          unfold flRow at hz
          obtain ⟨k, hk, rfl⟩ := List.mem_map.1 hz
          obtain ⟨r, -, h2, -⟩ := c3 i (c1 ▸ hi) k (by rw [← c2]; exact List.mem_range.1 hk)
          exact h2)
      exact ⟨ys, y1, by rw [y2]; simp [flRow]⟩
    choose! ys hys using hsoft
    let P : Mat Fl := ⟨Y.rows, Y.cols, fun k => (ys (k / Y.cols)).getD (k % Y.cols) .nan⟩
    have hP : ∀ i < Y.rows, L.softmaxRow (.fin 1) (flRow Y i) = .ok (flRow P i) := by
      intro i hi
      obtain ⟨h1, h2⟩ := hys i hi
      rw [h1]
      congr 1
      refine List.ext_getElem (by simp [flRow, P, h2]) fun j hj1 hj2 => ?_
      have hj : j < Y.cols := h2 ▸ hj1
      have e1 : (i * Y.cols + j) / Y.cols = i := by rw [Nat.add_comm, Nat.add_mul_div_right _ _ (by omega), Nat.div_eq_of_lt hj, Nat.zero_add]
      have e2 : (i * Y.cols + j) % Y.cols = j := by rw [Nat.add_comm, Nat.add_mul_mod_self_right, Nat.mod_eq_of_lt hj]
      simp only [flRow, List.getElem_map, List.getElem_range]
      show _ = (ys ((i * Y.cols + j) / Y.cols)).getD ((i * Y.cols + j) % Y.cols) .nan
      rw [e1, e2, List.getD_eq_getElem?_getD, List.getElem?_eq_getElem hj1, Option.getD_some]
    obtain ⟨dY, e1, e2, e3⟩ := hall Y P hY rfl rfl hP
    obtain ⟨dX, gs, g, k1, -⟩ := hback dY e2 e3
    exact ⟨P, dX, gs, g, Y, dY, rfl, rfl, hP, e1, k1⟩
  · obtain ⟨dY, e1, -⟩ := hall Y P h1 h2 h3 h4
    exact ⟨dY, e1⟩

/-! ### The numbers of `scoreGrad` lead to the derivative of the cross-entropy -/

theorem move_nO (l : DenseReal) (w : DenseDir) (t : ℝ) : (l.move w t).nO = l.nO := rfl

/-- Every score has a derivative. -/
theorem score_derivative (ls : List DenseReal) (last : DenseReal) (vs : List DenseDir) (w : DenseDir) (x : ℝ → ℕ → ℝ) (x' : ℕ → ℝ)
    (h1 : vs.length = ls.length) (h2 : Widths (netInputs ls last) ls last.nI) (h3 : ∀ k < netInputs ls last, HasDerivAt (fun t => x t k) (x' k) 0)
    (h4 : NonzeroUnits ls (x 0)) {j : ℕ} (hj : j < last.nO) :
    ∃ s', HasDerivAt (fun t => scoresReal (List.zipWith (fun l w => l.move w t) ls vs) (last.move w t) (x t) j) s' 0 := by
  have h := C137_derivative ls last vs w (fun k => if k = j then 1 else 0) x x' h1 h2 h3 h4
  refine ⟨_, h.congr_of_eventuallyEq (Filter.Eventually.of_forall fun t => ?_)⟩
  simp [hj]

theorem zip_zero (ls : List DenseReal) : ∀ vs : List DenseDir, vs.length = ls.length → List.zipWith (fun l w => l.move w 0) ls vs = ls := by
  induction ls with
  | nil => intro vs _; rfl
  | cons l ls ih =>
    intro vs h
    cases vs with
    | nil => exact absurd h (by simp)
    | cons w vs => rw [List.zipWith_cons_cons, move_zero, ih vs (by simpa using h)]

/-- The gradients of a training step are the derivatives of the cross-entropy: if the inputs move with the velocities `x'`, and the parameters move in
the directions `vs` and `w`, the cross-entropy changes by the sum of the gradients times the velocities.  No hidden unit may be zero. -/
theorem C138_derivative (normalize : Bool) (N : ℕ) (label : ℕ → ℕ) (missing : ℕ → Bool) (ls : List DenseReal) (last : DenseReal) (vs : List DenseDir)
    (w : DenseDir) (x : ℝ → ℕ → ℕ → ℝ) (x' : ℕ → ℕ → ℝ) (hlabel : ∀ n < N, label n < last.nO) (h1 : vs.length = ls.length)
    (h2 : Widths (netInputs ls last) ls last.nI) (h3 : ∀ n < N, ∀ k < netInputs ls last, HasDerivAt (fun t => x t n k) (x' n k) 0)
    (h4 : ∀ n < N, NonzeroUnits ls (x 0 n)) :
    HasDerivAt (fun t => netEntropy normalize N label missing (List.zipWith (fun l w => l.move w t) ls vs) (last.move w t) (x t))
      (∑ n ∈ Finset.range N, (∑ k ∈ Finset.range (netInputs ls last),
          inputGrad ls last (x 0 n) (scoreGrad normalize N label missing ls last (x 0) n) k * x' n k +
        alongNet ls last vs w (x 0 n) (scoreGrad normalize N label missing ls last (x 0) n))) 0 := by
  unfold netEntropy
  refine HasDerivAt.fun_sum fun n hn => ?_
  have hn := Finset.mem_range.1 hn
  have hl := hlabel n hn
  choose! s' hs' using fun j (hj : j < last.nO) => score_derivative ls last vs w (fun t => x t n) (x' n) h1 h2 (h3 n hn) (h4 n hn) hj
  -- the weighted sum of the scores, in two ways
  have e1 := C137_derivative ls last vs w (scoreGrad normalize N label missing ls last (x 0) n) (fun t => x t n) (x' n) h1 h2 (h3 n hn) (h4 n hn)
  have e2 := HasDerivAt.fun_sum (u := Finset.range last.nO) (A := fun j t => scoreGrad normalize N label missing ls last (x 0) n j *
      scoresReal (List.zipWith (fun l w => l.move w t) ls vs) (last.move w t) (x t n) j) (x := 0)
    fun j hj => (hs' j (Finset.mem_range.1 hj)).const_mul (scoreGrad normalize N label missing ls last (x 0) n j)
  rw [e1.unique e2]
  -- the logarithm of the probability
  have hpos : ∀ t : ℝ, 0 < ∑ k ∈ Finset.range last.nO, Real.exp (scoresReal (List.zipWith (fun l w => l.move w t) ls vs) (last.move w t) (x t n) k) :=
    fun t => Finset.sum_pos (fun _ _ => Real.exp_pos _) ⟨label n, Finset.mem_range.2 hl⟩
  have e3 : ∀ t : ℝ, -Real.log (probReal (List.zipWith (fun l w => l.move w t) ls vs) (last.move w t) (x t n) (label n)) =
      Real.log (∑ k ∈ Finset.range last.nO, Real.exp (scoresReal (List.zipWith (fun l w => l.move w t) ls vs) (last.move w t) (x t n) k)) -
        scoresReal (List.zipWith (fun l w => l.move w t) ls vs) (last.move w t) (x t n) (label n) := by
    intro t
    unfold probReal
    rw [move_nO, Real.log_div (Real.exp_pos _).ne' (hpos t).ne', Real.log_exp]
    ring
  have e4 := HasDerivAt.fun_sum (u := Finset.range last.nO)
    (A := fun j t => Real.exp (scoresReal (List.zipWith (fun l w => l.move w t) ls vs) (last.move w t) (x t n) j)) (x := 0)
    fun j hj => (hs' j (Finset.mem_range.1 hj)).exp
  have e5 := ((e4.log (hpos 0).ne').sub (hs' (label n) hl)).const_mul (rowShare normalize N (missing n))
  refine (e5.congr_of_eventuallyEq (Filter.Eventually.of_forall fun t => ?_)).congr_deriv ?_
  · show rowShare normalize N (missing n) * _ = rowShare normalize N (missing n) * _
    rw [e3 t]
    rfl
  · rw [zip_zero ls vs h1, move_zero]
    unfold scoreGrad probReal
    rw [Finset.sum_div]
    have e6 : ∑ j ∈ Finset.range last.nO, (if j = label n then (1 : ℝ) else 0) * s' j = s' (label n) := by simp [hl]
    rw [← e6, ← Finset.sum_sub_distrib, Finset.mul_sum]
    refine Finset.sum_congr rfl fun j _ => ?_
    ring

/-! ### A concrete case: the network of C134 in float32, the row (1, 2) with the class 1.  The scores are 25 and 33, so the gradient of the first
score is `exp (-8) / (1 + exp (-8))`, and of the second minus that -/

theorem net_softmaxError : softmaxNetError (1 / 2 ^ 23) (1 / 2 ^ 149) 0 (netError (1 / 2 ^ 23) (1 / 2 ^ 149) ([realHidden] ++ [realLast]) 2 0) 2 ≤ 1 / 1000 := by
  have h1 : netError (1 / 2 ^ 23) (1 / 2 ^ 149) ([realHidden] ++ [realLast]) 2 0 ≤ 1 / 10000 := net_error
  have h2 : Real.exp (2 * netError (1 / 2 ^ 23) (1 / 2 ^ 149) ([realHidden] ++ [realLast]) 2 0) ≤ Real.exp (1 / 5000) :=
    Real.exp_le_exp.2 (by linarith)
  have h3 : Real.exp (1 / 5000) ≤ 5000 / 4999 := by
    have h4 := Real.add_one_le_exp (-(1 / 5000 : ℝ))
    rw [Real.exp_neg] at h4
    have h5 := Real.exp_pos (1 / 5000 : ℝ)
    rw [← one_div, le_div_iff₀ h5] at h4
    linarith
  have h6 := h2.trans h3
  unfold softmaxNetError
  norm_num at h6 ⊢
  linarith

/-- The bounds of the training step of this network. -/
theorem net_train {ε f : ℝ}
    (hε : ε = softmaxNetError (1 / 2 ^ 23) (1 / 2 ^ 149) 0 (netError (1 / 2 ^ 23) (1 / 2 ^ 149) ([realHidden] ++ [realLast]) 2 0) realLast.nO)
    (hf : f = scoreGradError (1 / 2 ^ 23) (1 / 2 ^ 149) true flA.rows ε) :
    fullShare true flA.rows = 1 ∧ f ≤ 1 / 500 ∧ 0 ≤ f ∧
    GradFits (1 / 2 ^ 23) (1 / 2 ^ 149) float32Lib.big flA.rows (fullShare true flA.rows) f ([realHidden] ++ [realLast]) 2 0 := by
  have hshare : fullShare true flA.rows = 1 := by norm_num [fullShare, flA]
  have hε1 : ε ≤ 1 / 1000 := hε ▸ net_softmaxError
  have hε0 : 0 ≤ ε := by
    have hE : 0 ≤ netError (1 / 2 ^ 23) (1 / 2 ^ 149) ([realHidden] ++ [realLast]) 2 0 := by
      simp only [List.cons_append, List.nil_append, netError, DenseReal.outError, DenseReal.outSize, dotError, realHidden, realLast]
      norm_num
    have h2 := Real.add_one_le_exp (2 * netError (1 / 2 ^ 23) (1 / 2 ^ 149) ([realHidden] ++ [realLast]) 2 0)
    rw [hε]
    unfold softmaxNetError
    show 0 ≤ ((1 / 2 ^ 23 : ℝ) + 1 / 2 ^ 149 + (1 / (1 - 1 / 2 ^ 23) ^ 2 - 1) + (((2 : ℕ) : ℝ) + 1) * (2 * (1 / 2 ^ 23) + 0 + 3 * (1 / 2 ^ 149))) + (_ - 1)
    have h3 : (0 : ℝ) ≤ (1 / 2 ^ 23 : ℝ) + 1 / 2 ^ 149 + (1 / (1 - 1 / 2 ^ 23) ^ 2 - 1) + (((2 : ℕ) : ℝ) + 1) * (2 * (1 / 2 ^ 23) + 0 + 3 * (1 / 2 ^ 149)) := by
      norm_num
    linarith
  have hf1 : f ≤ 1 / 500 := by
    rw [hf]
    unfold scoreGradError
    rw [hshare]
    norm_num at hε1 ⊢
    linarith
  have hf0 : 0 ≤ f := by
    rw [hf]
    unfold scoreGradError
    rw [hshare]
    norm_num
    linarith
  have hfits : GradFits (1 / 2 ^ 23) (1 / 2 ^ 149) float32Lib.big flA.rows (fullShare true flA.rows) f ([realHidden] ++ [realLast]) 2 0 := by
    have hb := float32Lib_ok.bigBound
    rw [hshare]
    simp only [List.cons_append, List.nil_append, GradFits, gradSize, gradError, realHidden_col, realLast_col]
    simp only [DenseReal.outError, DenseReal.outSize, dotError, realHidden, realLast, flA, and_true]
    refine ⟨?_, ?_, ?_, ?_, ?_, ?_⟩ <;> refine le_trans ?_ (show (1000 : ℝ) ≤ _ by linarith) <;> norm_num <;> linarith
  exact ⟨hshare, hf1, hf0, hfits⟩

/-- The step runs on every backend, and every result has gradients near those of the cross-entropy: that of the first weight of the last layer is near
8 times the gradient of the first score. -/
example (cpu : Bool) : (∃ P dX gs g, float32Lib.TrainGrad cpu true (fun _ => 1) (fun _ => false) [netHidden] netLast flA P dX gs g) ∧
    ∀ P dX g₀ g, float32Lib.TrainGrad cpu true (fun _ => 1) (fun _ => false) [netHidden] netLast flA P dX [g₀] g →
      ∃ r, g.dW.at 0 0 = .fin r ∧ |r - 8 * (Real.exp 25 / (Real.exp 25 + Real.exp 33))| ≤ 1 / 50 := by
  have hcnt : (2 : ℕ) ≤ 2 ^ 24 := by norm_num
  refine ⟨(C138_runs float32Lib_ok float32_accurate cpu true (fun _ => 1) (fun _ => false) (.cons (netHidden_dense float32Lib_ok) .nil)
    (netLast_dense float32Lib_ok) (by decide) hcnt (X := flA) (by norm_num [flA]) (fun _ _ => by decide) (by norm_num) le_rfl (net_input float32Lib_ok) net_fits
    (by simp [netHidden, netLast, flA, flB]) (by intro a h; cases h; rfl)).1, fun P dX g₀ g h => ?_⟩
  obtain ⟨ε, hε⟩ : ∃ ε, ε = softmaxNetError (1 / 2 ^ 23) (1 / 2 ^ 149) 0 (netError (1 / 2 ^ 23) (1 / 2 ^ 149) ([realHidden] ++ [realLast]) 2 0) realLast.nO := ⟨_, rfl⟩
  obtain ⟨f, hf⟩ : ∃ f, f = scoreGradError (1 / 2 ^ 23) (1 / 2 ^ 149) true flA.rows ε := ⟨_, rfl⟩
  obtain ⟨hshare, hf1, hf0, hfits⟩ := net_train hε hf
  obtain ⟨-, -, -, -, -, h5⟩ := C138_step float32Lib_ok float32_accurate (.cons (netHidden_dense float32Lib_ok) .nil) (netLast_dense float32Lib_ok)
    (by decide) hcnt (X := flA) (by norm_num [flA]) h (by norm_num) le_rfl (net_input float32Lib_ok) hε hf hf0 net_fits hfits net_clear
  have h5 : LayerGradNear _ _ _ _ _ _ _ _ _ _ _ := h5
  obtain ⟨r, r1, r2⟩ := h5.dW 0 (by decide) 0 (by decide)
  refine ⟨r, r1, ?_⟩
  have e1 : realHidden.out (fun k => (k : ℝ) + 1) 0 = 8 := by
    simp [DenseReal.out, realHidden, Finset.sum_range_succ]
    norm_num
  have e2 : scoreGrad true flA.rows (fun _ => 1) (fun _ => false) [realHidden] realLast (fun _ k => (k : ℝ) + 1) 0 0 =
      Real.exp 25 / (Real.exp 25 + Real.exp 33) := by
    unfold scoreGrad probReal
    simp only [net_score]
    rw [show realLast.nO = 2 from rfl, Finset.sum_range_succ, Finset.sum_range_one]
    norm_num [rowShare, flA]
  have q : weightError (1 / 2 ^ 23) (1 / 2 ^ 149) 1 1 f (realHidden.outSize 2) (realHidden.outError (1 / 2 ^ 23) (1 / 2 ^ 149) 2 0) ≤ 1 / 50 := by
    simp only [weightError, DenseReal.outError, DenseReal.outSize, dotError, realHidden]
    norm_num at hf1 ⊢
    linarith
  rw [show flA.rows = 1 from rfl] at hshare e2
  rw [show flA.rows = 1 from rfl, hshare] at r2
  have t3 := r2.trans q
  rw [Finset.sum_range_one, e1, e2] at t3
  rw [max_eq_right (by norm_num), mul_comm] at t3
  exact t3

/-- The hypotheses of `C138_derivative` are met by this network. -/
example : (∀ n < 1, (fun _ => 1) n < realLast.nO) ∧ Widths (netInputs [realHidden] realLast) [realHidden] realLast.nI ∧
    ∀ n < 1, NonzeroUnits [realHidden] ((fun (_ : ℝ) (_ k : ℕ) => (k : ℝ) + 1) 0 n) := by
  refine ⟨fun n _ => (by decide : 1 < 2), ⟨rfl, rfl⟩, fun n _ => ⟨fun j _ => ?_, trivial⟩⟩
  have h1 : realHidden.out (fun k => (k : ℝ) + 1) j = 8 := by
    simp [DenseReal.out, realHidden, Finset.sum_range_succ]
    norm_num
  show realHidden.out (fun k => (k : ℝ) + 1) j ≠ 0
  rw [h1]
  norm_num

end Thinc
