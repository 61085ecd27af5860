import Verif.Props.Concatenate
/-!
# C53: concatenate with Ragged and list values

The forward pass is right for all three containers.  The backward pass sums the input gradients with
`+=`, which raises for two `Ragged`s and extends a list by another, so that with `Ragged` outputs there is
no gradient, and with list inputs the gradient is the layers' gradients one after the other instead of
their sum.
-/
namespace Thinc
open Spec Spec.Tensor

section
variable {N : ℕ} {sh : Fin N → ℕ × ℕ} {E : Type} [NormedAddCommGroup E] [NormedSpace ℝ E] [Tensor E]
  {train : Bool} {θ : Params sh} {x : E} {K : Kind E} {n : ℕ}

theorem concatenate_eq (L L' : Layer) (Ls : List Layer) :
    concatenate (L :: L' :: Ls) = concatenateForward (L :: L' :: Ls) := rfl

theorem extract_ragged {lengths : List ℕ} {w : ℕ} {v : Val} {y : Fin lengths.sum → Fin w → ℝ}
    (h : (Kind.ragged lengths w).val v y) : ∃ A, v.raggedData = .ok A ∧ IsMat A y := by
  obtain ⟨A, rfl, hA⟩ := h
  exact ⟨A, rfl, hA⟩

theorem mapM_asArr (As : List (Mat ℝ)) : (As.map Val.arr).mapM Val.asArr = .ok As := by
  induction As with
  | nil => rfl
  | cons A As ih => rw [List.map_cons, List.mapM_cons, ih]; rfl

theorem extract_seqs {lengths : List ℕ} (hne : lengths ≠ []) {w : ℕ} {v : Val} {y : Fin lengths.sum → Fin w → ℝ}
    (h : (Kind.seqs lengths w).val v y) : ∃ A, v.stacked = .ok A ∧ IsMat A y := by
  obtain ⟨As, rfl, hA⟩ := h
  obtain ⟨C, e, hC⟩ := hA.vstack hne
  refine ⟨C, ?_, hC⟩
  simp only [Val.stacked, Val.items, bind, Except.bind, mapM_asArr, e]

/-- `Ragged` outputs: the forward pass puts the outputs side by side.  With an array as input the
gradients are exact. -/
theorem C53_ragged_of_arrays {nI mI : ℕ} {x : Fin nI → Fin mI → ℝ} {lengths : List ℕ} {L L' : Layer} {Ls : List Layer}
    {w : ℕ} {f : Params sh × (Fin nI → Fin mI → ℝ) → Fin lengths.sum → Fin w → ℝ}
    (h : ExactColumns train θ lengths.sum (Kind.arr nI mI) (Kind.ragged lengths) x (L :: L' :: Ls) w f) :
    Exact (concatenate (L :: L' :: Ls)) train (Kind.arr nI mI) (Kind.ragged lengths w) f θ x := by
  rw [concatenate_eq]
  intro P v hP hv
  obtain ⟨Y, Ys, As, cbs, back, H, ⟨outs, eo, eY, ecb⟩, eA, ⟨w1, y1, A1, rfl, _⟩, eH, hH, hb, hc⟩ :=
    columns_all (join := Val.iadd) (extract := Val.raggedData) (M := Kind.ragged lengths) extract_ragged hP hv h
  refine ⟨.ragged H lengths, fun dOutput G => (do
    let d ← dOutput.raggedData
    let dLengths ← dOutput.lengths
    concatBackprop (fun start stop => .ragged (d.colBlock start stop) dLengths) Val.iadd cbs (As.map Mat.cols) G), back,
    ?_, ⟨H, rfl, hH⟩, hb, ?_⟩
  · simp only [concatenateForward, eo, bind, Except.bind, concatOutputs, eY, ecb, List.head?_cons, concatRagged, eA, eH,
      pure, Except.pure, firstItem, Val.lengths]
  · rintro _ dy G g ⟨D, rfl, hD⟩ hG
    obtain ⟨dX', G', e', hX', hG'⟩ := hc (joins_arr nI mI) (fun start stop => .ragged (D.colBlock start stop) lengths) dy G g (by
      intro a u hu
      refine ⟨_, rfl, (isMat_colBlock D hD.1 a u (by rw [hD.2.1]; omega)).congr fun r c => ?_⟩
      exact hD.at r.2 (by omega)) hG
    exact ⟨dX', G', e', hX', hG'⟩

theorem except_bind_ok {α β : Type} {r : Except PyErr α} {k : α → Except PyErr β} {b : β} (h : (r >>= k) = .ok b) :
    ∃ a, r = .ok a ∧ k a = .ok b := by
  cases r with
  | error e => cases h
  | ok a => exact ⟨a, rfl, h⟩

theorem mapM_cons_ok {α β : Type} {f : α → Except PyErr β} {a : α} {as : List α} {bs : List β}
    (h : (a :: as).mapM f = .ok bs) : ∃ b bs', f a = .ok b ∧ as.mapM f = .ok bs' ∧ bs = b :: bs' := by
  rw [List.mapM_cons] at h
  obtain ⟨b, hb, h⟩ := except_bind_ok h
  obtain ⟨bs', hbs, h⟩ := except_bind_ok h
  exact ⟨b, bs', hb, hbs, by cases h; rfl⟩

/-- The backward pass of two or more layers up to the sum of the first two gradients. -/
theorem columns_head {M : (w : ℕ) → Kind (Fin n → Fin w → ℝ)} {extract : Val → Except PyErr (Mat ℝ)}
    (hM : ∀ {w v} {y : Fin n → Fin w → ℝ}, (M w).val v y → ∃ A, extract v = .ok A ∧ IsMat A y)
    {P : ParamVals} {v : Val} (hP : IsParams P θ) (hv : K.val v x) {join : Val → Val → Except PyErr Val}
    {L L' : Layer} {Ls : List Layer} {w : ℕ} {f : Params sh × E → Fin n → Fin w → ℝ}
    (h : ExactColumns train θ n K M x (L :: L' :: Ls) w f)
    {outs : List (Val × Callback)} {As : List (Mat ℝ)} (eo : (L :: L' :: Ls).mapM (fun L => L train P v) = .ok outs)
    (eA : (outs.map Prod.fst).mapM extract = .ok As) :
    ∀ (block : ℕ → ℕ → Val) (dy : Fin n → Fin w → ℝ) (G : GradStore) (g : Params sh),
        (∀ (a u : ℕ) (hu : a + u ≤ w), (M u).grad (block a (a + u)) (fun r c => dy r ⟨a + c, by omega⟩)) →
        IsGrads G g → ∃ d1 x1 d2 x2 G' start rest, K.grad d1 x1 ∧ K.grad d2 x2 ∧
          (Ls = [] → rest = []) ∧
          concatBackprop block join (outs.map Prod.snd) (As.map Mat.cols) G = (do
            let dX ← join d1 d2
            let (dX, _, G) ← forM' rest (dX, start, G') (concatStep block join)
            return (dX, G)) := by
  intro block dy G g hblock hG
  have step : ∃ (w1 w2 : ℕ) (f1 : Params sh × E → Fin n → Fin w1 → ℝ) (f2 : Params sh × E → Fin n → Fin w2 → ℝ),
      w1 + w2 ≤ w ∧ Exact L train K (M w1) f1 θ x ∧ Exact L' train K (M w2) f2 θ x := by
    cases h with
    | cons h1 h2 =>
      cases h2 with
      | one h2 => exact ⟨_, _, _, _, le_refl _, h1, h2⟩
      | cons h2 _ => exact ⟨_, _, _, _, by omega, h1, h2⟩
  obtain ⟨w1, w2, f1, f2, hw, h1, h2⟩ := step
  obtain ⟨v1, cb1, b1, e1, hv1, hb1, hc1⟩ := h1 P v hP hv
  obtain ⟨v2, cb2, b2, e2, hv2, hb2, hc2⟩ := h2 P v hP hv
  obtain ⟨A1, eA1, hA1⟩ := hM hv1
  obtain ⟨A2, eA2, hA2⟩ := hM hv2
  obtain ⟨o1, outs1, ho1, eo1, rfl⟩ := mapM_cons_ok eo
  obtain ⟨o2, outs2, ho2, eo2, rfl⟩ := mapM_cons_ok eo1
  rw [e1] at ho1
  rw [e2] at ho2
  cases ho1
  cases ho2
  rw [List.map_cons, List.map_cons] at eA
  obtain ⟨B1, As1, hB1, eAs1, rfl⟩ := mapM_cons_ok eA
  obtain ⟨B2, As2, hB2, eAs2, rfl⟩ := mapM_cons_ok eAs1
  simp only [eA1, eA2] at hB1 hB2
  cases hB1
  cases hB2
  obtain ⟨d1, G1, ec1, hd1, hG1⟩ := hc1 _ _ G g (hblock 0 w1 (by omega)) hG
  obtain ⟨d2, G2, ec2, hd2, hG2⟩ := hc2 _ _ G1 _ (hblock w1 w2 (by omega)) hG1
  rw [Nat.zero_add] at ec1
  refine ⟨d1, _, d2, _, G2, w1 + w2, (outs2.map Prod.snd).zip (As2.map Mat.cols), hd1, hd2, ?_, ?_⟩
  · rintro rfl
    cases eo2
    rfl
  · simp only [List.map_cons, concatBackprop, hA1.2.1, ec1, bind, Except.bind, List.zip_cons_cons, forM', concatStep,
      hA2.2.1, ec2]
    cases join d1 d2 with
    | error e => rfl
    | ok dX => rfl

/-- `Ragged` inputs and outputs: the forward pass puts the outputs side by side, but the callback raises
TypeError for every gradient, because `Ragged` has no addition. -/
theorem C53_ragged_partial {lengthsI lengths : List ℕ} {mI : ℕ} {x : Fin lengthsI.sum → Fin mI → ℝ}
    {L L' : Layer} {Ls : List Layer} {w : ℕ} {f : Params sh × (Fin lengthsI.sum → Fin mI → ℝ) → Fin lengths.sum → Fin w → ℝ}
    (h : ExactColumns train θ lengths.sum (Kind.ragged lengthsI mI) (Kind.ragged lengths) x (L :: L' :: Ls) w f)
    {P : ParamVals} {v : Val} (hP : IsParams P θ) (hv : (Kind.ragged lengthsI mI).val v x) :
    ∃ v' callback, concatenate (L :: L' :: Ls) train P v = .ok (v', callback) ∧
      (Kind.ragged lengths w).val v' (f (θ, x)) ∧
      ∀ dv dy G (g : Params sh), (Kind.ragged lengths w).grad dv dy → IsGrads G g → callback dv G = .error .typeError := by
  rw [concatenate_eq]
  obtain ⟨Y, Ys, As, cbs, back, H, ⟨outs, eo, eY, ecb⟩, eA, ⟨w1, y1, A1, rfl, _⟩, eH, hH, hb, hc⟩ :=
    columns_all (join := Val.iadd) (extract := Val.raggedData) (M := Kind.ragged lengths) extract_ragged hP hv h
  refine ⟨.ragged H lengths, fun dOutput G => (do
    let d ← dOutput.raggedData
    let dLengths ← dOutput.lengths
    concatBackprop (fun start stop => .ragged (d.colBlock start stop) dLengths) Val.iadd cbs (As.map Mat.cols) G),
    ?_, ⟨H, rfl, hH⟩, ?_⟩
  · simp only [concatenateForward, eo, bind, Except.bind, concatOutputs, eY, ecb, List.head?_cons, concatRagged, eA, eH,
      pure, Except.pure, firstItem, Val.lengths]
  · rintro _ dy G g ⟨D, rfl, hD⟩ hG
    rw [← eY] at eA
    obtain ⟨d1, x1, d2, x2, G', start, rest, ⟨B1, rfl, _⟩, ⟨B2, rfl, _⟩, _, e⟩ :=
      columns_head (join := Val.iadd) extract_ragged hP hv h eo eA
      (fun start stop => .ragged (D.colBlock start stop) lengths) dy G g (by
      intro a u hu
      refine ⟨_, rfl, (isMat_colBlock D hD.1 a u (by rw [hD.2.1]; omega)).congr fun r c => ?_⟩
      exact hD.at r.2 (by omega)) hG
    rw [ecb] at e
    exact e

theorem mapM_len (As : List (Mat ℝ)) : (As.map Val.arr).mapM Val.len = .ok (As.map Mat.rows) := by
  induction As with
  | nil => rfl
  | cons A As ih => rw [List.map_cons, List.mapM_cons, ih]; rfl

/-- Lists of arrays as outputs: the forward pass puts the arrays of the outputs side by side, for every
non-empty list. -/
theorem C53_lists_partial {lengths : List ℕ} (hne : lengths ≠ []) {mI : ℕ} {x : Fin lengths.sum → Fin mI → ℝ}
    {L L' : Layer} {Ls : List Layer} {w : ℕ}
    {f : Params sh × (Fin lengths.sum → Fin mI → ℝ) → Fin lengths.sum → Fin w → ℝ}
    (h : ExactColumns train θ lengths.sum (Kind.seqs lengths mI) (Kind.seqs lengths) x (L :: L' :: Ls) w f)
    {P : ParamVals} {v : Val} (hP : IsParams P θ) (hv : (Kind.seqs lengths mI).val v x) :
    ∃ v' callback, concatenate (L :: L' :: Ls) train P v = .ok (v', callback) ∧
      (Kind.seqs lengths w).val v' (f (θ, x)) ∧
      ∀ dv dy G (g : Params sh), Ls = [] → (Kind.seqs lengths w).grad dv dy → IsGrads G g → ∃ ds G',
        callback dv G = .ok (.list ds, G') ∧ ds.length = 2 * lengths.length := by
  rw [concatenate_eq]
  obtain ⟨Y, Ys, As, cbs, back, H, ⟨outs, eo, eY, ecb⟩, eA, ⟨w1, y1, A1, rfl, _⟩, eH, hH, hb, hc⟩ :=
    columns_all (join := Val.iadd) (extract := Val.stacked) (M := Kind.seqs lengths) (extract_seqs hne) hP hv h
  have hv' := hv
  obtain ⟨Xs, rfl, hX⟩ := hv
  refine ⟨.list ((matUnflatten H lengths 0).map .arr), fun dOutput G => (do
    let d ← dOutput.stacked
    concatBackprop (fun start stop => .list ((matUnflatten (d.colBlock start stop) lengths 0).map .arr)) Val.iadd cbs
      (As.map Mat.cols) G), ?_, ⟨_, rfl, hH.unflatten⟩, ?_⟩
  · simp only [concatenateForward, eo, bind, Except.bind, concatOutputs, eY, ecb, List.head?_cons, concatLists,
      Val.items, mapM_len, hX.1, eA, eH, pure, Except.pure]
  · intro dv dy G g hLs hdv hG
    obtain ⟨D, eD, hD⟩ := extract_seqs hne hdv
    rw [← eY] at eA
    obtain ⟨d1, x1, d2, x2, G', start, rest, ⟨B1, rfl, hB1⟩, ⟨B2, rfl, hB2⟩, hr, e⟩ :=
      columns_head (join := Val.iadd) (extract_seqs hne) hP hv' h eo eA
      (fun start stop => .list ((matUnflatten (D.colBlock start stop) lengths 0).map .arr)) dy G g (by
      intro a u hu
      refine ⟨_, rfl, ((isMat_colBlock D hD.1 a u (by rw [hD.2.1]; omega)).congr fun r c => ?_).unflatten⟩
      exact hD.at r.2 (by omega)) hG
    rw [ecb, hr hLs] at e
    refine ⟨B1.map Val.arr ++ B2.map Val.arr, G', ?_, ?_⟩
    · simp only [eD, bind, Except.bind]
      exact e
    · rw [List.length_append, List.length_map, List.length_map, ← List.length_map (f := Mat.rows) (as := B1), hB1.1,
        ← List.length_map (f := Mat.rows) (as := B2), hB2.1]
      omega

/-- Array outputs with a list of arrays as input: here too the callback gives the gradients of the two
layers one after the other instead of their sum. -/
theorem C53_arrays_of_lists_gradient_wrong {lengths : List ℕ} {mI : ℕ} {x : Fin lengths.sum → Fin mI → ℝ}
    {L L' : Layer} {w : ℕ} {f : Params sh × (Fin lengths.sum → Fin mI → ℝ) → Fin n → Fin w → ℝ}
    (h : ExactColumns train θ n (Kind.seqs lengths mI) (Kind.arr n) x [L, L'] w f)
    {P : ParamVals} {v : Val} (hP : IsParams P θ) (hv : (Kind.seqs lengths mI).val v x) :
    ∃ v' callback, concatenate [L, L'] train P v = .ok (v', callback) ∧ (Kind.arr n w).val v' (f (θ, x)) ∧
      ∀ dv dy G (g : Params sh), (Kind.arr n w).grad dv dy → IsGrads G g → ∃ ds G',
        callback dv G = .ok (.list ds, G') ∧ ds.length = 2 * lengths.length := by
  rw [concatenate_eq]
  have hM : ∀ {w v} {y : Fin n → Fin w → ℝ}, (Kind.arr n w).val v y → ∃ A, v.asArr = .ok A ∧ IsMat A y := by
    rintro w v y ⟨A, rfl, hA⟩
    exact ⟨A, rfl, hA⟩
  obtain ⟨Y, Ys, As, cbs, back, H, ⟨outs, eo, eY, ecb⟩, eA, ⟨w1, y1, A1, rfl, _⟩, eH, hH, hb, hc⟩ :=
    columns_all (join := addGradient) (extract := Val.asArr) (M := Kind.arr n) hM hP hv h
  refine ⟨.arr H, fun dOutput G => (do
    let d ← dOutput.asArr
    concatBackprop (fun start stop => .arr (d.colBlock start stop)) addGradient cbs (As.map Mat.cols) G),
    ?_, ⟨H, rfl, hH⟩, ?_⟩
  · simp only [concatenateForward, eo, bind, Except.bind, concatOutputs, eY, ecb, List.head?_cons, concatArrays, eA, eH,
      pure, Except.pure]
  · rintro _ dy G g ⟨D, rfl, hD⟩ hG
    rw [← eY] at eA
    obtain ⟨d1, x1, d2, x2, G', start, rest, ⟨B1, rfl, hB1⟩, ⟨B2, rfl, hB2⟩, hr, e⟩ :=
      columns_head (join := addGradient) hM hP hv h eo eA (fun start stop => .arr (D.colBlock start stop)) dy G g (by
      intro a u hu
      refine ⟨_, rfl, (isMat_colBlock D hD.1 a u (by rw [hD.2.1]; omega)).congr fun r c => ?_⟩
      exact hD.at r.2 (by omega)) hG
    rw [ecb, hr rfl] at e
    refine ⟨B1.map Val.arr ++ B2.map Val.arr, G', e, ?_⟩
    rw [List.length_append, List.length_map, List.length_map, ← List.length_map (f := Mat.rows) (as := B1), hB1.1,
      ← List.length_map (f := Mat.rows) (as := B2), hB2.1]
    omega
end
end Thinc
