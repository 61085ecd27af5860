import Verif.Props.AddLayer
import Verif.Lemmas.Columns
/-!
# C53: concatenate
-/
namespace Thinc
open Spec Spec.Tensor

theorem addGradient_arr (n m : ℕ) : Joins addGradient (Kind.arr n m) := by
  intro v w x y hv hw
  obtain ⟨A, rfl, hA⟩ := hv
  exact joins_arr n m _ w x y ⟨A, rfl, hA⟩ hw

theorem addGradient_ints (ks : List ℤ) : Joins addGradient (Kind.ints ks) := by
  rintro v w x y rfl hw
  exact joins_ints ks _ w x y rfl hw

theorem addGradient_ragged (lengths : List ℕ) (m : ℕ) : Joins addGradient (Kind.ragged lengths m) := by
  rintro v w x y ⟨A, rfl, hA⟩ ⟨B, rfl, hB⟩
  obtain ⟨C, e, hC⟩ := hA.npUpdate hB (· + ·)
  exact ⟨.ragged C lengths, by simp only [addGradient, Val.iaddData, e, bind, Except.bind, pure, Except.pure],
    C, rfl, hC⟩

theorem addGradient_padded (n m steps : ℕ) (s l i : List ℕ) : Joins addGradient (Kind.padded n m steps s l i) := by
  rintro v w x y ⟨A, rfl, hA⟩ ⟨B, rfl, hB⟩
  obtain ⟨C, e, hC⟩ := hA.npUpdate hB (· + ·)
  exact ⟨.padded C steps s l i, by simp only [addGradient, Val.iaddData, e, bind, Except.bind, pure, Except.pure],
    C, rfl, hC⟩

section
variable {N : ℕ} {sh : Fin N → ℕ × ℕ} {E : Type} [NormedAddCommGroup E] [NormedSpace ℝ E] [Tensor E]
  {train : Bool} {θ : Params sh} {x : E} {K : Kind E} {n : ℕ}

theorem IsVJP_columns {w w' : ℕ} {f : Params sh × E → Fin n → Fin w → ℝ} {g : Params sh × E → Fin n → Fin w' → ℝ}
    {p : Params sh × E} {bf : (Fin n → Fin w → ℝ) → Params sh × E} {bg : (Fin n → Fin w' → ℝ) → Params sh × E}
    (hf : IsVJP f p bf) (hg : IsVJP g p bg) :
    IsVJP (fun p r => Fin.append (f p r) (g p r)) p
      (fun dy => bf (fun r c => dy r (Fin.castAdd w' c)) + bg (fun r c => dy r (Fin.natAdd w c))) :=
  IsVJP_comp (g := fun (x : (Fin n → Fin w → ℝ) × (Fin n → Fin w' → ℝ)) r => Fin.append (x.1 r) (x.2 r))
    (IsVJP_append _) (IsVJP_prod hf hg)

/-- The forward pass of all layers and the backward pass of all but the first. -/
theorem columns_loop {M : (w : ℕ) → Kind (Fin n → Fin w → ℝ)} {extract : Val → Except PyErr (Mat ℝ)}
    (hM : ∀ {w v} {y : Fin n → Fin w → ℝ}, (M w).val v y → ∃ A, extract v = .ok A ∧ IsMat A y) {join : Val → Val → Except PyErr Val} {P : ParamVals} {v : Val} (hP : IsParams P θ)
    (hv : K.val v x)
    {Ls : List Layer} {w : ℕ} {f : Params sh × E → Fin n → Fin w → ℝ} (h : ExactColumns train θ n K M x Ls w f) :
    ∃ (outs : List (Val × Mat ℝ × Callback)) (back : (Fin n → Fin w → ℝ) → Params sh × E),
      Ls.mapM (fun L => L train P v) = .ok (outs.map fun o => (o.1, o.2.2)) ∧
      (∀ o ∈ outs, extract o.1 = .ok o.2.1) ∧
      (∀ (A : Mat ℝ) (u : ℕ) (a : Fin n → Fin u → ℝ), IsMat A a →
        ∃ H, forM' (outs.map fun o => o.2.1) A Thinc.hstack2 = .ok H ∧ IsMat H (fun r => Fin.append (a r) (f (θ, x) r))) ∧
      IsVJP f (θ, x) back ∧
      ∀ (_ : Joins join K) (block : ℕ → ℕ → Val) (start : ℕ) (dy : Fin n → Fin w → ℝ) (dX : Val) (ex : E) (G : GradStore) (g : Params sh),
        (∀ (a u : ℕ) (hu : a + u ≤ w), (M u).grad (block (start + a) (start + a + u))
          (fun r c => dy r ⟨a + c, by omega⟩)) →
        K.grad dX ex → IsGrads G g → ∃ dX' G',
          forM' ((outs.map fun o => o.2.2).zip (outs.map fun o => o.2.1.cols)) (dX, start, G) (concatStep block join)
            = .ok (dX', start + w, G') ∧ K.grad dX' (ex + (back dy).2) ∧ IsGrads G' (g + (back dy).1) := by
  induction h with
  | @one L w f hL =>
    obtain ⟨v1, cb1, b1, e1, hv1, hb1, hc1⟩ := hL P v hP hv
    obtain ⟨A1, eA1, hA1⟩ := hM hv1
    refine ⟨[(v1, A1, cb1)], b1, ?_, by simpa using eA1, ?_, hb1, ?_⟩
    · rw [List.mapM_cons, e1]
      rfl
    · intro A u a hA
      obtain ⟨H, e, hH⟩ := hA.hstack2 hA1
      exact ⟨H, by rw [List.map_cons, List.map_nil, forM'_single, e], hH⟩
    · intro hJ block start dy dX ex G g hblock hdX hG
      obtain ⟨d1, G1, ec1, hd1, hG1⟩ := hc1 _ dy G g (by simpa using hblock 0 w (by omega)) hG
      obtain ⟨dX1, eX1, hX1⟩ := hJ dX d1 ex _ hdX hd1
      refine ⟨dX1, G1, ?_, hX1, hG1⟩
      rw [List.map_cons, List.map_nil, List.map_cons, List.map_nil, List.zip_cons_cons, List.zip_nil_right, forM'_single]
      simp only [concatStep, hA1.2.1, ec1, bind, Except.bind, eX1, pure, Except.pure]
  | @cons L Ls w w' f g hL _ ih =>
    obtain ⟨v1, cb1, b1, e1, hv1, hb1, hc1⟩ := hL P v hP hv
    obtain ⟨A1, eA1, hA1⟩ := hM hv1
    obtain ⟨outs, back, eo, hx, hH, hb, hc⟩ := ih
    refine ⟨(v1, A1, cb1) :: outs, _, ?_, by simpa using ⟨eA1, fun a b c h => hx _ h⟩, ?_, IsVJP_columns hb1 hb, ?_⟩
    · rw [List.mapM_cons, e1, eo]
      rfl
    · intro A u a hA
      obtain ⟨H1, e, hH1⟩ := hA.hstack2 hA1
      obtain ⟨H, e', hH'⟩ := hH H1 _ _ hH1
      refine ⟨H, ?_, hH'.append_assoc⟩
      rw [List.map_cons]
      simp only [forM', e, e']
    · intro hJ block start dy dX ex G g hblock hdX hG
      have h0 := hblock 0 w (by omega)
      obtain ⟨d1, G1, ec1, hd1, hG1⟩ := hc1 _ (fun r c => dy r (Fin.castAdd w' c)) G g
        (by simpa [Fin.castAdd, Fin.castLE] using h0) hG
      obtain ⟨dX1, eX1, hX1⟩ := hJ dX d1 ex _ hdX hd1
      obtain ⟨dX', G', e', hX', hG'⟩ := hc hJ block (start + w) (fun r c => dy r (Fin.natAdd w c)) dX1 _ G1 _ (by
        intro a u hu
        have := hblock (w + a) u (by omega)
        rw [show start + (w + a) = start + w + a by omega] at this
        refine cast ?_ this
        congr 1
        funext r c
        congr 1
        exact Fin.ext (by simp; omega)) hX1 hG1
      refine ⟨dX', G', ?_, ?_, ?_⟩
      · rw [List.map_cons, List.map_cons, List.zip_cons_cons]
        have : concatStep block join (dX, start, G) (cb1, A1.cols) = .ok (dX1, start + w, G1) := by
          simp only [concatStep, hA1.2.1, ec1, bind, Except.bind, eX1, pure, Except.pure]
        simp only [forM', this]
        rw [e', Nat.add_assoc]
      · rw [Prod.snd_add, ← add_assoc]
        exact hX'
      · rw [Prod.fst_add, ← add_assoc]
        exact hG'

theorem columns_ne_nil {M : (w : ℕ) → Kind (Fin n → Fin w → ℝ)} {Ls : List Layer} {w : ℕ}
    {f : Params sh × E → Fin n → Fin w → ℝ} (h : ExactColumns train θ n K M x Ls w f) : Ls ≠ [] := by
  cases h <;> simp

theorem mapM_extract {extract : Val → Except PyErr (Mat ℝ)} (outs : List (Val × Mat ℝ × Callback))
    (hx : ∀ o ∈ outs, extract o.1 = .ok o.2.1) :
    (outs.map fun o => o.1).mapM extract = .ok (outs.map fun o => o.2.1) := by
  induction outs with
  | nil => rfl
  | cons o outs ih =>
    rw [List.map_cons, List.mapM_cons, hx o (by simp), ih (fun o ho => hx o (by simp [ho]))]
    rfl

/-- The first layer and the loop over the others. -/
theorem columns_all {M : (w : ℕ) → Kind (Fin n → Fin w → ℝ)} {extract : Val → Except PyErr (Mat ℝ)}
    (hM : ∀ {w v} {y : Fin n → Fin w → ℝ}, (M w).val v y → ∃ A, extract v = .ok A ∧ IsMat A y)
    {join : Val → Val → Except PyErr Val} {P : ParamVals} {v : Val} (hP : IsParams P θ)
    (hv : K.val v x)
    {Ls : List Layer} {w : ℕ} {f : Params sh × E → Fin n → Fin w → ℝ} (h : ExactColumns train θ n K M x Ls w f) :
    ∃ (Y : Val) (Ys : List Val) (As : List (Mat ℝ)) (cbs : List Callback)
      (back : (Fin n → Fin w → ℝ) → Params sh × E) (H : Mat ℝ),
      (∃ outs, Ls.mapM (fun L => L train P v) = .ok outs ∧ outs.map Prod.fst = Y :: Ys ∧ outs.map Prod.snd = cbs) ∧
      (Y :: Ys).mapM extract = .ok As ∧ (∃ w y, (M w).val Y y) ∧
      hstack As = .ok H ∧ IsMat H (f (θ, x)) ∧ IsVJP f (θ, x) back ∧
      ∀ (_ : Joins join K) (block : ℕ → ℕ → Val) (dy : Fin n → Fin w → ℝ) (G : GradStore) (g : Params sh),
        (∀ (a u : ℕ) (hu : a + u ≤ w), (M u).grad (block a (a + u)) (fun r c => dy r ⟨a + c, by omega⟩)) →
        IsGrads G g → ∃ dX' G',
          concatBackprop block join cbs (As.map Mat.cols) G
            = .ok (dX', G') ∧ K.grad dX' (back dy).2 ∧ IsGrads G' (g + (back dy).1) := by
  cases h with
  | @one L w f hL =>
    obtain ⟨v1, cb1, b1, e1, hv1, hb1, hc1⟩ := hL P v hP hv
    obtain ⟨A1, eA1, hA1⟩ := hM hv1
    refine ⟨v1, [], [A1], [cb1], b1, A1, ⟨[(v1, cb1)], ?_, rfl, rfl⟩, ?_, ⟨w, _, hv1⟩, rfl, hA1, hb1, ?_⟩
    · rw [List.mapM_cons, e1]
      rfl
    · rw [List.mapM_cons, eA1]
      rfl
    · intro hJ block dy G g hblock hG
      obtain ⟨d1, G1, ec1, hd1, hG1⟩ := hc1 _ dy G g (by simpa using hblock 0 w (by omega)) hG
      refine ⟨d1, G1, ?_, hd1, hG1⟩
      simp only [concatBackprop, List.map_cons, List.map_nil, List.zip_nil_right, forM', hA1.2.1, ec1, bind,
        Except.bind, pure, Except.pure]
  | @cons L Ls w w' f g hL h =>
    obtain ⟨v1, cb1, b1, e1, hv1, hb1, hc1⟩ := hL P v hP hv
    obtain ⟨A1, eA1, hA1⟩ := hM hv1
    obtain ⟨outs, back, eo, hx, hH, hb, hc⟩ := columns_loop (join := join) hM hP hv h
    obtain ⟨H, eH, hH⟩ := hH A1 w _ hA1
    have eH : hstack (A1 :: outs.map fun o => o.2.1) = .ok H := eH
    refine ⟨v1, outs.map (fun o => o.1), A1 :: outs.map (fun o => o.2.1), cb1 :: outs.map (fun o => o.2.2), _, H,
      ⟨(v1, cb1) :: outs.map (fun o => (o.1, o.2.2)), ?_, by simp, by simp⟩, ?_, ⟨w, _, hv1⟩, eH, hH,
      IsVJP_columns hb1 hb, ?_⟩
    · rw [List.mapM_cons, e1, eo]
      rfl
    · have := mapM_extract outs hx
      rw [List.mapM_cons, eA1, this]
      rfl
    · intro hJ block dy G g hblock hG
      have h0 := hblock 0 w (by omega)
      obtain ⟨d1, G1, ec1, hd1, hG1⟩ := hc1 _ (fun r c => dy r (Fin.castAdd w' c)) G g
        (by simpa [Fin.castAdd, Fin.castLE] using h0) hG
      obtain ⟨dX', G', e', hX', hG'⟩ := hc hJ block w (fun r c => dy r (Fin.natAdd w c)) d1 _ G1 _ (by
        intro a u hu
        refine cast ?_ (hblock (w + a) u (by omega))
        congr 1
        funext r c
        congr 1
        exact Fin.ext (by simp; omega)) hd1 hG1
      refine ⟨dX', G', ?_, hX', ?_⟩
      · simp only [concatBackprop, List.map_cons, List.map_map, hA1.2.1, ec1, bind, Except.bind, pure, Except.pure]
        simp only [Function.comp_def, e']
      · rw [Prod.fst_add, ← add_assoc]
        exact hG'

theorem concatForward_arrays (hJ : Joins addGradient K) {Ls : List Layer} {w : ℕ}
    {f : Params sh × E → Fin n → Fin w → ℝ} (h : ExactColumns train θ n K (Kind.arr n) x Ls w f) :
    Exact (concatenateForward Ls) train K (Kind.arr n w) f θ x := by
  intro P v hP hv
  obtain ⟨Y, Ys, As, cbs, back, H, ⟨outs, eo, eY, ecb⟩, eA, ⟨w1, y1, A1, rfl, _⟩, eH, hH, hb, hc⟩ :=
    columns_all (join := addGradient) (extract := Val.asArr) (M := Kind.arr n)
    (fun {w v y} (h : (Kind.arr n w).val v y) => by obtain ⟨A, rfl, hA⟩ := h; exact ⟨A, rfl, hA⟩) hP hv h
  refine ⟨.arr H, fun dOutput G => (do
    let d ← dOutput.asArr
    concatBackprop (fun start stop => .arr (d.colBlock start stop)) addGradient cbs (As.map Mat.cols) G), back,
    ?_, ⟨H, rfl, hH⟩, hb, ?_⟩
  · simp only [concatenateForward, eo, bind, Except.bind, concatOutputs, eY, ecb, List.head?_cons, concatArrays, eA, eH,
      pure, Except.pure]
  · rintro _ dy G g ⟨D, rfl, hD⟩ hG
    obtain ⟨dX', G', e', hX', hG'⟩ := hc hJ (fun start stop => .arr (D.colBlock start stop)) dy G g (by
      intro a u hu
      refine ⟨_, rfl, (isMat_colBlock D hD.1 a u (by rw [hD.2.1]; omega)).congr fun r c => ?_⟩
      exact hD.at r.2 (by omega)) hG
    exact ⟨dX', G', e', hX', hG'⟩

theorem concat_arrays (hJ : Joins addGradient K) {Ls : List Layer} {w : ℕ}
    {f : Params sh × E → Fin n → Fin w → ℝ} (h : ExactColumns train θ n K (Kind.arr n) x Ls w f) :
    Exact (concatenate Ls) train K (Kind.arr n w) f θ x := by
  have h2 := concatForward_arrays hJ h
  cases h with
  | one h => exact h
  | cons h1 h =>
    cases h with
    | one h => exact h2
    | cons h3 h4 => exact h2

/-- For layers with array outputs, `concatenate` computes the outputs side by side with exact gradients
for the input and all parameters; the input is an array. -/
theorem C53_arrays {nI mI : ℕ} {x : Fin nI → Fin mI → ℝ} {Ls : List Layer} {w : ℕ}
    {f : Params sh × (Fin nI → Fin mI → ℝ) → Fin n → Fin w → ℝ}
    (h : ExactColumns train θ n (Kind.arr nI mI) (Kind.arr n) x Ls w f) :
    Exact (concatenate Ls) train (Kind.arr nI mI) (Kind.arr n w) f θ x := concat_arrays (addGradient_arr nI mI) h

/-- The same with a `Ragged` input (for example several pooling layers side by side). -/
theorem C53_arrays_of_ragged {lengths : List ℕ} {mI : ℕ} {x : Fin lengths.sum → Fin mI → ℝ} {Ls : List Layer} {w : ℕ}
    {f : Params sh × (Fin lengths.sum → Fin mI → ℝ) → Fin n → Fin w → ℝ}
    (h : ExactColumns train θ n (Kind.ragged lengths mI) (Kind.arr n) x Ls w f) :
    Exact (concatenate Ls) train (Kind.ragged lengths mI) (Kind.arr n w) f θ x :=
  concat_arrays (addGradient_ragged lengths mI) h

/-- The same with a `Padded` input. -/
theorem C53_arrays_of_padded {nI mI steps : ℕ} {s l i : List ℕ} {x : Fin nI → Fin mI → ℝ} {Ls : List Layer} {w : ℕ}
    {f : Params sh × (Fin nI → Fin mI → ℝ) → Fin n → Fin w → ℝ}
    (h : ExactColumns train θ n (Kind.padded nI mI steps s l i) (Kind.arr n) x Ls w f) :
    Exact (concatenate Ls) train (Kind.padded nI mI steps s l i) (Kind.arr n w) f θ x :=
  concat_arrays (addGradient_padded nI mI steps s l i) h

/-- The same with an array of integers as input (for example several embedding tables side by side). -/
theorem C53_arrays_of_ints {ks : List ℤ} {x : Fin 0 → ℝ} {Ls : List Layer} {w : ℕ}
    {f : Params sh × (Fin 0 → ℝ) → Fin n → Fin w → ℝ}
    (h : ExactColumns train θ n (Kind.ints ks) (Kind.arr n) x Ls w f) :
    Exact (concatenate Ls) train (Kind.ints ks) (Kind.arr n w) f θ x := concat_arrays (addGradient_ints ks) h

end
end Thinc
