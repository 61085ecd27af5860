import Verif.Props.Linear
/-!
# C52: add

The sum of the layers' outputs with the sum of their gradients.  Arrays are values here; what the
in-place additions do to arrays that are shared is in `Verif.Props.AddAliasing`.
-/
namespace Thinc
open Spec Spec.Tensor

/-- Gradients of this kind can be summed by `join`. -/
def Joins {E : Type} [Add E] (join : Val → Val → Except PyErr Val) (K : Kind E) : Prop :=
  ∀ v w x y, K.grad v x → K.grad w y → ∃ u, join v w = .ok u ∧ K.grad u (x + y)

theorem joins_arr (n m : ℕ) : Joins Val.iadd (Kind.arr n m) := by
  rintro _ _ x y ⟨A, rfl, hA⟩ ⟨B, rfl, hB⟩
  obtain ⟨C, e, hC⟩ := hA.npUpdate hB (· + ·)
  exact ⟨.arr C, by simp only [Val.iadd, e, bind, Except.bind, pure, Except.pure], C, rfl, hC⟩

theorem zipWith_zeros (ks : List ℤ) :
    List.zipWith (· + ·) (ks.map fun _ => (0 : ℤ)) (ks.map fun _ => 0) = ks.map fun _ => 0 := by
  induction ks with
  | nil => rfl
  | cons k ks ih => simpa using ih

theorem joins_ints (ks : List ℤ) : Joins Val.iadd (Kind.ints ks) := by
  rintro _ _ x y rfl rfl
  refine ⟨.ints (ks.map fun _ => 0), ?_, rfl⟩
  simp only [Val.iadd, List.length_map, if_true]
  rw [zipWith_zeros]

section
variable {N : ℕ} {sh : Fin N → ℕ × ℕ} {E : Type} [NormedAddCommGroup E] [NormedSpace ℝ E] [Tensor E]
  {train : Bool} {θ : Params sh} {x : E} {K : Kind E} {n m : ℕ}

theorem add_loop {P : ParamVals} {v : Val} (hP : IsParams P θ) (hv : K.val v x) (hJ : Joins Val.iadd K)
    {Ls : List Layer} {fs : List (Params sh × E → Fin n → Fin m → ℝ)}
    (h : List.Forall₂ (fun L f => Exact L train K (Kind.arr n m) f θ x) Ls fs) :
    ∃ back : (Fin n → Fin m → ℝ) → Params sh × E, IsVJP (fun p => (fs.map fun f => f p).sum) (θ, x) back ∧
    ∀ (Y : Val) (y : Fin n → Fin m → ℝ) (acc : List Callback), (Kind.arr n m).val Y y →
    ∃ Y' cbs, forM' Ls (Y, acc) (addForwardStep train P v) = .ok (Y', acc ++ cbs) ∧
      (Kind.arr n m).val Y' (y + (fs.map fun f => f (θ, x)).sum) ∧
      ∀ dv dy dX ex G g, (Kind.arr n m).grad dv dy → K.grad dX ex → IsGrads G g → ∃ dX' G',
        forM' cbs (dX, G) (addBackwardStep dv) = .ok (dX', G') ∧ K.grad dX' (ex + (back dy).2) ∧
        IsGrads G' (g + (back dy).1) := by
  induction h with
  | nil =>
    refine ⟨fun _ => 0, by simpa using IsVJP_const (0 : Fin n → Fin m → ℝ) (θ, x), ?_⟩
    intro Y y acc hY
    refine ⟨Y, [], by simp [forM'], by simpa using hY, ?_⟩
    intro dv dy dX ex G g _ hd hG
    exact ⟨dX, G, rfl, by simpa using hd, by simpa using hG⟩
  | @cons L f Ls fs hL _ ih =>
    obtain ⟨back, hback, ih⟩ := ih
    obtain ⟨v1, cb1, b1, e1, hv1, hb1, hc1⟩ := hL P v hP hv
    refine ⟨fun dy => b1 dy + back dy, by simpa using IsVJP_add hb1 hback, ?_⟩
    intro Y y acc hY
    obtain ⟨Y1, eY1, hY1⟩ := joins_arr n m Y v1 y (f (θ, x)) hY hv1
    obtain ⟨Y', cbs, e, hY', hcb⟩ := ih Y1 _ (acc ++ [cb1]) hY1
    refine ⟨Y', cb1 :: cbs, ?_, ?_, ?_⟩
    · have : addForwardStep train P v (Y, acc) L = .ok (Y1, acc ++ [cb1]) := by
        simp only [addForwardStep, e1, bind, Except.bind, eY1, pure, Except.pure]
      simp only [forM', this, e]
      simp
    · rw [List.map_cons, List.sum_cons, ← add_assoc]
      exact hY'
    · intro dv dy dX ex G g hdv hdX hG
      obtain ⟨d1, G1, ec1, hd1, hG1⟩ := hc1 dv dy G g hdv hG
      obtain ⟨dX1, eX1, hX1⟩ := hJ dX d1 ex _ hdX hd1
      obtain ⟨dX', G', eX', hX', hG'⟩ := hcb dv dy dX1 _ G1 _ hdv hX1 hG1
      refine ⟨dX', G', ?_, ?_, ?_⟩
      · have : addBackwardStep dv (dX, G) cb1 = .ok (dX1, G1) := by
          simp only [addBackwardStep, ec1, bind, Except.bind, eX1, pure, Except.pure]
        simp only [forM', this, eX']
      · rw [Prod.snd_add, ← add_assoc]
        exact hX'
      · rw [Prod.fst_add, ← add_assoc]
        exact hG'

theorem add_exact (hJ : Joins Val.iadd K) {Ls : List Layer} (hLs : Ls ≠ [])
    {fs : List (Params sh × E → Fin n → Fin m → ℝ)}
    (h : List.Forall₂ (fun L f => Exact L train K (Kind.arr n m) f θ x) Ls fs) :
    Exact (addLayers Ls) train K (Kind.arr n m) (fun p => (fs.map fun f => f p).sum) θ x := by
  cases h with
  | nil => exact absurd rfl hLs
  | @cons L f Ls fs hL h =>
    intro P v hP hv
    obtain ⟨back, hback, hl⟩ := add_loop hP hv hJ h
    obtain ⟨v1, cb1, b1, e1, hv1, hb1, hc1⟩ := hL P v hP hv
    obtain ⟨Y', cbs, e, hY', hcb⟩ := hl v1 _ [] hv1
    refine ⟨Y', fun dY G => (do
      let (dX, G) ← cb1 dY G
      forM' cbs (dX, G) (addBackwardStep dY)), fun dy => b1 dy + back dy, ?_, ?_, ?_, ?_⟩
    · simp only [addLayers, e1, bind, Except.bind, e, pure, Except.pure, List.nil_append]
    · simpa using hY'
    · simpa using IsVJP_add hb1 hback
    · intro dv dy G g hdv hG
      obtain ⟨d1, G1, ec1, hd1, hG1⟩ := hc1 dv dy G g hdv hG
      obtain ⟨dX', G', eX', hX', hG'⟩ := hcb dv dy d1 _ G1 _ hdv hd1 hG1
      refine ⟨dX', G', ?_, hX', ?_⟩
      · simp only [bind, Except.bind, ec1, eX']
      · rw [Prod.fst_add, ← add_assoc]
        exact hG'

/-- `add(f, g, …)` of exact layers computes the sum of their functions, with exact gradients for the
input and all parameters.  The input is an array. -/
theorem C52_add {nI mI : ℕ} {x : Fin nI → Fin mI → ℝ} {Ls : List Layer} (hLs : Ls ≠ [])
    {fs : List (Params sh × (Fin nI → Fin mI → ℝ) → Fin n → Fin m → ℝ)}
    (h : List.Forall₂ (fun L f => Exact L train (Kind.arr nI mI) (Kind.arr n m) f θ x) Ls fs) :
    Exact (addLayers Ls) train (Kind.arr nI mI) (Kind.arr n m) (fun p => (fs.map fun f => f p).sum) θ x :=
  add_exact (joins_arr nI mI) hLs h

/-- The same for integer inputs, whose gradient is zero. -/
theorem C52_add_ints {ks : List ℤ} {x : Fin 0 → ℝ} {Ls : List Layer} (hLs : Ls ≠ [])
    {fs : List (Params sh × (Fin 0 → ℝ) → Fin n → Fin m → ℝ)}
    (h : List.Forall₂ (fun L f => Exact L train (Kind.ints ks) (Kind.arr n m) f θ x) Ls fs) :
    Exact (addLayers Ls) train (Kind.ints ks) (Kind.arr n m) (fun p => (fs.map fun f => f p).sum) θ x :=
  add_exact (joins_ints ks) hLs h

end
end Thinc
