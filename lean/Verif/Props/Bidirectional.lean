import Verif.Model.Bidirectional
import Verif.Props.Concatenate
import Verif.Props.Combinators
/-!
# C55: bidirectional
-/
namespace Thinc
open Spec

section
variable {N : ℕ} {sh : Fin N → ℕ × ℕ} {n m w steps : ℕ} {s l i : List ℕ} {train : Bool} {θ : Params sh}

/-- What holds of bidirectional: the two outputs are side by side, each layer's callback is called once, and
the two input gradients are added.  Missing, because the code does not do it: the second layer is run on
the sequences in the same order (not reversed), and its callback receives the first half of the gradient
(`d₁`) instead of the second (`d₂`).  The gradients are therefore exact, for the function computed,
only where the two halves of the incoming gradient are equal. -/
theorem C55_partial {l2r r2l : Layer} {f₁ f₂ : Params sh × (Fin n → Fin m → ℝ) → Fin n → Fin w → ℝ}
    {x : Fin n → Fin m → ℝ}
    (h₁ : Exact l2r train (Kind.padded n m steps s l i) (Kind.padded n w steps s l i) f₁ θ x)
    (h₂ : Exact r2l train (Kind.padded n m steps s l i) (Kind.padded n w steps s l i) f₂ θ x)
    {P : ParamVals} {v : Val} (hP : IsParams P θ) (hv : (Kind.padded n m steps s l i).val v x) :
    ∃ v' callback b₁ b₂, bidirectional l2r r2l train P v = .ok (v', callback) ∧
      (Kind.padded n (w + w) steps s l i).val v' (fun r => Fin.append (f₁ (θ, x) r) (f₂ (θ, x) r)) ∧
      IsVJP f₁ (θ, x) b₁ ∧ IsVJP f₂ (θ, x) b₂ ∧
      ∀ dv (d₁ d₂ : Fin n → Fin w → ℝ) G g, (Kind.padded n (w + w) steps s l i).grad dv (fun r => Fin.append (d₁ r) (d₂ r)) → IsGrads G g →
        ∃ dv' G', callback dv G = .ok (dv', G') ∧
          (Kind.padded n m steps s l i).grad dv' ((b₁ d₁).2 + (b₂ d₁).2) ∧
          IsGrads G' (g + (b₁ d₁).1 + (b₂ d₁).1) := by
  obtain ⟨X, rfl, hX⟩ := hv
  obtain ⟨_, cb1, b1, e1, ⟨Y1, rfl, hY1⟩, hb1, hc1⟩ := h₁ P (.padded X steps s l i) hP ⟨X, rfl, hX⟩
  obtain ⟨_, cb2, b2, e2, ⟨Y2, rfl, hY2⟩, hb2, hc2⟩ := h₂ P (.padded X steps s l i) hP ⟨X, rfl, hX⟩
  obtain ⟨Z, eZ, hZ⟩ := hY1.hstack2 hY2
  refine ⟨.padded Z steps s l i, fun dZ G => (do
    let (dL2r, dR2l) ← bidiSplit dZ
    let (dXl2r, G) ← cb1 dL2r G
    let (dXr2l, G) ← cb2 dR2l G
    return (← bidiSum dXl2r dXr2l, G)), b1, b2, ?_, ⟨Z, rfl, hZ⟩, hb1, hb2, ?_⟩
  · simp only [bidirectional, bidiReverse, bind, Except.bind, e1, e2, bidiConcatenate, eZ, pure, Except.pure]
  · rintro _ d1 d2 G g ⟨D, rfl, hD⟩ hG
    have hw : D.cols / 2 = w := by rw [hD.2.1]; omega
    have hblock : IsMat (D.colBlock 0 w) d1 := by
      have := isMat_colBlock D hD.1 0 w (by rw [hD.2.1]; omega)
      rw [Nat.zero_add] at this
      refine ⟨this.1, this.2.1, fun r c => (this.2.2 r c).trans ?_⟩
      dsimp only
      rw [Nat.zero_add]
      have h2 := hD.2.2 r (Fin.castAdd w c)
      dsimp only at h2
      rw [Fin.append_left] at h2
      exact h2
    obtain ⟨_, G1, ec1, ⟨A1, rfl, hA1⟩, hG1⟩ := hc1 (.padded (D.colBlock 0 w) steps s l i) d1 G g ⟨_, rfl, hblock⟩ hG
    obtain ⟨_, G2, ec2, ⟨A2, rfl, hA2⟩, hG2⟩ := hc2 (.padded (D.colBlock 0 w) steps s l i) d1 G1 _ ⟨_, rfl, hblock⟩ hG1
    obtain ⟨A, eA, hA⟩ := hA1.npBinary hA2 (· + ·)
    refine ⟨.padded A steps s l i, G2, ?_, ⟨A, rfl, hA⟩, hG2⟩
    simp only [bidiSplit, hw, bind, Except.bind, ec1, ec2, bidiSum, eA, pure, Except.pure]

end

/-! ### What the code gets wrong -/

/-- Two time steps of one sequence of width one. -/
abbrev exBidiBatch (w : ℕ) : Kind (Fin 2 → Fin w → ℝ) := Kind.padded 2 w 2 [1, 1] [2] [0]

/-- The second layer is not run on the reversed sequence: for the sequence (3, 5) the second column of the
output of `bidirectional(noop, noop)` is (3, 5), not (5, 3). -/
theorem C55_not_reversed {P : ParamVals} {v : Val} {x : Fin 2 → Fin 1 → ℝ} (hx : x = fun r _ => if r = 0 then 3 else 5)
    (hv : (exBidiBatch 1).val v x) : ∃ v' callback, bidirectional noop noop true P v = .ok (v', callback) ∧
      ¬ (exBidiBatch 2).val v' (fun r => Fin.append (x r) (x r.rev)) := by
  obtain ⟨v', cb, _, _, e, ⟨Z, rfl, hZ⟩, _⟩ := C55_partial (sh := fun p : Fin 0 => p.elim0) (θ := fun p => p.elim0) (train := true)
    (C54_noop (exBidiBatch 1) x) (C54_noop (exBidiBatch 1) x) (P := P) (fun p => p.elim0) hv
  refine ⟨_, cb, e, ?_⟩
  rintro ⟨Z', h, hZ'⟩
  cases h
  have h1 := hZ.2.2 0 (Fin.natAdd 1 (0 : Fin 1))
  have h2 := hZ'.2.2 0 (Fin.natAdd 1 (0 : Fin 1))
  dsimp only at h1 h2
  rw [Fin.append_right] at h1 h2
  rw [h1, hx] at h2
  norm_num [Fin.rev] at h2

/-- The gradients are not those of the function that is computed: the gradient (0, 1) of the two features
gives the input gradient 0. -/
theorem C55_gradient_wrong : ¬ Exact (sh := fun p : Fin 0 => p.elim0) (bidirectional noop noop) true (exBidiBatch 1) (exBidiBatch 2)
    (fun p r => Fin.append (p.2 r) (p.2 r)) (fun p => p.elim0) (fun _ _ => 0) := by
  intro h
  have hv : (exBidiBatch 1).val (.padded (Mat.ofFn 2 1 fun _ _ => 0) 2 [1, 1] [2] [0]) (fun _ _ => 0) :=
    ⟨_, rfl, isMat_ofFn _⟩
  obtain ⟨v', cb, b₁, b₂, e, _, hb₁, hb₂, hc⟩ := C55_partial (sh := fun p : Fin 0 => p.elim0) (θ := fun p => p.elim0)
    (train := true) (C54_noop (exBidiBatch 1) _) (C54_noop (exBidiBatch 1) _) (P := fun _ => Mat.ofFn 0 0 fun _ _ => 0) (fun p => p.elim0) hv
  obtain ⟨v'', cb', b, e', _, hb, hc'⟩ := h (fun _ => Mat.ofFn 0 0 fun _ _ => 0) _ (fun p => p.elim0) hv
  rw [e] at e'
  cases e'
  have eb₁ : b₁ = fun dy => (0, dy) := IsVJP_unique hb₁ (IsVJP_snd _)
  have eb₂ : b₂ = fun dy => (0, dy) := IsVJP_unique hb₂ (IsVJP_snd _)
  have eb := IsVJP_unique hb (IsVJP_columns (IsVJP_snd _) (IsVJP_snd _))
  have hD : (exBidiBatch 2).grad (.padded (Mat.ofFn 2 2 fun _ j => if j = 0 then 0 else 1) 2 [1, 1] [2] [0])
      (fun _ => Fin.append (fun _ : Fin 1 => (0 : ℝ)) (fun _ : Fin 1 => 1)) := by
    refine ⟨_, rfl, isMat_ofFn' _ _ fun r c => ?_⟩
    refine Fin.addCases (m := 1) (n := 1) (fun c => ?_) (fun c => ?_) c
    · rw [Fin.append_left]; simp
    · rw [Fin.append_right]; simp
  obtain ⟨d, G', ed, ⟨A, rfl, hA⟩, _⟩ := hc _ (fun _ _ => 0) (fun _ _ => 1) (fun _ => none) 0 hD isGrads_none
  obtain ⟨d', G'', ed', ⟨A', h', hA'⟩, _⟩ := hc' _ _ (fun _ => none) 0 hD isGrads_none
  rw [ed] at ed'
  cases ed'
  cases h'
  have h1 := hA.2.2 0 0
  have h2 := hA'.2.2 0 0
  rw [h1, eb, eb₁, eb₂] at h2
  have h3 : Fin.append (fun _ : Fin 1 => (0 : ℝ)) (fun _ : Fin 1 => 1) (1 : Fin 2) = 1 :=
    Fin.append_right (fun _ : Fin 1 => (0 : ℝ)) (fun _ : Fin 1 => 1) 0
  simp [h3] at h2

/-- The hypotheses of `C55_partial` hold, for example, for two `noop`s. -/
example : Exact (sh := fun p : Fin 0 => p.elim0) noop true (exBidiBatch 1) (exBidiBatch 1) (fun p => p.2) (fun p => p.elim0)
    (fun _ _ => 3) := C54_noop _ _

end Thinc
