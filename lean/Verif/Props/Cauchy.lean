import Verif.Model.Cauchy
import Verif.Props.WindowLayer
import Verif.Props.Attention
/-!
# C78: CauchySimilarity
-/
namespace Thinc
open Spec Spec.Tensor

section
variable {n m : ℕ}

theorem broadcast_left (n : ℕ) : broadcastDim 1 n = .ok n := by
  unfold broadcastDim; by_cases h : 1 = n <;> simp [h]

theorem broadcast_right (n : ℕ) : broadcastDim n 1 = .ok n := by
  unfold broadcastDim; by_cases h : n = 1 <;> simp [h]

theorem broadcast_same (n : ℕ) : broadcastDim n n = .ok n := if_pos rfl

theorem fin_or_zero (i : Fin n) : (if n = 1 then 0 else (i : ℕ)) = i := by
  split
  · have := i.2; omega
  · rfl

theorem Spec.IsMat.npBinary_row_left {A B : Mat ℝ} {x : Fin 1 → Fin m → ℝ} {y : Fin n → Fin m → ℝ} (hA : IsMat A x) (hB : IsMat B y)
    (f : ℝ → ℝ → ℝ) : ∃ C, Thinc.npBinary f A B = .ok C ∧ IsMat C (fun i j => f (x 0 j) (y i j)) := by
  obtain ⟨rA, cA, hA⟩ := hA
  obtain ⟨rB, cB, hB⟩ := hB
  unfold Thinc.npBinary
  rw [rA, cA, rB, cB, broadcast_left, broadcast_same]
  refine ⟨_, rfl, isMat_ofFn' _ _ fun i j => ?_⟩
  rw [fin_or_zero i, fin_or_zero j, if_pos rfl]
  exact congrArg₂ f (hA 0 j) (hB i j)

theorem Spec.IsMat.npBinary_col_left {A B : Mat ℝ} {x : Fin n → Fin 1 → ℝ} {y : Fin n → Fin m → ℝ} (hA : IsMat A x) (hB : IsMat B y)
    (f : ℝ → ℝ → ℝ) : ∃ C, Thinc.npBinary f A B = .ok C ∧ IsMat C (fun i j => f (x i 0) (y i j)) := by
  obtain ⟨rA, cA, hA⟩ := hA
  obtain ⟨rB, cB, hB⟩ := hB
  unfold Thinc.npBinary
  rw [rA, cA, rB, cB, broadcast_left, broadcast_same]
  refine ⟨_, rfl, isMat_ofFn' _ _ fun i j => ?_⟩
  rw [fin_or_zero i, fin_or_zero j, if_pos rfl]
  exact congrArg₂ f (hA i 0) (hB i j)

theorem Spec.IsMat.npBinary_row_col {A B : Mat ℝ} {x : Fin 1 → Fin m → ℝ} {y : Fin n → Fin 1 → ℝ} (hA : IsMat A x) (hB : IsMat B y)
    (f : ℝ → ℝ → ℝ) : ∃ C, Thinc.npBinary f A B = .ok C ∧ IsMat C (fun i j => f (x 0 j) (y i 0)) := by
  obtain ⟨rA, cA, hA⟩ := hA
  obtain ⟨rB, cB, hB⟩ := hB
  unfold Thinc.npBinary
  rw [rA, cA, rB, cB, broadcast_left, broadcast_right]
  refine ⟨_, rfl, isMat_ofFn' _ _ fun i j => ?_⟩
  rw [fin_or_zero i, fin_or_zero j, if_pos rfl, if_pos rfl]
  exact congrArg₂ f (hA 0 j) (hB i 0)

/-- The difference of two arrays, squared. -/
theorem IsVJP_squareDiff (p : (Fin n → Fin m → ℝ) × (Fin n → Fin m → ℝ)) :
    IsVJP (fun (p : (Fin n → Fin m → ℝ) × (Fin n → Fin m → ℝ)) i j => (p.1 i j - p.2 i j) ^ 2) p
      (fun d => (fun i j => d i j * (2 * (p.1 i j - p.2 i j)), fun i j => -(d i j * (2 * (p.1 i j - p.2 i j))))) := by
  have h1 : IsVJP (fun (p : (Fin n → Fin m → ℝ) × (Fin n → Fin m → ℝ)) i j => p.1 i j - p.2 i j) p
      (fun d => (d, -d)) := by
    refine IsVJP_linear' (fun x y => ?_) (fun a x => ?_) fun dy v => ?_
    · funext i j; simp only [Prod.fst_add, Prod.snd_add, Pi.add_apply]; ring
    · funext i j; simp only [Prod.smul_fst, Prod.smul_snd, Pi.smul_apply, smul_eq_mul]; ring
    · simp only [dot_prod, dot_pi, dot_real, Pi.neg_apply, ← Finset.sum_add_distrib]
      refine Finset.sum_congr rfl fun i _ => Finset.sum_congr rfl fun j _ => ?_
      ring
  have h2 := IsVJP_comp (f := fun (p : (Fin n → Fin m → ℝ) × (Fin n → Fin m → ℝ)) i j => p.1 i j - p.2 i j) (x := p)
    (IsVJP_entries (a := fun t => t ^ 2) (d := fun i j => 2 * (p.1 i j - p.2 i j)) fun i j =>
      ((hasDerivAt_pow 2 (p.1 i j - p.2 i j)).congr_deriv (by norm_num))) h1
  exact h2

theorem hasDerivAt_inverse {t : ℝ} (h : 1 + t ≠ 0) : HasDerivAt (fun t : ℝ => 1 / (1 + t)) (-1 / (t + 1) ^ 2) t := by
  have h1 := ((hasDerivAt_id t).const_add 1).inv h
  have h2 : (fun t : ℝ => 1 / (1 + t)) = (fun x => 1 + id x)⁻¹ := by
    funext t
    simp
  rw [h2]
  refine h1.congr_deriv ?_
  simp only [id_eq, add_comm]

variable {N : ℕ} {sh : Fin N → ℕ × ℕ}

/-- The similarity of two rows is one over one plus the weighted sum of the squared differences of their entries, and
the gradients of both inputs and of the weights are exact, wherever the similarity is defined. -/
theorem C78_cauchy_similarity (W : Fin N) (hW : sh W = (1, m)) (train : Bool) (θ : Params sh) (x₁ x₂ : Fin n → Fin m → ℝ)
    (hne : ∀ i, 1 + ∑ j, θ.vec W hW j * (x₁ i j - x₂ i j) ^ 2 ≠ 0) :
    Exact (cauchySimilarity W) train (Kind.pair (Kind.arr n m) (Kind.arr n m)) (Kind.arr 1 n)
      (fun p _ i => 1 / (1 + ∑ j, p.1.vec W hW j * (p.2.1 i j - p.2.2 i j) ^ 2)) θ (x₁, x₂) := by
  have h1 : IsVJP (fun p : Params sh × ((Fin n → Fin m → ℝ) × (Fin n → Fin m → ℝ)) =>
      (fun i j => (p.2.1 i j - p.2.2 i j) ^ 2, p.1.get W hW)) (θ, (x₁, x₂)) _ :=
    IsVJP_prod (f := fun p : Params sh × ((Fin n → Fin m → ℝ) × (Fin n → Fin m → ℝ)) => fun i j => (p.2.1 i j - p.2.2 i j) ^ 2)
      (IsVJP_input (IsVJP_squareDiff (x₁, x₂)) θ)
      (IsVJP_comp (f := fun p : Params sh × ((Fin n → Fin m → ℝ) × (Fin n → Fin m → ℝ)) => p.1) (x := (θ, (x₁, x₂)))
        (IsVJP_get W hW θ) (IsVJP_fst _))
  have h2 := IsVJP_comp (f := fun p : Params sh × ((Fin n → Fin m → ℝ) × (Fin n → Fin m → ℝ)) =>
      (fun i j => (p.2.1 i j - p.2.2 i j) ^ 2, p.1.get W hW)) (IsVJP_score _) h1
  have h3 := IsVJP_comp (f := fun (p : Params sh × ((Fin n → Fin m → ℝ) × (Fin n → Fin m → ℝ))) i =>
      ∑ l, (p.2.1 i l - p.2.2 i l) ^ 2 * p.1.get W hW 0 l) (x := (θ, (x₁, x₂)))
      (IsVJP_elementwise (g := fun t => 1 / (1 + t)) (d := fun t => -1 / (t + 1) ^ 2) fun i => by
        have hne' : 1 + ∑ l, (x₁ i l - x₂ i l) ^ 2 * θ.get W hW 0 l ≠ 0 := by
          intro h
          refine hne i ?_
          rw [← h]
          congr 1
          exact Finset.sum_congr rfl fun j _ => mul_comm _ _
        exact hasDerivAt_inverse hne') h2
  have h4 := IsVJP_comp (f := fun (p : Params sh × ((Fin n → Fin m → ℝ) × (Fin n → Fin m → ℝ))) i =>
      1 / (1 + ∑ l, (p.2.1 i l - p.2.2 i l) ^ 2 * p.1.get W hW 0 l)) (x := (θ, (x₁, x₂)))
      (IsVJP_linear' (f := fun (s : Fin n → ℝ) (_ : Fin 1) i => s i) (back := fun d i => d 0 i) (fun x y => rfl) (fun a x => rfl)
        fun dy v => by simp only [dot_pi, dot_real, Fin.sum_univ_one]) h3
  have hf : (fun (p : Params sh × ((Fin n → Fin m → ℝ) × (Fin n → Fin m → ℝ))) (_ : Fin 1) (i : Fin n) =>
      1 / (1 + ∑ j, p.1.vec W hW j * (p.2.1 i j - p.2.2 i j) ^ 2)) =
      fun p _ i => 1 / (1 + ∑ l, (p.2.1 i l - p.2.2 i l) ^ 2 * p.1.get W hW 0 l) := by
    funext p _ i
    congr 2
    exact Finset.sum_congr rfl fun j _ => mul_comm _ _
  rw [hf]
  refine Exact.intro h4 ?_
  rintro P v hP ⟨_, _, rfl, ⟨X1, rfl, hX1⟩, ⟨_, e, ⟨X2, rfl, hX2⟩⟩⟩
  obtain rfl : _ = [Val.arr X2] := by simpa using e
  have hPW := hP.get W hW
  obtain ⟨D, eD, hD⟩ := hX1.npBinary hX2 (· - ·)
  have hS := hD.mapEntries (· ^ 2)
  obtain ⟨T, eT, hT⟩ := hPW.npBinary_row_left hS (· * ·)
  have hT' := hT.rowSums.transpose
  apply ok_intro
  · simp only [cauchySimilarity, Val.twoArrs, Val.asArr, bind, Except.bind, eD, eT, pure, Except.pure, cauchyInverse]
    rfl
  · refine ⟨⟨_, rfl, (hT'.mapEntries _).congr fun i j => ?_⟩, ?_⟩
    · norm_num
      exact Finset.sum_congr rfl fun _ _ => mul_comm _ _
    rintro _ dy G g ⟨E, rfl, hE⟩ hG
    obtain ⟨A, eA, hA⟩ := hE.npBinary (hT'.mapEntries (fun t => -1 / (t + 1) ^ 2)) (· * ·)
    have hA' := hA.transpose
    obtain ⟨B, eB, hB⟩ := hA'.npBinary_col_left hS (· * ·)
    obtain ⟨G', eG, hG'⟩ := hG.incGrad W hW hB.colSums
    obtain ⟨C, eC, hC⟩ := hPW.npBinary_row_col hA' (· * ·)
    obtain ⟨F, eF, hF⟩ := (hC.mapEntries (2 * ·)).npBinary hD (· * ·)
    have hsum : ∀ i, ∑ j, θ.get W hW 0 j * (x₁ i j - x₂ i j) ^ 2 = ∑ l, (x₁ i l - x₂ i l) ^ 2 * θ.get W hW 0 l := fun i =>
      Finset.sum_congr rfl fun j _ => mul_comm _ _
    refine ⟨.tup [.arr F, .arr (F.mapEntries (- ·))], G', ?_, ⟨_, _, rfl, ⟨F, rfl, hF.congr fun i j => ?_⟩,
      ⟨_, rfl, ⟨_, rfl, (hF.mapEntries _).congr fun i j => ?_⟩⟩⟩, ?_⟩
    · simp only [eA, eB, eG, eC, eF]
    · simp only [Prod.snd_add, Prod.fst_add, Prod.snd_zero, Prod.fst_zero, Pi.add_apply, Pi.zero_apply, add_zero, hsum]
      ring
    · simp only [Prod.snd_add, Prod.fst_add, Prod.snd_zero, Prod.fst_zero, Pi.add_apply, Pi.zero_apply, add_zero, hsum]
      ring
    · refine Eq.mp (congrArg (fun e => IsGrads G' (g + e)) ?_) hG'
      simp only [Prod.fst_add, zero_add]
      congr 1
      funext _ l
      exact Finset.sum_congr rfl fun i _ => by simp only [hsum]

/-- With weights that are not negative the similarity is defined for every pair of batches. -/
theorem C78_cauchy_similarity_nonneg (W : Fin N) (hW : sh W = (1, m)) (train : Bool) (θ : Params sh) (x₁ x₂ : Fin n → Fin m → ℝ)
    (hpos : ∀ j, 0 ≤ θ.vec W hW j) :
    Exact (cauchySimilarity W) train (Kind.pair (Kind.arr n m) (Kind.arr n m)) (Kind.arr 1 n)
      (fun p _ i => 1 / (1 + ∑ j, p.1.vec W hW j * (p.2.1 i j - p.2.2 i j) ^ 2)) θ (x₁, x₂) := by
  refine C78_cauchy_similarity W hW train θ x₁ x₂ fun i => ?_
  have : 0 ≤ ∑ j, θ.vec W hW j * (x₁ i j - x₂ i j) ^ 2 := Finset.sum_nonneg fun j _ => mul_nonneg (hpos j) (sq_nonneg _)
  linarith

/-- The weights that the layer starts with are all one. -/
example (train : Bool) (x₁ x₂ : Fin n → Fin m → ℝ) :
    Exact (cauchySimilarity 0) train (Kind.pair (Kind.arr n m) (Kind.arr n m)) (Kind.arr 1 n)
      (fun (p : Params (fun _ : Fin 1 => (1, m)) × _) _ i => 1 / (1 + ∑ j, p.1.vec 0 rfl j * (p.2.1 i j - p.2.2 i j) ^ 2))
      (fun _ _ _ => 1) (x₁, x₂) :=
  C78_cauchy_similarity_nonneg 0 rfl train (fun _ _ _ => 1) x₁ x₂ fun _ => zero_le_one

/-- The input must be a pair: a tuple of another length is a ValueError. -/
theorem C78_cauchy_needs_pair (k : ℕ) (train : Bool) (P : ParamVals) (vs : List Val) (h : vs.length ≠ 2) :
    cauchySimilarity k train P (.tup vs) = .error .valueError := by
  match vs, h with
  | [], _ => rfl
  | [_], _ => rfl
  | [_, _], h => exact absurd rfl h
  | _ :: _ :: _ :: _, _ => rfl

end

end Thinc
