import Verif.Lemmas.Columns
import Verif.Model.LayerNorm
import Mathlib.Analysis.Calculus.FDeriv.Mul
/-!
# Broadcasting and products
-/
namespace Thinc
open Spec Spec.Tensor

section
variable {n m : ℕ}

theorem Spec.IsMat.npBinary_col {A B : Mat ℝ} {x : Fin n → Fin m → ℝ} {y : Fin n → Fin 1 → ℝ} (hA : IsMat A x) (hB : IsMat B y)
    (f : ℝ → ℝ → ℝ) : ∃ C, Thinc.npBinary f A B = .ok C ∧ IsMat C (fun i j => f (x i j) (y i 0)) := by
  obtain ⟨rA, cA, hA⟩ := hA
  obtain ⟨rB, cB, hB⟩ := hB
  unfold Thinc.npBinary broadcastDim
  have hc : (if A.cols = B.cols then Except.ok A.cols else if A.cols = 1 then Except.ok B.cols else
      if B.cols = 1 then Except.ok A.cols else (Except.error PyErr.valueError : Except PyErr ℕ)) = .ok m := by
    rw [cA, cB]
    by_cases h : m = 1 <;> simp [h]
  rw [if_pos (rA.trans rB.symm), hc]
  refine ⟨_, rfl, ?_⟩
  rw [rA, cA, rB, cB]
  refine isMat_ofFn' _ _ fun i j => ?_
  have e1 : (if n = 1 then 0 else (i : ℕ)) = i := by
    split
    · have := i.2; omega
    · rfl
  have e2 : (if m = 1 then 0 else (j : ℕ)) = j := by
    split
    · have := j.2; omega
    · rfl
  rw [e1, e2, hA, if_pos rfl]
  exact congrArg _ (hB i 0)

theorem Spec.IsMat.npBinary_row {A B : Mat ℝ} {x : Fin n → Fin m → ℝ} {y : Fin 1 → Fin m → ℝ} (hA : IsMat A x) (hB : IsMat B y)
    (f : ℝ → ℝ → ℝ) : ∃ C, Thinc.npBinary f A B = .ok C ∧ IsMat C (fun i j => f (x i j) (y 0 j)) := by
  obtain ⟨rA, cA, hA⟩ := hA
  obtain ⟨rB, cB, hB⟩ := hB
  unfold Thinc.npBinary broadcastDim
  have hc : (if A.rows = B.rows then Except.ok A.rows else if A.rows = 1 then Except.ok B.rows else
      if B.rows = 1 then Except.ok A.rows else (Except.error PyErr.valueError : Except PyErr ℕ)) = .ok n := by
    rw [rA, rB]
    by_cases h : n = 1 <;> simp [h]
  rw [if_pos (cA.trans cB.symm), hc]
  refine ⟨_, rfl, ?_⟩
  rw [rA, cA, rB, cB]
  refine isMat_ofFn' _ _ fun i j => ?_
  have e1 : (if n = 1 then 0 else (i : ℕ)) = i := by
    split
    · have := i.2; omega
    · rfl
  have e2 : (if m = 1 then 0 else (j : ℕ)) = j := by
    split
    · have := j.2; omega
    · rfl
  rw [e1, e2, hA, if_pos rfl]
  exact congrArg _ (hB 0 j)

theorem Spec.IsMat.npUpdate_col {A B : Mat ℝ} {x : Fin n → Fin m → ℝ} {y : Fin n → Fin 1 → ℝ} (hA : IsMat A x)
    (hB : IsMat B y) (f : ℝ → ℝ → ℝ) :
    ∃ C, Thinc.npUpdate f A B = .ok C ∧ IsMat C (fun i j => f (x i j) (y i 0)) := by
  obtain ⟨rA, cA, hA⟩ := hA
  obtain ⟨rB, cB, hB⟩ := hB
  refine ⟨_, if_pos ⟨Or.inl (rB.trans rA.symm), Or.inr cB⟩, ?_⟩
  rw [rA, cA]
  refine isMat_ofFn' _ _ fun i j => ?_
  rw [hA]
  congr 1
  have e1 : (if B.rows = 1 then 0 else (i : ℕ)) = i := by
    split
    · have := i.2; omega
    · rfl
  rw [e1, if_pos cB]
  exact hB i 0

theorem Spec.IsMat.rowSums {A : Mat ℝ} {x : Fin n → Fin m → ℝ} (hA : IsMat A x) :
    IsMat A.rowSums (fun i (_ : Fin 1) => ∑ j, x i j) := by
  unfold Mat.rowSums
  rw [hA.1, hA.2.1]
  refine isMat_ofFn' _ _ fun i j => ?_
  rw [Finset.sum_range]
  exact Finset.sum_congr rfl fun l _ => hA.2.2 i l

theorem Spec.IsMat.rowMeans {A : Mat ℝ} {x : Fin n → Fin m → ℝ} (hA : IsMat A x) :
    IsMat A.rowMeans (fun i (_ : Fin 1) => (∑ j, x i j) / m) := by
  unfold Mat.rowMeans
  rw [hA.1, hA.2.1]
  refine isMat_ofFn' _ _ fun i j => ?_
  rw [Finset.sum_range]
  exact congrArg (· / (m : ℝ)) (Finset.sum_congr rfl fun l _ => hA.2.2 i l)

theorem Spec.IsMat.rowVars {A : Mat ℝ} {x : Fin n → Fin m → ℝ} (hA : IsMat A x) :
    IsMat A.rowVars (fun i (_ : Fin 1) => (∑ j, (x i j - (∑ j, x i j) / m) ^ 2) / m) := by
  unfold Mat.rowVars
  have hM := hA.rowMeans
  rw [hA.1, hA.2.1]
  refine isMat_ofFn' _ _ fun i j => ?_
  rw [Finset.sum_range]
  refine congrArg (· / (m : ℝ)) (Finset.sum_congr rfl fun l _ => ?_)
  rw [hA.2.2 i l]
  have := hM.2.2 i 0
  rw [Fin.val_zero] at this
  rw [this]

theorem Spec.IsMat.mapEntries {A : Mat ℝ} {x : Fin n → Fin m → ℝ} (hA : IsMat A x) (f : ℝ → ℝ) :
    IsMat (A.mapEntries f) (fun i j => f (x i j)) := by
  unfold Mat.mapEntries
  rw [hA.1, hA.2.1]
  exact isMat_ofFn' _ _ fun i j => congrArg f (hA.2.2 i j)

/-- The gradient of an entrywise product. -/
theorem IsVJP_hadamard (p : (Fin n → Fin m → ℝ) × (Fin n → Fin m → ℝ)) :
    IsVJP (fun (p : (Fin n → Fin m → ℝ) × (Fin n → Fin m → ℝ)) i j => p.1 i j * p.2 i j) p
      (fun dy => (fun i j => dy i j * p.2 i j, fun i j => dy i j * p.1 i j)) := by
  let P := (Fin n → Fin m → ℝ) × (Fin n → Fin m → ℝ)
  let a (i : Fin n) (j : Fin m) : P →L[ℝ] ℝ :=
    (ContinuousLinearMap.proj (R := ℝ) (φ := fun _ : Fin m => ℝ) j).comp
      ((ContinuousLinearMap.proj (R := ℝ) (φ := fun _ : Fin n => Fin m → ℝ) i).comp (ContinuousLinearMap.fst ℝ _ _))
  let b (i : Fin n) (j : Fin m) : P →L[ℝ] ℝ :=
    (ContinuousLinearMap.proj (R := ℝ) (φ := fun _ : Fin m => ℝ) j).comp
      ((ContinuousLinearMap.proj (R := ℝ) (φ := fun _ : Fin n => Fin m → ℝ) i).comp (ContinuousLinearMap.snd ℝ _ _))
  refine ⟨ContinuousLinearMap.pi fun i => ContinuousLinearMap.pi fun j => a i j p • b i j + b i j p • a i j, ?_, ?_⟩
  · exact hasFDerivAt_pi.2 fun i => hasFDerivAt_pi.2 fun j => (a i j).hasFDerivAt.mul (b i j).hasFDerivAt
  · intro dy v
    have e : ∀ i j, (ContinuousLinearMap.pi fun i => ContinuousLinearMap.pi fun j => a i j p • b i j + b i j p • a i j) v i j =
        p.1 i j * v.2 i j + p.2 i j * v.1 i j := fun i j => rfl
    simp only [dot_prod, dot_pi, dot_real, e, ← Finset.sum_add_distrib]
    exact Finset.sum_congr rfl fun i _ => Finset.sum_congr rfl fun j _ => by ring

/-- One row repeated. -/
theorem IsVJP_repeat_row (n : ℕ) (g : Fin 1 → Fin m → ℝ) :
    IsVJP (fun (g : Fin 1 → Fin m → ℝ) (_ : Fin n) j => g 0 j) g (fun dy _ j => ∑ i, dy i j) := by
  refine IsVJP_linear' (fun x y => rfl) (fun a x => rfl) fun dy v => ?_
  simp only [dot_pi, dot_real, Fin.sum_univ_one, Fin.isValue, Finset.sum_mul]
  rw [Finset.sum_comm]

/-- One column repeated. -/
theorem IsVJP_repeat_col (m : ℕ) (g : Fin n → Fin 1 → ℝ) :
    IsVJP (fun (g : Fin n → Fin 1 → ℝ) i (_ : Fin m) => g i 0) g (fun dy i _ => ∑ j, dy i j) := by
  refine IsVJP_linear' (fun x y => rfl) (fun a x => rfl) fun dy v => ?_
  simp only [dot_pi, dot_real, Fin.sum_univ_one, Fin.isValue, Finset.sum_mul]

end
end Thinc
