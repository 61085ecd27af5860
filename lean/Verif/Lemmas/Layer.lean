import Verif.Spec.Layer
import Verif.Lemmas.VJP
import Verif.Lemmas.CMem
import Verif.Lemmas.Softmax
/-! # Representation lemmas for layers -/
namespace Thinc
open Spec Spec.Tensor

/-! ### Vector-Jacobian products -/

section
variable {ι : Type} [Fintype ι] {E : Type} [NormedAddCommGroup E] [NormedSpace ℝ E] [Tensor E]
  {F : ι → Type} [∀ i, NormedAddCommGroup (F i)] [∀ i, NormedSpace ℝ (F i)] [∀ i, Tensor (F i)]

theorem dot_dpi (u v : (i : ι) → F i) : dot u v = ∑ i, dot (u i) (v i) := rfl

theorem dot_sum_left {κ : Type} (s : Finset κ) (u : κ → E) (v : E) : dot (∑ i ∈ s, u i) v = ∑ i ∈ s, dot (u i) v := by
  classical
  induction s using Finset.induction_on with
  | empty => simp [dot_zero_left]
  | insert a s ha ih => rw [Finset.sum_insert ha, Finset.sum_insert ha, Tensor.dot_add_left, ih]

/-- Several functions of one argument. -/
theorem IsVJP_dpi' {f : (i : ι) → E → F i} {x : E} {b : (i : ι) → F i → E} (h : ∀ i, IsVJP (f i) x (b i)) :
    IsVJP (fun (x : E) i => f i x) x (fun dy => ∑ i, b i (dy i)) := by
  choose f' hf' hb using h
  refine ⟨ContinuousLinearMap.pi f', hasFDerivAt_pi.2 hf', fun dy v => ?_⟩
  rw [dot_sum_left, dot_dpi]
  exact Finset.sum_congr rfl fun i _ => hb i _ _

/-- One member of a family. -/
theorem IsVJP_dproj [DecidableEq ι] (i : ι) (x : (i : ι) → F i) :
    IsVJP (fun x : (i : ι) → F i => x i) x (fun dy => Pi.single i dy) :=
  IsVJP_linear (ContinuousLinearMap.proj (R := ℝ) (φ := F) i) x _ fun dy v => by
    rw [dot_dpi, Finset.sum_eq_single i]
    · simp
    · intro j _ hj
      rw [Pi.single_eq_of_ne hj, dot_zero_left]
    · simp
end

/-! ### Representations -/

section
variable {n m : ℕ}

theorem Spec.IsMat.at {A : Mat ℝ} {x : Fin n → Fin m → ℝ} (h : IsMat A x) {i j : ℕ} (hi : i < n) (hj : j < m) :
    A.at i j = x ⟨i, hi⟩ ⟨j, hj⟩ := h.2.2 ⟨i, hi⟩ ⟨j, hj⟩

theorem isMat_ofFn {α : Type} (f : ℕ → ℕ → α) : IsMat (Mat.ofFn n m f) (fun (i : Fin n) (j : Fin m) => f i j) :=
  ⟨rfl, rfl, fun i j => ofFn_at _ _ _ _ _ j.2⟩

theorem isMat_ofFn' {α : Type} (f : ℕ → ℕ → α) (x : Fin n → Fin m → α) (h : ∀ (i : Fin n) (j : Fin m), f i j = x i j) :
    IsMat (Mat.ofFn n m f) x :=
  ⟨rfl, rfl, fun i j => (ofFn_at _ _ _ _ _ j.2).trans (h i j)⟩

theorem Spec.IsMat.npUpdate {A B : Mat ℝ} {x y : Fin n → Fin m → ℝ} (hA : IsMat A x) (hB : IsMat B y) (f : ℝ → ℝ → ℝ) :
    ∃ C, Thinc.npUpdate f A B = .ok C ∧ IsMat C (fun i j => f (x i j) (y i j)) := by
  obtain ⟨rA, cA, hA⟩ := hA
  obtain ⟨rB, cB, hB⟩ := hB
  refine ⟨_, if_pos ⟨Or.inl (rB.trans rA.symm), Or.inl (cB.trans cA.symm)⟩, ?_⟩
  rw [rA, cA]
  refine isMat_ofFn' _ _ fun i j => ?_
  rw [hA]
  congr 1
  have e1 : (if B.rows = 1 then 0 else (i : ℕ)) = i := by
    split
    · have := i.2; omega
    · rfl
  have e2 : (if B.cols = 1 then 0 else (j : ℕ)) = j := by
    split
    · have := j.2; omega
    · rfl
  rw [e1, e2, hB]

theorem Spec.IsMat.npUpdate_row {A B : Mat ℝ} {x : Fin n → Fin m → ℝ} {y : Fin 1 → Fin m → ℝ} (hA : IsMat A x)
    (hB : IsMat B y) (f : ℝ → ℝ → ℝ) :
    ∃ C, Thinc.npUpdate f A B = .ok C ∧ IsMat C (fun i j => f (x i j) (y 0 j)) := by
  obtain ⟨rA, cA, hA⟩ := hA
  obtain ⟨rB, cB, hB⟩ := hB
  refine ⟨_, if_pos ⟨Or.inr rB, Or.inl (cB.trans cA.symm)⟩, ?_⟩
  rw [rA, cA]
  refine isMat_ofFn' _ _ fun i j => ?_
  rw [hA]
  congr 1
  have e2 : (if B.cols = 1 then 0 else (j : ℕ)) = j := by
    split
    · have := j.2; omega
    · rfl
  rw [e2, if_pos rB]
  exact hB 0 j

theorem Spec.IsMat.npBinary {A B : Mat ℝ} {x y : Fin n → Fin m → ℝ} (hA : IsMat A x) (hB : IsMat B y) (f : ℝ → ℝ → ℝ) :
    ∃ C, Thinc.npBinary f A B = .ok C ∧ IsMat C (fun i j => f (x i j) (y i j)) := by
  obtain ⟨rA, cA, hA⟩ := hA
  obtain ⟨rB, cB, hB⟩ := hB
  unfold Thinc.npBinary broadcastDim
  rw [if_pos (rA.trans rB.symm), if_pos (cA.trans cB.symm)]
  refine ⟨_, rfl, ?_⟩
  rw [rA, cA, rB, cB]
  refine isMat_ofFn' _ _ fun i j => ?_
  have e1 : (if n = 1 then 0 else (i : ℕ)) = i := by
    split
    · have := i.2; omega
    · rfl
  have e2 : (if m = 1 then 0 else (j : ℕ)) = j := by
    split
    · have := j.2; omega
    · rfl
  rw [e1, e2, hA, hB]

theorem Spec.IsMat.transpose {A : Mat ℝ} {x : Fin n → Fin m → ℝ} (hA : IsMat A x) :
    IsMat A.transpose (fun j i => x i j) := by
  unfold Mat.transpose
  rw [hA.1, hA.2.1]
  exact isMat_ofFn' _ _ fun j i => hA.2.2 i j

theorem Spec.IsMat.npDot {A B : Mat ℝ} {k : ℕ} {x : Fin n → Fin k → ℝ} {y : Fin k → Fin m → ℝ} (hA : IsMat A x)
    (hB : IsMat B y) : ∃ C, Thinc.npDot A B = .ok C ∧ IsMat C (fun i j => ∑ l, x i l * y l j) := by
  refine ⟨_, if_pos (hA.2.1.trans hB.1.symm), ?_⟩
  rw [hA.1, hB.2.1, hA.2.1]
  refine isMat_ofFn' _ _ fun i j => ?_
  rw [Finset.sum_range]
  exact Finset.sum_congr rfl fun l _ => by rw [hA.2.2, hB.2.2]

/-- `x yᵀ` -/
theorem Spec.IsMat.gemm_nt {A B : Mat ℝ} {k : ℕ} {x : Fin n → Fin k → ℝ} {y : Fin m → Fin k → ℝ} (hA : IsMat A x)
    (hB : IsMat B y) : ∃ C, gemm A B false true = .ok C ∧ IsMat C (fun i j => ∑ l, x i l * y j l) :=
  IsMat.npDot hA hB.transpose

/-- `x y` -/
theorem Spec.IsMat.gemm_nn {A B : Mat ℝ} {k : ℕ} {x : Fin n → Fin k → ℝ} {y : Fin k → Fin m → ℝ} (hA : IsMat A x)
    (hB : IsMat B y) : ∃ C, gemm A B false false = .ok C ∧ IsMat C (fun i j => ∑ l, x i l * y l j) :=
  IsMat.npDot hA hB

/-- `xᵀ y` -/
theorem Spec.IsMat.gemm_tn {A B : Mat ℝ} {k : ℕ} {x : Fin k → Fin n → ℝ} {y : Fin k → Fin m → ℝ} (hA : IsMat A x)
    (hB : IsMat B y) : ∃ C, gemm A B true false = .ok C ∧ IsMat C (fun i j => ∑ l, x l i * y l j) :=
  IsMat.npDot hA.transpose hB

theorem Spec.IsMat.colSums {A : Mat ℝ} {x : Fin n → Fin m → ℝ} (hA : IsMat A x) :
    IsMat A.colSums (fun (_ : Fin 1) j => ∑ i, x i j) := by
  unfold Mat.colSums
  rw [hA.1, hA.2.1]
  refine isMat_ofFn' _ _ fun i j => ?_
  rw [Finset.sum_range]
  exact Finset.sum_congr rfl fun l _ => hA.2.2 l j

theorem Spec.IsMat.congr {A : Mat ℝ} {x y : Fin n → Fin m → ℝ} (hA : IsMat A x) (h : ∀ i j, x i j = y i j) : IsMat A y :=
  ⟨hA.1, hA.2.1, fun i j => (hA.2.2 i j).trans (h i j)⟩
end

/-! ### Parameters -/

section
variable {N : ℕ} {sh : Fin N → ℕ × ℕ} {n m : ℕ}

/-- The gradient of all parameters that is `d` for one parameter and zero for the others. -/
def Spec.Params.put (p : Fin N) (h : sh p = (n, m)) (d : Fin n → Fin m → ℝ) : Params sh :=
  Pi.single p fun i j => d (i.cast (by rw [h])) (j.cast (by rw [h]))

theorem Spec.IsParams.get {P : ParamVals} {θ : Params sh} (hP : IsParams P θ) (p : Fin N) (h : sh p = (n, m)) :
    IsMat (P p) (θ.get p h) := by
  obtain ⟨rfl, rfl⟩ : n = (sh p).1 ∧ m = (sh p).2 := by rw [h]; exact ⟨rfl, rfl⟩
  exact hP p

theorem IsVJP_get (p : Fin N) (h : sh p = (n, m)) (θ : Params sh) :
    IsVJP (fun θ : Params sh => θ.get p h) θ (fun d => Params.put p h d) := by
  obtain ⟨rfl, rfl⟩ : n = (sh p).1 ∧ m = (sh p).2 := by rw [h]; exact ⟨rfl, rfl⟩
  exact IsVJP_dproj p θ

theorem Spec.IsGrads.incGrad {G : GradStore} {g : Params sh} (hG : IsGrads G g) (p : Fin N) (h : sh p = (n, m)) {D : Mat ℝ}
    {d : Fin n → Fin m → ℝ} (hD : IsMat D d) :
    ∃ G', Thinc.incGrad G p D = .ok G' ∧ IsGrads G' (g + Params.put p h d) := by
  obtain ⟨rfl, rfl⟩ : n = (sh p).1 ∧ m = (sh p).2 := by rw [h]; exact ⟨rfl, rfl⟩
  have hp := hG p
  have other : ∀ q : Fin N, q ≠ p → (g + Params.put p h d) q = g q := fun q hq => by
    simp [Params.put, Pi.single_eq_of_ne hq]
  have self : (g + Params.put p h d) p = g p + d := by
    simp [Params.put]
  unfold Thinc.incGrad
  cases e : G p with
  | none =>
    rw [e] at hp
    refine ⟨_, rfl, fun q => ?_⟩
    by_cases hq : q = p
    · subst hq
      simp only [if_true]
      rw [self, show g q = 0 from hp, zero_add]
      exact hD
    · have : ¬ (q : ℕ) = p := fun c => hq (Fin.ext c)
      simp only [if_neg this]
      rw [other q hq]
      exact hG q
  | some A =>
    rw [e] at hp
    obtain ⟨C, hC, hC'⟩ := IsMat.npUpdate (show IsMat A (g p) from hp) hD (· + ·)
    refine ⟨fun q => if q = p then some C else G q, by simp only [hC, bind, Except.bind, pure, Except.pure], fun q => ?_⟩
    by_cases hq : q = p
    · subst hq
      simp only [if_true]
      rw [self]
      exact hC'
    · have : ¬ (q : ℕ) = p := fun c => hq (Fin.ext c)
      simp only [if_neg this]
      rw [other q hq]
      exact hG q

/-- To show that a layer is exact: the vector-Jacobian product of the function, and for every input the
output with its callback. -/
theorem Spec.Exact.intro {E F : Type} [NormedAddCommGroup E] [NormedSpace ℝ E] [Tensor E]
    [NormedAddCommGroup F] [NormedSpace ℝ F] [Tensor F] {L : Layer} {train : Bool} {K : Kind E} {M : Kind F}
    {f : Params sh × E → F} {θ : Params sh} {x : E} {back : F → Params sh × E} (hb : IsVJP f (θ, x) back)
    (h : ∀ P v, IsParams P θ → K.val v x → ∃ r, L train P v = .ok r ∧ M.val r.1 (f (θ, x)) ∧
      ∀ dv dy G g, M.grad dv dy → IsGrads G g → ∃ dv' G',
        r.2 dv G = .ok (dv', G') ∧ K.grad dv' (back dy).2 ∧ IsGrads G' (g + (back dy).1)) :
    Exact L train K M f θ x := fun P v hP hv => by
  obtain ⟨r, h1, h2, h3⟩ := h P v hP hv
  exact ⟨r.1, r.2, back, h1, h2, hb, h3⟩

theorem ok_intro {α : Type} {r : Except PyErr α} {a : α} {Q : α → Prop} (h : r = .ok a) (hq : Q a) :
    ∃ a, r = .ok a ∧ Q a := ⟨a, h, hq⟩

theorem isGrads_none : IsGrads (fun _ => none) (0 : Params sh) := fun _ => rfl

end
end Thinc
