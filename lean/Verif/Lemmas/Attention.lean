import Verif.Spec.Attention
import Verif.Lemmas.Broadcast
import Verif.Props.Softmax
/-!
# Sums and softmax within the sequences of a batch
-/
namespace Thinc
open Spec Spec.Tensor Real

theorem memberOf_spec (ls : List ℕ) (i : ℕ) (hi : i < ls.sum) :
    memberOf ls i < ls.length ∧ ∃ t < seqLen ls (memberOf ls i), i = seqStart ls (memberOf ls i) + t := by
  induction ls generalizing i with
  | nil => simp at hi
  | cons l ls ih =>
    unfold memberOf
    split
    · rename_i h
      exact ⟨by simp, i, h, by simp [seqStart]⟩
    · rename_i h
      rw [List.sum_cons] at hi
      obtain ⟨h1, t, h2, h3⟩ := ih (i - l) (by omega)
      refine ⟨by simpa using h1, t, by simpa [seqLen] using h2, ?_⟩
      simp only [seqStart, List.take_succ_cons, List.sum_cons] at *
      omega

theorem memberOf_start (ls : List ℕ) (b t : ℕ) (ht : t < seqLen ls b) : memberOf ls (seqStart ls b + t) = b := by
  induction ls generalizing b with
  | nil => simp [seqLen] at ht
  | cons l ls ih =>
    cases b with
    | zero =>
      have : t < l := by simpa [seqLen] using ht
      simp [memberOf, seqStart, this]
    | succ b =>
      have h := ih b (by simpa [seqLen] using ht)
      rw [show seqStart (l :: ls) (b + 1) + t = l + (seqStart ls b + t) by simp [seqStart, Nat.add_assoc]]
      unfold memberOf
      rw [if_neg (by omega), Nat.add_sub_cancel_left, h]

theorem sum_same (ls : List ℕ) (b : ℕ) (hb : b < ls.length) (f : ℕ → ℝ) :
    (∑ i : Fin ls.sum, if memberOf ls i = b then f i else 0) = ∑ t : Fin (seqLen ls b), f (seqStart ls b + t) := by
  rw [← Finset.sum_range (fun i => if memberOf ls i = b then f i else 0), sum_segments, Finset.sum_eq_single b]
  · rw [← Finset.sum_range (fun t => f (seqStart ls b + t))]
    refine Finset.sum_congr rfl fun t ht => ?_
    exact if_pos (memberOf_start ls b t (Finset.mem_range.1 ht))
  · intro c _ hc
    refine Finset.sum_eq_zero fun t ht => ?_
    exact if_neg (by rw [show (ls.take c).sum + t = seqStart ls c + t from rfl, memberOf_start ls c t (Finset.mem_range.1 ht)]; exact hc)
  · intro h
    exact absurd (Finset.mem_range.2 hb) h

/-- The sums of the rows of each sequence, repeated. -/
theorem segment_sums_isMat {ls : List ℕ} {m : ℕ} {X : Mat ℝ} {x : Fin ls.sum → Fin m → ℝ} (hX : IsMat X x) (hn : 0 < ls.sum) :
    ∃ s S, reduceSum X (asInts ls) = .ok s ∧ backpropReduceSum s (asInts ls) = .ok S ∧
      IsMat S (fun (i : Fin ls.sum) j => ∑ i' : Fin ls.sum, if memberOf ls i' = memberOf ls i then x i' j else 0) := by
  obtain ⟨s, S, h1, h2, h3, h4, h5⟩ := segment_sums X ls (by rw [hX.1]; exact hn) (by rw [hX.1])
  refine ⟨s, S, h1, h2, h3, h4.trans hX.2.1, fun i j => ?_⟩
  obtain ⟨hb, t, ht, e⟩ := memberOf_spec ls i i.2
  have h := h5 (memberOf ls i) hb t ht j (by rw [hX.2.1]; exact j.2)
  rw [seqAt, ← e] at h
  rw [h]
  unfold seqAt
  rw [← sum_same ls _ hb (fun i => X.at i j)]
  refine Finset.sum_congr rfl fun i' _ => ?_
  rw [hX.2.2 i' j]

theorem isMat_map {n m : ℕ} {X : Mat ℝ} {x : Fin n → Fin m → ℝ} (hX : IsMat X x) (f : ℝ → ℝ) :
    IsMat (X.map f) (fun i j => f (x i j)) :=
  ⟨hX.1, hX.2.1, fun i j => by rw [map_at, hX.2.2 i j]⟩

theorem Spec.IsMat.npZip {n m : ℕ} {A B : Mat ℝ} {x y : Fin n → Fin m → ℝ} (hA : IsMat A x) (hB : IsMat B y) (f : ℝ → ℝ → ℝ) :
    ∃ C, Thinc.npZip f A B = .ok C ∧ IsMat C (fun i j => f (x i j) (y i j)) := by
  obtain ⟨C, e, r, c, h⟩ := npZip_ok f A B (hA.1.trans hB.1.symm)
  refine ⟨C, e, r.trans hA.1, c.trans hA.2.1, fun i j => ?_⟩
  rw [h i (by rw [hA.1]; exact i.2) j (by rw [hA.2.1]; exact j.2), hA.2.2, hB.2.2]

theorem Spec.IsMat.npZipInplace {n m : ℕ} {A B : Mat ℝ} {x y : Fin n → Fin m → ℝ} (hA : IsMat A x) (hB : IsMat B y) (f : ℝ → ℝ → ℝ) :
    ∃ C, Thinc.npZipInplace f A B = .ok C ∧ IsMat C (fun i j => f (x i j) (y i j)) := by
  obtain ⟨C, e, r, c, h⟩ := npZipInplace_ok f A B (hA.1.trans hB.1.symm)
  refine ⟨C, e, r.trans hA.1, c.trans hA.2.1, fun i j => ?_⟩
  rw [h i (by rw [hA.1]; exact i.2) j (by rw [hA.2.1]; exact j.2), hA.2.2, hB.2.2]

theorem softmaxSequences_isMat {ls : List ℕ} {m : ℕ} {X : Mat ℝ} {x : Fin ls.sum → Fin m → ℝ} (hX : IsMat X x)
    (hn : 0 < ls.sum) : ∃ Y, softmaxSequences X (asInts ls) = .ok Y ∧
      IsMat Y (fun i j => attention ls (fun i => npClip (x i j) (-20) 20) i) := by
  have h1 := isMat_map (isMat_map hX (fun x => npClip x (-20) 20)) exp
  obtain ⟨s, S, e1, e2, hS⟩ := segment_sums_isMat h1 hn
  obtain ⟨Y, e3, hY⟩ := h1.npZipInplace hS (· / ·)
  refine ⟨Y, ?_, hY⟩
  unfold softmaxSequences
  simp only [e1, e2, e3, bind, Except.bind]

theorem backpropSoftmaxSequences_isMat {ls : List ℕ} {m : ℕ} {D Y : Mat ℝ} {d y : Fin ls.sum → Fin m → ℝ} (hD : IsMat D d)
    (hY : IsMat Y y) (hn : 0 < ls.sum) : ∃ X, backpropSoftmaxSequences D Y (asInts ls) = .ok X ∧
      IsMat X (fun i j => y i j * d i j - y i j * ∑ i' : Fin ls.sum, if memberOf ls i' = memberOf ls i then y i' j * d i' j else 0) := by
  obtain ⟨P, e1, hP⟩ := hY.npZip hD (· * ·)
  obtain ⟨s, S, e2, e3, hS⟩ := segment_sums_isMat hP hn
  obtain ⟨Q, e4, hQ⟩ := hY.npZip hS (· * ·)
  obtain ⟨X, e5, hX⟩ := hP.npZipInplace hQ (· - ·)
  refine ⟨X, ?_, hX⟩
  unfold backpropSoftmaxSequences
  simp only [e1, e2, e3, e4, e5, bind, Except.bind]

theorem attention_sum_pos (ls : List ℕ) (s : Fin ls.sum → ℝ) (i : Fin ls.sum) :
    0 < ∑ i' : Fin ls.sum, if memberOf ls i' = memberOf ls i then exp (s i') else 0 := by
  refine Finset.sum_pos' (fun i' _ => ?_) ⟨i, Finset.mem_univ _, ?_⟩
  · split
    · exact (exp_pos _).le
    · exact le_rfl
  · rw [if_pos rfl]; exact exp_pos _

/-- The gradient of attention weights with respect to the scores. -/
theorem IsVJP_attention (ls : List ℕ) (s : Fin ls.sum → ℝ) :
    IsVJP (attention ls) s (fun d i => attention ls s i * d i -
      attention ls s i * ∑ i' : Fin ls.sum, if memberOf ls i' = memberOf ls i then attention ls s i' * d i' else 0) := by
  have hS := attention_sum_pos ls s
  have hk : ∀ i, HasFDerivAt (fun s : Fin ls.sum → ℝ => attention ls s i)
      (attention ls s i • ((ContinuousLinearMap.proj i : (Fin ls.sum → ℝ) →L[ℝ] ℝ) -
        ∑ i' : Fin ls.sum, if memberOf ls i' = memberOf ls i then
          attention ls s i' • (ContinuousLinearMap.proj i' : (Fin ls.sum → ℝ) →L[ℝ] ℝ) else 0)) s := by
    intro i
    have hsum : HasFDerivAt (fun s : Fin ls.sum → ℝ => ∑ i' : Fin ls.sum, if memberOf ls i' = memberOf ls i then exp (s i') else 0)
        (∑ i' : Fin ls.sum, if memberOf ls i' = memberOf ls i then
          exp (s i') • (ContinuousLinearMap.proj i' : (Fin ls.sum → ℝ) →L[ℝ] ℝ) else 0) s := by
      refine HasFDerivAt.fun_sum fun i' _ => ?_
      by_cases h : memberOf ls i' = memberOf ls i
      · simp only [h, if_true]
        exact (hasFDerivAt_apply i' s).exp
      · simp only [h, if_false]
        exact hasFDerivAt_const _ _
    have hinv := (hasDerivAt_inv (hS i).ne').comp_hasFDerivAt s hsum
    have hm := ((hasFDerivAt_apply i s).exp).mul hinv
    have e : (fun s : Fin ls.sum → ℝ => attention ls s i) = fun s => exp (s i) * ((fun y => y⁻¹) ∘
        fun s : Fin ls.sum → ℝ => ∑ i' : Fin ls.sum, if memberOf ls i' = memberOf ls i then exp (s i') else 0) s := by
      funext s
      simp [attention, div_eq_mul_inv]
    rw [e]
    refine hm.congr_fderiv ?_
    ext v
    have ite1 : ∀ (c : Fin ls.sum → ℝ), (∑ i' : Fin ls.sum, if memberOf ls i' = memberOf ls i then
        c i' • (ContinuousLinearMap.proj i' : (Fin ls.sum → ℝ) →L[ℝ] ℝ) else 0) v =
        ∑ i' : Fin ls.sum, if memberOf ls i' = memberOf ls i then c i' * v i' else 0 := by
      intro c
      rw [_root_.sum_apply]
      refine Finset.sum_congr rfl fun i' _ => ?_
      split <;> rfl
    simp only [add_apply, smul_apply, sub_apply, ContinuousLinearMap.proj_apply, smul_eq_mul, Function.comp, ite1]
    have e2 : (∑ i' : Fin ls.sum, if memberOf ls i' = memberOf ls i then attention ls s i' * v i' else 0) =
        (∑ i' : Fin ls.sum, if memberOf ls i' = memberOf ls i then exp (s i') * v i' else 0) /
          ∑ i' : Fin ls.sum, if memberOf ls i' = memberOf ls i then exp (s i') else 0 := by
      rw [Finset.sum_div]
      refine Finset.sum_congr rfl fun i' _ => ?_
      split
      · rename_i h
        rw [attention, h]
        ring
      · rw [zero_div]
    rw [e2, attention]
    have := (hS i).ne'
    field_simp
    ring
  refine ⟨_, hasFDerivAt_pi.2 hk, fun d v => ?_⟩
  have e : ∀ i, (ContinuousLinearMap.pi fun i => attention ls s i • ((ContinuousLinearMap.proj i : (Fin ls.sum → ℝ) →L[ℝ] ℝ) -
        ∑ i' : Fin ls.sum, if memberOf ls i' = memberOf ls i then
          attention ls s i' • (ContinuousLinearMap.proj i' : (Fin ls.sum → ℝ) →L[ℝ] ℝ) else 0)) v i =
      attention ls s i * (v i - ∑ i' : Fin ls.sum, if memberOf ls i' = memberOf ls i then attention ls s i' * v i' else 0) := by
    intro i
    simp only [ContinuousLinearMap.coe_pi', smul_apply, sub_apply, _root_.sum_apply, smul_eq_mul, ContinuousLinearMap.proj_apply]
    congr 2
    refine Finset.sum_congr rfl fun i' _ => ?_
    split <;> rfl
  simp only [dot_pi, dot_real]
  simp only [e]
  have h1 : ∀ i : Fin ls.sum, (attention ls s i * d i - attention ls s i *
      ∑ i' : Fin ls.sum, if memberOf ls i' = memberOf ls i then attention ls s i' * d i' else 0) * v i =
      attention ls s i * d i * v i - ∑ i' : Fin ls.sum, if memberOf ls i' = memberOf ls i then
        attention ls s i * attention ls s i' * d i' * v i else 0 := by
    intro i
    rw [sub_mul, Finset.mul_sum, Finset.sum_mul]
    congr 1
    refine Finset.sum_congr rfl fun i' _ => ?_
    split <;> ring
  have h2 : ∀ i : Fin ls.sum, d i * (attention ls s i * (v i -
      ∑ i' : Fin ls.sum, if memberOf ls i' = memberOf ls i then attention ls s i' * v i' else 0)) =
      attention ls s i * d i * v i - ∑ i' : Fin ls.sum, if memberOf ls i' = memberOf ls i then
        attention ls s i * attention ls s i' * d i * v i' else 0 := by
    intro i
    rw [mul_sub, mul_sub, Finset.mul_sum, Finset.mul_sum]
    congr 1
    · ring
    · refine Finset.sum_congr rfl fun i' _ => ?_
      split <;> ring
  simp only [h1, h2, Finset.sum_sub_distrib]
  congr 1
  rw [Finset.sum_comm]
  refine Finset.sum_congr rfl fun i _ => Finset.sum_congr rfl fun i' _ => ?_
  by_cases h : memberOf ls i = memberOf ls i'
  · rw [if_pos h, if_pos h.symm]; ring
  · rw [if_neg h, if_neg (Ne.symm h)]

end Thinc
