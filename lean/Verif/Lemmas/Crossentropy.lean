import Verif.Lemmas.Loss
import Mathlib.Analysis.SpecialFunctions.Log.Deriv
/-! # Lemmas about cross entropy -/
namespace Thinc
open Real Spec Finset

/-! ### Names -/

theorem nameFold_notMem (names : List PyStr) (s : PyStr) (h : s ∉ names) (k : Nat) (acc : Option Nat) :
    (names.zipIdx k).foldl (fun acc p => if p.1 = s then some p.2 else acc) acc = acc := by
  induction names generalizing k with
  | nil => rfl
  | cons x xs ih =>
    simp only [List.mem_cons, not_or] at h
    rw [List.zipIdx_cons, List.foldl_cons, if_neg (fun e => h.1 e.symm)]
    exact ih h.2 (k + 1)

theorem nameFold_getElem (names : List PyStr) (hn : names.Nodup) (j : Nat) (hj : j < names.length) (k : Nat)
    (acc : Option Nat) :
    (names.zipIdx k).foldl (fun acc p => if p.1 = names[j] then some p.2 else acc) acc = some (k + j) := by
  induction names generalizing k acc j with
  | nil => simp at hj
  | cons x xs ih =>
    have hx := List.nodup_cons.1 hn
    rw [List.zipIdx_cons, List.foldl_cons]
    cases j with
    | zero =>
      simp only [List.getElem_cons_zero, if_true]
      rw [nameFold_notMem xs x hx.1]
      rfl
    | succ j =>
      have hj' : j < xs.length := by simpa using hj
      simp only [List.getElem_cons_succ]
      have hne : x ≠ xs[j] := fun e => hx.1 (e ▸ List.getElem_mem hj')
      rw [if_neg hne, ih hx.2 j hj' (k + 1) acc]
      congr 1
      omega

theorem lookupName_getElem (names : List PyStr) (hn : names.Nodup) (j : Nat) (hj : j < names.length) :
    lookupName names names[j] = .ok j := by
  have h : nameToI names names[j] = some j := by
    unfold nameToI
    rw [nameFold_getElem names hn j hj 0 none, Nat.zero_add]
  unfold lookupName
  rw [h]

theorem lookupName_notMem (names : List PyStr) (s : PyStr) (h : s ∉ names) :
    lookupName names s = .error .keyError := by
  have e : nameToI names s = none := nameFold_notMem names s h 0 none
  unfold lookupName
  rw [e]

/-! ### Masks -/

theorem mem_positions {α : Type} (p : α → Bool) (xs : List α) (i : Nat) :
    i ∈ positions p xs ↔ ∃ h : i < xs.length, p xs[i] = true := by
  unfold positions
  rw [List.mem_filter, List.mem_range]
  constructor
  · rintro ⟨h, h2⟩
    rw [List.getElem?_eq_getElem h] at h2
    exact ⟨h, by simpa using h2⟩
  · rintro ⟨h, h2⟩
    refine ⟨h, ?_⟩
    rw [List.getElem?_eq_getElem h]
    simpa using h2

theorem makeMask_ok {α : Type} (G : Mat ℝ) (p : α → Bool) (xs : List α) (h : xs.length = G.rows) :
    ∃ m, makeMask G (positions p xs) = .ok m ∧ m.rows = G.rows ∧ m.cols = G.cols ∧
      ∀ (i : Nat) (hi : i < xs.length), ∀ k < G.cols, m.at i k = if p xs[i] = true then 0 else 1 := by
  unfold makeMask
  rw [if_pos (fun i hi => by obtain ⟨h1, _⟩ := (mem_positions p xs i).1 hi; omega)]
  refine ⟨_, rfl, rfl, rfl, fun i hi k hk => ?_⟩
  rw [ofFn_at _ _ _ _ _ hk]
  by_cases hp : p xs[i] = true
  · rw [if_pos hp, if_pos ((mem_positions p xs i).2 ⟨hi, hp⟩)]
  · rw [if_neg hp, if_neg (fun hm => hp ((mem_positions p xs i).1 hm).2)]

theorem ones_at (r c i k : Nat) (hk : k < c) : (Mat.ones r c).at i k = 1 := ofFn_at _ _ _ _ _ hk

theorem maskByValue_ok (G : Mat ℝ) (ts : List Int) (missing : Missing) (h : ts.length = G.rows) :
    ∃ m, makeMaskByValue (.intArray ts) G missing = .ok m ∧ m.rows = G.rows ∧ m.cols = G.cols ∧
      ∀ (i : Nat) (hi : i < ts.length), ∀ k < G.cols, (missing = .int ts[i] → m.at i k = 0) ∧
        (missing ≠ .int ts[i] → m.at i k = 1) := by
  cases missing with
  | int v =>
    simp only [makeMaskByValue, maskRows, if_pos h]
    refine ⟨_, rfl, rfl, rfl, fun i hi k hk => ?_⟩
    rw [ofFn_at _ _ _ _ _ hk]
    have e0 : ts[i]? = some ts[i] := List.getElem?_eq_getElem hi
    exact ⟨fun e => if_pos (by rw [e0, Missing.int.inj e]), fun e => if_neg (fun e2 => e (by
      rw [e0] at e2
      rw [Option.some.inj e2]))⟩
  | none => exact ⟨_, rfl, rfl, rfl, fun i hi k hk => ⟨by simp, fun _ => ones_at _ _ _ _ hk⟩⟩
  | str s => exact ⟨_, rfl, rfl, rfl, fun i hi k hk => ⟨by simp, fun _ => ones_at _ _ _ _ hk⟩⟩

/-! ### The cross entropy as a function of the logits -/

theorem IsVJP_sum {ι : Type} [Fintype ι] (x : ι → ℝ) : IsVJP (fun x : ι → ℝ => ∑ i, x i) x (fun dy _ => dy) := by
  refine ⟨∑ i, ContinuousLinearMap.proj i, ?_, fun dy v => ?_⟩
  · exact HasFDerivAt.fun_sum fun i _ => hasFDerivAt_apply i x
  · simp [dot_pi, dot_real, Finset.mul_sum]

theorem IsVJP_xent {κ : Type} [Fintype κ] (t z : κ → ℝ) (ht : ∑ k, t k = 1) :
    IsVJP (fun z => crossEntropy t (Spec.softmax z)) z (fun dl k => dl * (Spec.softmax z k - t k)) := by
  have h1 : IsVJP (fun (y : κ → ℝ) k => t k * log (y k)) (Spec.softmax z) (fun dy k => dy k * (t k * (Spec.softmax z k)⁻¹)) := by
    refine IsVJP_pi (f := fun k y => t k * log y) (b := fun k dy => dy * (t k * (Spec.softmax z k)⁻¹)) fun k => ?_
    exact IsVJP_of_hasDerivAt ((hasDerivAt_log (specSoftmax_pos z k).ne').const_mul (t k))
  have h2 := IsVJP_comp (IsVJP_sum _) (IsVJP_comp h1 (IsVJP_softmax z))
  have h3 : IsVJP (fun x : ℝ => -x) (∑ k, t k * log (Spec.softmax z k)) (fun dy => dy * -1) :=
    IsVJP_of_hasDerivAt (hasDerivAt_neg _)
  refine IsVJP_congr₂ (IsVJP_comp h3 h2) (fun _ => rfl) fun dl => ?_
  funext k
  have hp := fun j => (specSoftmax_pos z j).ne'
  have e : ∀ j, Spec.softmax z j * (dl * -1 * (t j * (Spec.softmax z j)⁻¹)) = -dl * t j := fun j => by
    have := hp j
    field_simp
  simp only [e, ← Finset.mul_sum, ht]
  ring

end Thinc
