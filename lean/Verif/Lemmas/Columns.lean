import Verif.Lemmas.Layer
import Mathlib.Topology.Algebra.Module.FiniteDimension
/-! # Arrays side by side -/
namespace Thinc
open Spec Spec.Tensor

variable {n : ℕ}

/-- A linear function given by its values. -/
theorem IsVJP_linear' {E F : Type} [NormedAddCommGroup E] [NormedSpace ℝ E] [Tensor E] [FiniteDimensional ℝ E]
    [NormedAddCommGroup F] [NormedSpace ℝ F] [Tensor F] {f : E → F} {x : E} {back : F → E}
    (hadd : ∀ x y, f (x + y) = f x + f y) (hsmul : ∀ (a : ℝ) x, f (a • x) = a • f x)
    (h : ∀ dy v, dot (back dy) v = dot dy (f v)) : IsVJP f x back :=
  IsVJP_linear (LinearMap.toContinuousLinearMap { toFun := f, map_add' := hadd, map_smul' := hsmul }) x back h

theorem IsVJP_append {w w' : ℕ} (x : (Fin n → Fin w → ℝ) × (Fin n → Fin w' → ℝ)) :
    IsVJP (fun (x : (Fin n → Fin w → ℝ) × (Fin n → Fin w' → ℝ)) r => Fin.append (x.1 r) (x.2 r)) x
      (fun dy => (fun r c => dy r (Fin.castAdd w' c), fun r c => dy r (Fin.natAdd w c))) := by
  refine IsVJP_linear' (fun x y => ?_) (fun a x => ?_) fun dy v => ?_
  · funext r c
    refine Fin.addCases (fun c => ?_) (fun c => ?_) c <;> simp
  · funext r c
    refine Fin.addCases (fun c => ?_) (fun c => ?_) c <;> simp
  · simp only [dot_prod, dot_pi, dot_real]
    rw [← Finset.sum_add_distrib]
    refine Finset.sum_congr rfl fun r _ => ?_
    rw [Fin.sum_univ_add]
    simp

theorem Spec.IsMat.hstack2 {A B : Mat ℝ} {w w' : ℕ} {a : Fin n → Fin w → ℝ} {b : Fin n → Fin w' → ℝ} (hA : IsMat A a)
    (hB : IsMat B b) : ∃ C, Thinc.hstack2 A B = .ok C ∧ IsMat C (fun r => Fin.append (a r) (b r)) := by
  refine ⟨_, if_pos (hA.1.trans hB.1.symm), ?_⟩
  rw [hA.1, hA.2.1, hB.2.1]
  refine isMat_ofFn' _ _ fun i j => ?_
  refine Fin.addCases (fun c => ?_) (fun c => ?_) j
  · rw [Fin.append_left, if_pos (by simp)]
    exact hA.2.2 i c
  · rw [Fin.append_right, if_neg (by simp), Fin.val_natAdd, Nat.add_sub_cancel_left]
    exact hB.2.2 i c

theorem Spec.IsMat.append_assoc {C : Mat ℝ} {u v w : ℕ} {a : Fin n → Fin u → ℝ} {b : Fin n → Fin v → ℝ}
    {c : Fin n → Fin w → ℝ} (h : IsMat C (fun r => Fin.append (Fin.append (a r) (b r)) (c r))) :
    IsMat C (fun r => Fin.append (a r) (Fin.append (b r) (c r))) := by
  refine ⟨h.1, by rw [h.2.1]; omega, fun i j => ?_⟩
  have e := h.2.2 i (j.cast (by omega))
  simp only [Fin.append_assoc] at e
  simpa using e

/-- A block of columns. -/
theorem isMat_colBlock (D : Mat ℝ) (hD : D.rows = n) (start w : ℕ) (h : start + w ≤ D.cols) :
    IsMat (D.colBlock start (start + w)) (fun (r : Fin n) (c : Fin w) => D.at r (start + c)) := by
  unfold Mat.colBlock
  rw [Nat.min_eq_left h, Nat.min_eq_left (by omega), Nat.add_sub_cancel_left, hD]
  exact isMat_ofFn _

/-! ### Arrays one above the other -/

theorem vstack_fold (m : ℕ) (As : List (Mat ℝ)) (A : Mat ℝ) (hA : A.cols = m) (hAs : ∀ B ∈ As, B.cols = m) :
    ∃ C, forM' As A vstack2 = .ok C ∧ C.rows = A.rows + (As.map Mat.rows).sum ∧ C.cols = m ∧
      (∀ i j, i < A.rows → j < m → C.at i j = A.at i j) ∧
      ∀ (b : ℕ) (hb : b < As.length) (r j : ℕ), r < As[b].rows → j < m →
        C.at (A.rows + ((As.map Mat.rows).take b).sum + r) j = As[b].at r j := by
  induction As generalizing A with
  | nil => exact ⟨A, rfl, by simp, hA, fun _ _ _ _ => rfl, fun b hb => absurd hb (by simp)⟩
  | cons B As ih =>
    have hB := hAs B (by simp)
    let A' : Mat ℝ := Mat.ofFn (A.rows + B.rows) A.cols (fun i j => if i < A.rows then A.at i j else B.at (i - A.rows) j)
    have e : vstack2 A B = .ok A' := if_pos (hA.trans hB.symm)
    obtain ⟨C, eC, hr, hc, h1, h2⟩ := ih A' hA (fun D hD => hAs D (by simp [hD]))
    have hA' : ∀ i j, j < m → A'.at i j = if i < A.rows then A.at i j else B.at (i - A.rows) j := fun i j hj =>
      ofFn_at _ _ _ _ _ (by omega)
    have hrows : A'.rows = A.rows + B.rows := rfl
    refine ⟨C, by simp only [forM', e, eC], ?_, hc, ?_, ?_⟩
    · rw [hr, hrows, List.map_cons, List.sum_cons]
      omega
    · intro i j hi hj
      rw [h1 i j (by omega) hj, hA' i j hj, if_pos hi]
    · intro b hb r j hrb hj
      cases b with
      | zero =>
        simp only [List.getElem_cons_zero] at hrb ⊢
        rw [List.take_zero, List.sum_nil, Nat.add_zero, h1 _ j (by omega) hj, hA' _ j hj, if_neg (by omega)]
        congr 1
        omega
      | succ b =>
        simp only [List.getElem_cons_succ] at hrb ⊢
        rw [← h2 b (by simpa using hb) r j hrb hj, hrows]
        congr 1
        simp only [List.map_cons, List.take_succ_cons, List.sum_cons]
        omega

theorem Spec.IsParts.vstack {As : List (Mat ℝ)} {lengths : List ℕ} {m : ℕ} {x : Fin lengths.sum → Fin m → ℝ}
    (h : IsParts As lengths x) (hne : lengths ≠ []) : ∃ C, Thinc.vstack As = .ok C ∧ IsMat C x := by
  obtain ⟨hl, hc, hx⟩ := h
  cases As with
  | nil => exact absurd hl.symm hne
  | cons A As =>
    obtain ⟨C, e, hr, hcC, h1, h2⟩ := vstack_fold m As A (hc A (by simp)) (fun B hB => hc B (by simp [hB]))
    have hsum : A.rows + (As.map Mat.rows).sum = lengths.sum := by rw [← hl]; simp
    refine ⟨C, e, hr.trans hsum, hcC, fun i j => ?_⟩
    by_cases hi : (i : ℕ) < A.rows
    · rw [h1 i j hi j.2]
      exact hx 0 (by simp) i i j hi (by simp)
    · -- find the part
      have key : ∀ (Bs : List (Mat ℝ)) (k : ℕ), k < (Bs.map Mat.rows).sum → ∃ (b : ℕ) (hb : b < Bs.length) (r : ℕ),
          r < Bs[b].rows ∧ k = ((Bs.map Mat.rows).take b).sum + r := by
        intro Bs
        induction Bs with
        | nil => intro k hk; simp at hk
        | cons B Bs ih =>
          intro k hk
          by_cases hkB : k < B.rows
          · exact ⟨0, by simp, k, by simpa using hkB, by simp⟩
          · obtain ⟨b, hb, r, hr, hk'⟩ := ih (k - B.rows) (by simp at hk; omega)
            refine ⟨b + 1, by simpa using hb, r, by simpa using hr, ?_⟩
            simp only [List.map_cons, List.take_succ_cons, List.sum_cons]
            omega
      obtain ⟨b, hb, r, hrb, hk⟩ := key As (i - A.rows) (by have := i.2; omega)
      have e1 : (i : ℕ) = A.rows + ((As.map Mat.rows).take b).sum + r := by omega
      rw [e1, h2 b hb r j hrb j.2]
      refine hx (b + 1) (by simpa using hb) r i j (by simpa using hrb) ?_
      rw [e1, ← hl]
      simp only [List.map_cons, List.take_succ_cons, List.sum_cons]

theorem matUnflatten_length (A : Mat ℝ) (lengths : List ℕ) (start : ℕ) :
    (matUnflatten A lengths start).length = lengths.length := by
  induction lengths generalizing start with
  | nil => rfl
  | cons n ns ih => simp [matUnflatten, ih]

theorem matUnflatten_getElem (A : Mat ℝ) (lengths : List ℕ) (start b : ℕ) (hb : b < (matUnflatten A lengths start).length) :
    (matUnflatten A lengths start)[b] = A.rowBlock (start + (lengths.take b).sum)
      (start + (lengths.take b).sum + lengths[b]'(by rwa [matUnflatten_length] at hb)) := by
  induction lengths generalizing start b with
  | nil => simp [matUnflatten] at hb
  | cons n ns ih =>
    cases b with
    | zero => simp [matUnflatten]
    | succ b =>
      simp only [matUnflatten, List.getElem_cons_succ, List.take_succ_cons, List.sum_cons]
      rw [ih]
      simp only [Nat.add_assoc]

theorem take_sum_le (l : List ℕ) (b : ℕ) (hb : b < l.length) : (l.take b).sum + l[b] ≤ l.sum := by
  induction l generalizing b with
  | nil => simp at hb
  | cons a l ih =>
    cases b with
    | zero => simp
    | succ b =>
      have := ih b (by simpa using hb)
      simp only [List.take_succ_cons, List.sum_cons, List.getElem_cons_succ]
      omega

theorem Spec.IsMat.unflatten {A : Mat ℝ} {lengths : List ℕ} {m : ℕ} {x : Fin lengths.sum → Fin m → ℝ} (h : IsMat A x) :
    IsParts (matUnflatten A lengths 0) lengths x := by
  have hget : ∀ (b : ℕ) (hb : b < (matUnflatten A lengths 0).length),
      (matUnflatten A lengths 0)[b].rows = lengths[b]'(by rwa [matUnflatten_length] at hb) ∧
      (matUnflatten A lengths 0)[b].cols = m ∧
      ∀ r j, j < m → (matUnflatten A lengths 0)[b].at r j = A.at ((lengths.take b).sum + r) j := by
    intro b hb
    have hb' : b < lengths.length := by rwa [matUnflatten_length] at hb
    have hle := take_sum_le lengths b hb'
    rw [matUnflatten_getElem, Nat.zero_add]
    unfold Mat.rowBlock
    rw [h.1, Nat.min_eq_left hle, Nat.min_eq_left (by omega), Nat.add_sub_cancel_left]
    refine ⟨rfl, h.2.1, fun r j hj => ?_⟩
    rw [ofFn_at _ _ _ _ _ (by rw [h.2.1]; exact hj)]
  refine ⟨?_, ?_, ?_⟩
  · refine List.ext_getElem (by simp [matUnflatten_length]) fun b h1 h2 => ?_
    rw [List.getElem_map]
    exact (hget b (by simpa using h1)).1
  · intro B hB
    obtain ⟨b, hb, rfl⟩ := List.getElem_of_mem hB
    exact (hget b hb).2.1
  · intro b hb r i j hr hi
    rw [(hget b hb).2.2 r j j.2, ← hi]
    exact h.2.2 i j
end Thinc
