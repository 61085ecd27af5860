import Verif.Model.Uniqued
import Verif.Props.Embed
import Verif.Props.Chain
/-!
# C60: uniqued
-/
namespace Thinc
open Spec Spec.Tensor

section
variable {N : ℕ} {sh : Fin N → ℕ × ℕ} {θ : Params sh}

/-- To show that a layer is exact if the vector-Jacobian product depends on the representation of the input. -/
theorem Spec.Exact.intro' {E F : Type} [NormedAddCommGroup E] [NormedSpace ℝ E] [Tensor E]
    [NormedAddCommGroup F] [NormedSpace ℝ F] [Tensor F] {L : Layer} {train : Bool} {K : Kind E} {M : Kind F}
    {f : Params sh × E → F} {x : E}
    (h : ∀ P v, IsParams P θ → K.val v x → ∃ r, L train P v = .ok r ∧ M.val r.1 (f (θ, x)) ∧
      ∃ back, IsVJP f (θ, x) back ∧ ∀ dv dy G g, M.grad dv dy → IsGrads G g → ∃ dv' G',
        r.2 dv G = .ok (dv', G') ∧ K.grad dv' (back dy).2 ∧ IsGrads G' (g + (back dy).1)) :
    Exact L train K M f θ x := fun P v hP hv => by
  obtain ⟨r, h1, h2, back, h3, h4⟩ := h P v hP hv
  exact ⟨r.1, r.2, back, h1, h2, h3, h4⟩

/-! ### numpy.unique -/

theorem mem_unique (keys : List ℤ) (k : ℤ) : k ∈ (npUnique keys).1 ↔ k ∈ keys := by
  simp [npUnique]

theorem unique_inverse (keys : List ℤ) :
    ∃ inv : Fin keys.length → Fin (npUnique keys).1.length,
      (npUnique keys).2.2.1 = List.ofFn (fun i => (inv i : ℕ)) ∧ ∀ i, (npUnique keys).1[inv i] = keys[i] := by
  have hlt : ∀ i : Fin keys.length, (npUnique keys).1.idxOf keys[i] < (npUnique keys).1.length := fun i =>
    List.idxOf_lt_length_iff.2 ((mem_unique keys _).2 (List.getElem_mem _))
  refine ⟨fun i => ⟨_, hlt i⟩, ?_, fun i => List.getElem_idxOf (hlt i)⟩
  refine List.ext_getElem (by simp [npUnique]) fun i h1 h2 => ?_
  simp [npUnique]

theorem unique_index (keys : List ℤ) :
    ∃ ind : Fin (npUnique keys).1.length → Fin keys.length,
      (npUnique keys).2.1 = List.ofFn (fun i => (ind i : ℕ)) ∧ ∀ i, keys[ind i] = (npUnique keys).1[i] := by
  have hlt : ∀ i : Fin (npUnique keys).1.length, keys.idxOf (npUnique keys).1[i] < keys.length := fun i =>
    List.idxOf_lt_length_iff.2 ((mem_unique keys _).1 (List.getElem_mem _))
  refine ⟨fun i => ⟨_, hlt i⟩, ?_, fun i => List.getElem_idxOf (hlt i)⟩
  refine List.ext_getElem (by simp [npUnique]) fun i h1 h2 => ?_
  simp [npUnique]

/-- `X[is]` for positions given by a function. -/
theorem takeRows_fn {K : Type} [Semiring K] {n k : ℕ} (X : Mat K) (hX : X.rows = n) (is : Fin k → Fin n) :
    ∃ Y, X.takeRows ((List.ofFn fun i => (is i : ℕ)).map Int.ofNat) = .ok Y ∧ Y.rows = k ∧ Y.cols = X.cols ∧
      ∀ (b : Fin k), ∀ o < X.cols, Y.at b o = X.at (is b) o := by
  obtain ⟨Y, e, r, c, h⟩ := takeRows_spec X (List.ofFn fun i => (is i : ℕ)) (by
    intro i hi
    rw [List.mem_ofFn] at hi
    obtain ⟨r, rfl⟩ := hi
    rw [hX]; exact (is r).2)
  refine ⟨Y, e, by rw [r]; simp, c, fun b o ho => ?_⟩
  rw [h b (by simp) o ho]
  simp

/-- Scattering into an array of zeros, positions given by a function. -/
theorem scatterAdd_fn (fast : Bool) {n k w : ℕ} (is : Fin k → Fin n) {D : Mat ℝ} {d : Fin k → Fin w → ℝ} (hD : IsMat D d) :
    ∃ S, scatterAdd fast (Mat.zeros n w) ((List.ofFn fun i => (is i : ℕ)).map Int.ofNat) D = .ok S ∧
      IsMat S (fun (r : Fin n) j => ∑ i, if is i = r then d i j else 0) := by
  obtain ⟨S, eS, rS, cS, hS⟩ := C42_scatter_add fast (Mat.zeros n w) D ((List.ofFn fun i => (is i : ℕ)).map Int.ofNat)
    (by rw [hD.1]; simp) (by rw [hD.2.1]; rfl) (by
      intro i hi
      rw [List.mem_map] at hi
      obtain ⟨i, hi, rfl⟩ := hi
      rw [List.mem_ofFn] at hi
      obtain ⟨r, rfl⟩ := hi
      have := (is r).2
      simp only [Mat.zeros, Int.ofNat_eq_natCast]
      omega)
  refine ⟨S, eS, rS, cS, fun r j => ?_⟩
  rw [hS r r.2 j j.2]
  simp only [Mat.zeros, Mat.at, zero_add, List.length_map, List.length_ofFn]
  rw [Finset.sum_range]
  refine Finset.sum_congr rfl fun i _ => ?_
  simp only [List.getD_eq_getElem?_getD, List.getElem?_map, List.getElem?_ofFn, i.2, dite_true, Option.map_some, Option.getD_some]
  by_cases hr : is i = r
  · rw [if_pos hr, if_pos (by rw [hr]; rfl)]
    exact hD.2.2 i j
  · rw [if_neg hr]
    exact if_neg fun c => hr (Fin.ext (Int.ofNat.inj c))

/-- A gradient of an integer array, as floats, is zero. -/
theorem toFloats_zero {B : Mat ℤ} {v : Val} {x : Fin 0 → ℝ} (h : (Kind.intMat B).grad v x) :
    ∃ Z, v.toFloats = .ok Z ∧ IsMat Z (fun (_ : Fin B.rows) (_ : Fin B.cols) => (0 : ℝ)) := by
  rcases h with ⟨Z, rfl, hr, hc, hz⟩ | ⟨Z, rfl, hr, hc, hz⟩
  · refine ⟨_, rfl, ?_⟩
    rw [hr, hc]
    exact isMat_ofFn' _ _ fun i j => by rw [hz i i.2 j j.2]; simp
  · exact ⟨Z, rfl, hr, hc, fun i j => hz i i.2 j j.2⟩

/-- If a layer, on every array made of rows of an integer array `A`, maps every row to a vector that depends only on the
entry in one column, exactly, then `uniqued` of it computes the same function of `A`, with the same gradients.  The
array has at least one row. -/
theorem C60_uniqued {A : Mat ℤ} (hA : 0 < A.rows) {c : ℕ} (hc : c < A.cols) {w : ℕ} {L : Layer} {train : Bool}
    {φ : Params sh → ℤ → Fin w → ℝ} {x : Fin 0 → ℝ} (fast : Bool)
    (h : ∀ B : Mat ℤ, 0 < B.rows → B.cols = A.cols → (∀ i < B.rows, ∃ i' < A.rows, ∀ j < A.cols, B.at i j = A.at i' j) →
      Exact L train (Kind.intMat B) (Kind.arr B.rows w) (fun p i => φ p.1 (B.at i c)) θ x) :
    Exact (uniqued L c fast) train (Kind.intMat A) (Kind.arr A.rows w) (fun p i => φ p.1 (A.at i c)) θ x := by
  refine Exact.intro' ?_
  rintro P _ hP ⟨A', rfl, hr, hcol, hat⟩
  by_cases hs : A'.rows * A'.cols < 2
  · obtain ⟨v', cb, back, e, hv, hb, hg⟩ := h A hA rfl (fun i hi => ⟨i, hi, fun _ _ => rfl⟩) P _ hP ⟨A', rfl, hr, hcol, hat⟩
    refine ⟨(v', cb), ?_, hv, back, hb, hg⟩
    simp only [uniqued, if_pos hs, e]
  have hidx : npIndex A'.cols c = .ok c := by
    unfold npIndex
    rw [if_pos ⟨by omega, by omega⟩]
    simp
  set keys := A'.column c with hkeys
  have hlen : keys.length = A.rows := by rw [hkeys, column_length, hr]
  have hkey : ∀ i : Fin keys.length, keys[i] = A.at i c := fun i => by
    simp only [hkeys, Mat.column, Fin.getElem_fin, List.getElem_map, List.getElem_range]
    exact hat i (by omega) c hc
  obtain ⟨ind, eind, hind⟩ := unique_index keys
  obtain ⟨inv, einv, hinv⟩ := unique_inverse keys
  obtain ⟨B, eB, rB, cB, hB⟩ := takeRows_fn A' (hr.trans hlen.symm) ind
  have hu : 0 < (npUnique keys).1.length := (inv ⟨0, by omega⟩).pos
  obtain ⟨v', cb, back, e, ⟨Y, rfl, hY⟩, hb, hg⟩ := h B (by omega) (by rw [cB, hcol]) (fun i hi =>
    ⟨ind ⟨i, by omega⟩, by have := (ind ⟨i, by omega⟩).2; omega, fun j hj => by
      rw [hB ⟨i, by omega⟩ j (by omega)]; exact hat _ (by have := (ind ⟨i, by omega⟩).2; omega) j hj⟩) P (.intMat B) hP
    ⟨B, rfl, rfl, rfl, fun _ _ _ _ => rfl⟩
  let inv' : Fin A.rows → Fin B.rows := fun i => (inv (i.cast hlen.symm)).cast rB.symm
  have hkB : ∀ i : Fin A.rows, B.at (inv' i) c = A.at i c := fun i => by
    have h1 := hB (inv (i.cast hlen.symm)) c (by omega)
    have h2 := hind (inv (i.cast hlen.symm))
    have h3 := hinv (i.cast hlen.symm)
    have h4 := hkey (i.cast hlen.symm)
    have h5 := hkey (ind (inv (i.cast hlen.symm)))
    have h6 := hat (ind (inv (i.cast hlen.symm))) (by have := (ind (inv (i.cast hlen.symm))).2; omega) c hc
    show B.at (inv (i.cast hlen.symm)) c = _
    rw [h1, h6, ← h5, h2, h3, h4]
    rfl
  have einv' : (npUnique keys).2.2.1 = List.ofFn (fun i => (inv' i : ℕ)) := by
    rw [einv]
    refine List.ext_getElem (by simp [hlen]) fun i h1 h2 => ?_
    simp [inv']
  obtain ⟨Z, eZ, rZ, cZ, hZ⟩ := takeRows_fn Y hY.1 inv'
  apply ok_intro
  · simp only [uniqued, if_neg hs, hidx, bind, Except.bind, ← hkeys, eind, eB, e, Val.asArr, einv', eZ, pure, Except.pure]
    rfl
  · have hback : IsVJP (fun (p : Params sh × (Fin 0 → ℝ)) (i : Fin A.rows) => φ p.1 (A.at i c)) (θ, x)
        (fun dy => back fun r j => ∑ _k : Fin 1, ∑ i, if inv' i = r then dy i j * 1 else 0) := by
      have h1 := IsVJP_comp (f := fun (p : Params sh × (Fin 0 → ℝ)) (i : Fin B.rows) => φ p.1 (B.at i c))
        (IsVJP_lookup (K := 1) (fun i _ => inv' i) (fun _ : Fin w => 1) (fun i => φ θ (B.at i c))) hb
      refine IsVJP_congr h1 fun p => ?_
      funext i j
      simp [hkB]
    refine ⟨⟨Z, rfl, rZ, by rw [cZ, hY.2.1], fun i j => ?_⟩, _, hback, ?_⟩
    · rw [hZ i j (by rw [hY.2.1]; exact j.2), hY.2.2]
      show φ θ (B.at (inv' i) c) j = φ θ (A.at i c) j
      rw [hkB]
    · rintro _ dy G g ⟨D, rfl, hD⟩ hG
      obtain ⟨S, eS, hS⟩ := scatterAdd_fn fast inv' hD
      have hS' : IsMat S (fun r j => ∑ _k : Fin 1, ∑ i, if inv' i = r then dy i j * 1 else 0) := hS.congr fun r j => by simp
      have eS2 : scatterAdd fast (Mat.zeros Y.rows Y.cols) ((List.ofFn fun i => (inv' i : ℕ)).map Int.ofNat) D = .ok S := by
        rw [hY.1, hY.2.1]; exact eS
      obtain ⟨dv, G', eG, hdv, hG'⟩ := hg (.arr S) _ G g ⟨S, rfl, hS'⟩ hG
      obtain ⟨U, eU, hU⟩ := toFloats_zero hdv
      have hcounts : IsMat (Mat.ofFn (npUnique keys).2.2.2.length 1 fun i _ => ((npUnique keys).2.2.2.getD i 0 : ℝ))
          (fun (i : Fin B.rows) (_ : Fin 1) => ((npUnique keys).2.2.2.getD i 0 : ℝ)) := by
        rw [show (npUnique keys).2.2.2.length = B.rows by rw [rB]; simp [npUnique]]
        exact isMat_ofFn' _ _ fun _ _ => rfl
      obtain ⟨Q, eQ, hQ⟩ := hU.npBinary_col hcounts (· / ·)
      obtain ⟨R, eR, rR, cR, hR⟩ := takeRows_fn Q hQ.1 inv'
      refine ⟨.arr R, G', ?_, Or.inr ⟨R, rfl, rR, by rw [cR, hQ.2.1, cB, hcol], fun i hi j hj => ?_⟩, hG'⟩
      · simp only [Val.asArr, eS2, eG, eU, eQ, eR, bind, Except.bind, pure, Except.pure]
      · rw [hR ⟨i, hi⟩ j (by rw [hQ.2.1]; omega), hQ.2.2 (inv' ⟨i, hi⟩) ⟨j, by omega⟩]
        exact zero_div _

/-- Arrays with fewer than two entries are passed on to the layer. -/
theorem C60_small (L : Layer) (c : ℤ) (fast train : Bool) (P : ParamVals) (A : Mat ℤ) (h : A.rows * A.cols < 2) :
    uniqued L c fast train P (.intMat A) = L train P (.intMat A) := if_pos h

/-! ### Embed with a column -/

/-- Selecting a column of an integer array with at least one row. -/
theorem intsGetitemColumn_exact {A : Mat ℤ} (hA : 0 < A.rows) {c : ℕ} (hc : c < A.cols) (train : Bool) (x : Fin 0 → ℝ) :
    Exact (intsGetitemColumn c) train (Kind.intMat A) (Kind.ints (List.ofFn fun i : Fin A.rows => A.at i c))
      (fun p : Params sh × (Fin 0 → ℝ) => p.2) θ x := by
  refine Exact.intro (IsVJP_snd (θ, x)) ?_
  rintro P _ hP ⟨A', rfl, hr, hcol, hat⟩
  have hidx : npIndex A'.cols c = .ok c := by
    unfold npIndex
    rw [if_pos ⟨by omega, by omega⟩]
    simp
  have hr' : A'.rows ≠ 0 := by omega
  have hcolumn : A'.column c = List.ofFn fun i : Fin A.rows => A.at i c := by
    refine List.ext_getElem (by simp [Mat.column, hr]) fun i h1 h2 => ?_
    simp only [List.length_ofFn] at h2
    simp only [Mat.column, List.getElem_map, List.getElem_range, List.getElem_ofFn]
    exact hat i h2 c hc
  apply ok_intro
  · simp only [intsGetitemColumn, hidx, hr', if_false, bind, Except.bind, pure, Except.pure]
    rfl
  · refine ⟨congrArg Val.ints hcolumn, ?_⟩
    rintro _ dy G g rfl hG
    refine ⟨.intMat (Mat.ofFn A'.rows A'.cols fun _ _ => 0), G, ?_, Or.inl ⟨_, rfl, hr, hcol, fun i _ j hj => ?_⟩, by simpa using hG⟩
    · have hl : ((List.ofFn fun i : Fin A.rows => A.at i c).map fun _ => (0 : ℤ)).length = A'.rows := by simp [hr]
      simp only [Val.asInts, hl, not_true_eq_false, ne_eq, if_false]
      congr 4
      funext i j
      split
      · simp only [List.getD_eq_getElem?_getD, List.getElem?_map]
        cases (List.ofFn fun i : Fin A.rows => A.at i c)[i]? <;> rfl
      · rfl
    · rw [ofFn_at _ _ _ _ _ (by omega)]

/-- Embed with a column returns for every row of an integer array the table row of its entry in that column, with
exact gradients, for every array with at least one row whose entries in the column are rows of the table.  Missing:
arrays without rows, which are not indexed, and negative ids. -/
theorem C58_embed_column_partial {V O c : ℕ} (E : Fin N) (hE : sh E = (V, O)) (dropout : Option ℝ) (coinflips : ℕ → ℕ → ℝ)
    (fast train : Bool) {A : Mat ℤ} (hA : 0 < A.rows) (hc : c < A.cols) (row : ℤ → Fin V)
    (hrow : ∀ i < A.rows, ((row (A.at i c) : ℕ) : ℤ) = A.at i c) (x : Fin 0 → ℝ) :
    Exact (embedColumn c E dropout coinflips fast) train (Kind.intMat A) (Kind.arr A.rows O)
      (fun p i j => p.1.get E hE (row (A.at i c)) j * embedFactor train dropout coinflips j) θ x := by
  have h1 := intsGetitemColumn_exact (θ := θ) hA hc train x
  have h2 := C58_embed_partial E hE dropout coinflips fast train (fun i : Fin A.rows => row (A.at i c)) θ x
  have e : (List.ofFn fun i : Fin A.rows => ((row (A.at i c) : ℕ) : ℤ)) = List.ofFn fun i : Fin A.rows => A.at i c := by
    congr 1; funext i; exact hrow i i.2
  rw [e] at h2
  exact C51_chain (ExactChain.cons h1 (ExactChain.one h2))

/-- `uniqued` of an Embed layer computes the same function as the layer, with the same gradients. -/
theorem C60_embed {V O c : ℕ} (E : Fin N) (hE : sh E = (V, O)) (dropout : Option ℝ) (coinflips : ℕ → ℕ → ℝ)
    (fast train : Bool) {A : Mat ℤ} (hA : 0 < A.rows) (hc : c < A.cols) (row : ℤ → Fin V)
    (hrow : ∀ i < A.rows, ((row (A.at i c) : ℕ) : ℤ) = A.at i c) (x : Fin 0 → ℝ) :
    Exact (uniqued (embedColumn c E dropout coinflips fast) c fast) train (Kind.intMat A) (Kind.arr A.rows O)
      (fun p i j => p.1.get E hE (row (A.at i c)) j * embedFactor train dropout coinflips j) θ x := by
  refine C60_uniqued (φ := fun θ k j => θ.get E hE (row k) j * embedFactor train dropout coinflips j) hA hc fast
    fun B hB hcB hsub => ?_
  refine C58_embed_column_partial E hE dropout coinflips fast train hB (by omega) row (fun i hi => ?_) x
  obtain ⟨i', hi', e⟩ := hsub i hi
  rw [e c hc]
  exact hrow i' hi'

end

/-- Four rows whose second column holds the ids 2, 0, 2, 1 of a table with three rows. -/
def exUniq : Mat ℤ := Mat.ofFn 4 2 fun i j => if j = 0 then 7 else [2, 0, 2, 1].getD i 0

example : Exact (sh := fun _ : Fin 1 => (3, 2)) (uniqued (embedColumn 1 0 none (fun _ _ => 0) true) 1 true) true
    (Kind.intMat exUniq) (Kind.arr 4 2)
    (fun p i j => p.1.get 0 rfl (if exUniq.at i 1 = 0 then 0 else if exUniq.at i 1 = 1 then 1 else 2) j * 1)
    (fun _ i j => 10 * i + j) (fun k => k.elim0) :=
  C60_embed (V := 3) (O := 2) 0 rfl none (fun _ _ => 0) true true (A := exUniq) (by decide) (by decide)
    (fun k => if k = 0 then 0 else if k = 1 then 1 else 2) (by decide) _

/-- The keys 2, 0, 2, 1: sorted without repetitions 0, 1, 2, first positions 1, 3, 0, inverse 2, 0, 2, 1, counts 1, 1, 2. -/
example : npUnique [2, 0, 2, 1] = ([0, 1, 2], [1, 3, 0], [2, 0, 2, 1], [1, 1, 2]) := by
  simp [npUnique, List.mergeSort, List.idxOf, List.findIdx, List.findIdx.go]

end Thinc
