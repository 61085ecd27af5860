import Verif.Model.Embed
import Verif.Props.Dropout
import Verif.Props.Gather
import Verif.Props.PoolEnds
import Verif.Props.Hash
/-!
# C58: Embed and HashEmbed
-/
namespace Thinc
open Spec Spec.Tensor

/-- What an embedding layer multiplies column `j` of its output by. -/
noncomputable def Spec.embedFactor (train : Bool) (dropout : Option ℝ) (coinflips : ℕ → ℕ → ℝ) (j : ℕ) : ℝ :=
  match train, dropout with
  | true, some rate => keepFactor rate (coinflips 0 j)
  | _, _ => 1

section
variable {N : ℕ} {sh : Fin N → ℕ × ℕ} {n V O K : ℕ}

/-- Sums of selected rows of a table, with a factor for every column. -/
theorem IsVJP_lookup (rows : Fin n → Fin K → Fin V) (c : Fin O → ℝ) (T : Fin V → Fin O → ℝ) :
    IsVJP (fun (T : Fin V → Fin O → ℝ) i j => (∑ k, T (rows i k) j) * c j) T
      (fun dy r j => ∑ k, ∑ i, if rows i k = r then dy i j * c j else 0) := by
  refine IsVJP_linear' (fun x y => ?_) (fun a x => ?_) fun dy v => ?_
  · funext i j; simp [Finset.sum_add_distrib, add_mul]
  · funext i j; simp only [Pi.smul_apply, smul_eq_mul, ← Finset.mul_sum]; ring
  · simp only [dot_pi, dot_real, Finset.sum_mul, Finset.mul_sum]
    rw [Finset.sum_comm]
    conv_rhs => rw [Finset.sum_comm]
    refine Finset.sum_congr rfl fun j _ => ?_
    rw [Finset.sum_comm]
    conv_rhs => rw [Finset.sum_comm]
    refine Finset.sum_congr rfl fun k _ => ?_
    rw [Finset.sum_comm]
    refine Finset.sum_congr rfl fun i _ => ?_
    rw [Finset.sum_eq_single (rows i k)]
    · rw [if_pos rfl]; ring
    · intro r _ hr; rw [if_neg (Ne.symm hr), zero_mul]
    · simp

/-- The same, for a parameter of a model whose input is not differentiated. -/
theorem IsVJP_lookup_param (E : Fin N) (hE : sh E = (V, O)) (rows : Fin n → Fin K → Fin V) (c : Fin O → ℝ) (θ : Params sh)
    (x : Fin 0 → ℝ) :
    IsVJP (fun (p : Params sh × (Fin 0 → ℝ)) (i : Fin n) j => (∑ k, p.1.get E hE (rows i k) j) * c j) (θ, x)
      (fun dy => (Params.put E hE fun r j => ∑ k, ∑ i, if rows i k = r then dy i j * c j else 0, 0)) := by
  have h1 : IsVJP (fun p : Params sh × (Fin 0 → ℝ) => p.1.get E hE) (θ, x) _ :=
    IsVJP_comp (f := fun p : Params sh × (Fin 0 → ℝ) => p.1) (g := fun θ : Params sh => θ.get E hE) (IsVJP_get E hE θ)
      (IsVJP_fst (θ, x))
  have h2 : IsVJP (fun (p : Params sh × (Fin 0 → ℝ)) (i : Fin n) j => (∑ k, p.1.get E hE (rows i k) j) * c j) (θ, x) _ :=
    IsVJP_comp (f := fun p : Params sh × (Fin 0 → ℝ) => p.1.get E hE)
      (g := fun (T : Fin V → Fin O → ℝ) i j => (∑ k, T (rows i k) j) * c j) (IsVJP_lookup rows c (θ.get E hE)) h1
  exact h2

theorem Spec.IsMat.applyMask {A : Mat ℝ} {x : Fin n → Fin O → ℝ} (hA : IsMat A x) (train : Bool) (dropout : Option ℝ)
    (coinflips : ℕ → ℕ → ℝ) :
    ∃ B, Thinc.applyMask A (if train then some (getDropoutMask 1 O dropout coinflips) else none) = .ok B ∧
      IsMat B (fun i j => x i j * embedFactor train dropout coinflips j) := by
  cases train with
  | false => exact ⟨A, rfl, hA.congr fun i j => by simp [embedFactor]⟩
  | true =>
    cases dropout with
    | none =>
      have hM : IsMat (getDropoutMask 1 O none coinflips) (fun (_ : Fin 1) (_ : Fin O) => (1 : ℝ)) := isMat_ofFn' _ _ fun _ _ => rfl
      obtain ⟨B, eB, hB⟩ := hA.npUpdate_row hM (· * ·)
      exact ⟨B, eB, hB⟩
    | some rate =>
      obtain ⟨B, eB, hB⟩ := hA.npUpdate_row (isMat_dropoutMask (n := 1) (m := O) (rate := rate) (coin := coinflips)) (· * ·)
      exact ⟨B, eB, hB⟩

/-- Embed returns for every id its row of the table (with the dropout factors of the columns during training), adds
the gradient of every output row to the table row it was taken from, and returns zeros as the gradient of the ids.
The ids are any list of rows of the table, with repetitions; both code paths of `scatter_add` agree.  Missing:
negative ids, which numpy accepts (see `C58_negative_id`). -/
theorem C58_embed_partial (E : Fin N) (hE : sh E = (V, O)) (dropout : Option ℝ) (coinflips : ℕ → ℕ → ℝ) (fast train : Bool)
    (ids : Fin n → Fin V) (θ : Params sh) (x : Fin 0 → ℝ) :
    Exact (embed E dropout coinflips fast) train (Kind.ints (List.ofFn fun i => ((ids i : ℕ) : ℤ))) (Kind.arr n O)
      (fun p i j => p.1.get E hE (ids i) j * embedFactor train dropout coinflips j) θ x := by
  have hv := IsVJP_lookup_param E hE (K := 1) (fun i _ => ids i) (fun j : Fin O => embedFactor train dropout coinflips j) θ x
  have hv' := IsVJP_congr hv (g := fun (p : Params sh × (Fin 0 → ℝ)) (i : Fin n) (j : Fin O) =>
    p.1.get E hE (ids i) j * embedFactor train dropout coinflips j) fun p => by simp
  refine Exact.intro hv' ?_
  rintro P _ hP rfl
  have hT := hP.get E hE
  have eids : (List.ofFn fun i => ((ids i : ℕ) : ℤ)) = asInts (List.ofFn fun i => (ids i : ℕ)) := by
    unfold asInts; rw [List.map_ofFn]; rfl
  obtain ⟨Y, eY, rY, cY, hY⟩ := takeRows_spec (P E) (List.ofFn fun i => (ids i : ℕ)) (by
    intro i hi
    rw [List.mem_ofFn] at hi
    obtain ⟨r, rfl⟩ := hi
    rw [hT.1]; exact (ids r).2)
  have hY' : IsMat Y (fun i j => θ.get E hE (ids i) j) := by
    refine ⟨by rw [rY]; simp, by rw [cY, hT.2.1], fun i j => ?_⟩
    rw [hY i (by simp) j (by rw [hT.2.1]; exact j.2)]
    simp only [List.getD_eq_getElem?_getD, List.getElem?_ofFn, i.2, dite_true, Option.getD_some]
    exact hT.2.2 _ _
  obtain ⟨Z, eZ, hZ⟩ := hY'.applyMask train dropout coinflips
  rw [← hT.2.1] at eZ
  apply ok_intro
  · simp only [embed, Val.asInts, bind, Except.bind, eids, eY, eZ, pure, Except.pure]
    rfl
  · refine ⟨⟨Z, rfl, hZ⟩, ?_⟩
    rintro _ dy G g ⟨D, rfl, hD⟩ hG
    obtain ⟨M, eM, hM⟩ := hD.applyMask train dropout coinflips
    rw [← hT.2.1] at eM
    obtain ⟨S, eS, rS, cS, hS⟩ := C42_scatter_add fast (Mat.zeros (P E).rows (P E).cols) M (List.ofFn fun i => ((ids i : ℕ) : ℤ))
      (by rw [hM.1]; simp) (by rw [hM.2.1]; exact hT.2.1.symm) (by
        intro i hi
        rw [List.mem_ofFn] at hi
        obtain ⟨r, rfl⟩ := hi
        have := (ids r).2
        refine ⟨by omega, ?_⟩
        show ((ids r : ℕ) : ℤ) < ((P E).rows : ℤ)
        rw [hT.1]; omega)
    have hS' : IsMat S (fun (r : Fin V) (j : Fin O) => ∑ _k : Fin 1, ∑ i, if ids i = r then dy i j * embedFactor train dropout coinflips j else 0) := by
      refine ⟨by rw [rS]; exact hT.1, by rw [cS]; exact hT.2.1, fun r j => ?_⟩
      rw [hS r (by rw [show (Mat.zeros (P E).rows (P E).cols : Mat ℝ).rows = (P E).rows from rfl, hT.1]; exact r.2) j
        (by rw [show (Mat.zeros (P E).rows (P E).cols : Mat ℝ).cols = (P E).cols from rfl, hT.2.1]; exact j.2)]
      simp only [Mat.zeros, Mat.at, zero_add, List.length_ofFn, Finset.univ_unique, Finset.sum_const, Finset.card_singleton, one_smul]
      rw [Finset.sum_range]
      refine Finset.sum_congr rfl fun i _ => ?_
      simp only [List.getD_eq_getElem?_getD, List.getElem?_ofFn, i.2, dite_true, Option.getD_some]
      by_cases hr : ids i = r
      · rw [if_pos hr, if_pos (by rw [hr])]
        exact hM.2.2 i j
      · rw [if_neg hr, if_neg (fun c => hr (Fin.ext (by exact_mod_cast c)))]
    obtain ⟨G', eG', hG'⟩ := hG.incGrad E hE hS'
    rw [eids] at eS
    refine ⟨.ints ((asInts (List.ofFn fun i => (ids i : ℕ))).map fun _ => 0), G', ?_, by rw [← eids]; rfl, hG'⟩
    simp only [Val.asArr, eM, eS, eG', bind, Except.bind, pure, Except.pure]

/-- The four rows of a table with `V` rows that HashEmbed reads for an id. -/
def Spec.hashRow (hV : 0 < V) (seed : BitVec 32) (id : ℤ) (k : Fin 4) : Fin V :=
  ⟨(murmurHash (BitVec.ofInt 64 id) seed k).toNat % V, Nat.mod_lt _ hV⟩

/-- HashEmbed returns for every id the sum of its four rows of the table (with the dropout factors of the columns
during training), adds the gradient of every output row to each of the four rows, and returns zeros as the gradient
of the ids; for every nonempty list of ids, and every table with at least one row and one column.  Missing: the empty
list (`C58_hash_embed_empty`). -/
theorem C58_hash_embed_partial (hV : 0 < V) (hO : 0 < O) (ids : List ℤ) (hn : ids ≠ []) (E : Fin N) (hE : sh E = (V, O))
    (seed : BitVec 32) (dropout : Option ℝ) (coinflips : ℕ → ℕ → ℝ) (fast train : Bool) (θ : Params sh) (x : Fin 0 → ℝ) :
    Exact (hashEmbed E seed dropout coinflips fast) train (Kind.ints ids) (Kind.arr ids.length O)
      (fun p i j => (∑ k, p.1.get E hE (hashRow hV seed ids[i] k) j) * embedFactor train dropout coinflips j) θ x := by
  refine Exact.intro (IsVJP_lookup_param E hE (fun (i : Fin ids.length) k => hashRow hV seed ids[i] k)
    (fun j : Fin O => embedFactor train dropout coinflips j) θ x) ?_
  rintro P _ hP rfl
  have hT := hP.get E hE
  have hlen : ids.length ≠ 0 := fun h => hn (List.length_eq_zero_iff.1 h)
  obtain ⟨rK, cK, hK⟩ := C67_keys_in_range ids seed (P E).rows (by rw [hT.1]; exact hV)
  set keys := (hashIds ids seed).modInt (P E).rows with hkeys
  have hix : ∀ b < keys.rows, ∀ k < keys.cols, 0 ≤ keys.at b k ∧ keys.at b k < (P E).rows := fun b hb k hk =>
    (hK b (by omega) ⟨k, by omega⟩).2
  have hat : ∀ (i : Fin ids.length) (k : Fin 4), keys.at i k = ((hashRow hV seed ids[i] k : ℕ) : ℤ) := fun i k => by
    rw [(hK i i.2 k).1, hT.1]; rfl
  obtain ⟨Y, eY, rY, cY, hY⟩ := (C42_gather_add_partial (P E) keys (by rw [hT.1]; exact hV) (by rw [hT.2.1]; exact hO)
    (by omega) (by omega) (fun b hb k hk => ⟨(hix b hb k hk).1, by have := (hix b hb k hk).2; omega⟩)).1
    (fun b hb k hk => (hix b hb k hk).2)
  have hY' : IsMat Y (fun (i : Fin ids.length) j => ∑ k, θ.get E hE (hashRow hV seed ids[i] k) j) := by
    refine ⟨by rw [rY, rK], by rw [cY, hT.2.1], fun i j => ?_⟩
    rw [hY i (by rw [rK]; exact i.2) j (by rw [hT.2.1]; exact j.2), cK, Finset.sum_range]
    refine Finset.sum_congr rfl fun k _ => ?_
    rw [hat i k, Int.toNat_natCast]
    exact hT.2.2 _ _
  obtain ⟨Z, eZ, hZ⟩ := hY'.applyMask train dropout coinflips
  rw [← hT.2.1] at eZ
  apply ok_intro
  · simp only [hashEmbed, Val.asInts, bind, Except.bind, hlen, if_false, ← hkeys, eY, eZ, pure, Except.pure]
    rfl
  · refine ⟨⟨Z, rfl, hZ⟩, ?_⟩
    rintro _ dy G g ⟨D, rfl, hD⟩ hG
    obtain ⟨M, eM, hM⟩ := hD.applyMask train dropout coinflips
    rw [← hT.2.1] at eM
    obtain ⟨S, eS, rS, cS, hS⟩ := C42_scatter_columns fast (P E).rows (P E).cols keys M (by rw [hM.1, rK])
      (by rw [hM.2.1]; exact hT.2.1.symm) hix
    have hS' : IsMat S (fun (r : Fin V) (j : Fin O) => ∑ k, ∑ i : Fin ids.length,
        if hashRow hV seed ids[i] k = r then dy i j * embedFactor train dropout coinflips j else 0) := by
      refine ⟨by rw [rS, hT.1], by rw [cS, hT.2.1], fun r j => ?_⟩
      rw [hS r (by rw [hT.1]; exact r.2) j (by rw [hT.2.1]; exact j.2), cK, rK, Finset.sum_range]
      refine Finset.sum_congr rfl fun k _ => ?_
      rw [Finset.sum_range]
      refine Finset.sum_congr rfl fun i _ => ?_
      rw [hat i k]
      by_cases hr : hashRow hV seed ids[i] k = r
      · rw [if_pos hr, if_pos (by rw [hr])]
        exact hM.2.2 i j
      · rw [if_neg hr, if_neg (fun c => hr (Fin.ext (by exact_mod_cast c)))]
    obtain ⟨G', eG', hG'⟩ := hG.incGrad E hE hS'
    refine ⟨.ints (ids.map fun _ => 0), G', ?_, rfl, hG'⟩
    simp only [Val.asArr, eM, eS, eG', bind, Except.bind, pure, Except.pure]

/-- For an empty list of ids HashEmbed returns an empty array, but its callback fails. -/
theorem C58_hash_embed_empty (E : ℕ) (seed : BitVec 32) (dropout : Option ℝ) (coinflips : ℕ → ℕ → ℝ) (fast train : Bool) (P : ParamVals) :
    ∃ callback, hashEmbed E seed dropout coinflips fast train P (.ints []) = .ok (.arr (Mat.zeros 0 (P E).cols), callback) ∧
      ∀ d G, callback d G = .error .unboundLocalError :=
  ⟨fun _ _ => .error .unboundLocalError, rfl, fun _ _ => rfl⟩

/-- Embed is not exact for the id -1 with float32 arrays: the output is the last row of the table, but the gradient is
dropped, whatever the table. -/
theorem C58_negative_id (hV : 0 < V) (hO : 0 < O) (E : Fin N) (hE : sh E = (V, O)) (coinflips : ℕ → ℕ → ℝ)
    (θ : Params sh) (x : Fin 0 → ℝ) (P : ParamVals) (hP : IsParams P θ) :
    (∃ Y callback, embed E none coinflips true false P (.ints [-1]) = .ok (.arr Y, callback) ∧
      IsMat Y (fun (_ : Fin 1) j => θ.get E hE ⟨V - 1, by omega⟩ j)) ∧
    ¬ Exact (embed E none coinflips true) false (Kind.ints [-1]) (Kind.arr 1 O)
      (fun p _ j => p.1.get E hE ⟨V - 1, by omega⟩ j) θ x := by
  have hT := hP.get E hE
  have hrow : (P E).rows = V := hT.1
  have hcol : (P E).cols = O := hT.2.1
  have htake : ∃ Y, (P E).takeRows [-1] = .ok Y ∧ IsMat Y (fun (_ : Fin 1) j => θ.get E hE ⟨V - 1, by omega⟩ j) := by
    refine ⟨_, if_pos ?_, ?_⟩
    · simp only [List.all_cons, List.all_nil, Bool.and_true, decide_eq_true_eq]
      omega
    · refine ⟨rfl, hcol, fun i j => ?_⟩
      have hi : (i : ℕ) = 0 := by omega
      have hj : (j : ℕ) < (P E).cols := by rw [hcol]; exact j.2
      simp only [Mat.at, hi, Nat.zero_mul, Nat.zero_add, Nat.div_eq_of_lt hj, Nat.mod_eq_of_lt hj]
      have := hT.2.2 ⟨V - 1, by omega⟩ j
      simp only [Mat.at] at this
      rw [← this]
      simp only [List.getD_cons_zero, show ((-1 : ℤ) < 0) from by omega, if_true]
      congr 2
      congr 1
      omega
  obtain ⟨Y, eY, hY⟩ := htake
  have hemb : ∃ r : Val × Callback, embed E none coinflips true false P (.ints [-1]) = .ok r ∧ r.1 = .arr Y ∧
      ∀ dY : Mat ℝ, dY.rows = 1 → dY.cols = O → ∀ dv' G', r.2 (.arr dY) (fun _ => none) = .ok (dv', G') →
        ∃ S, G' E = some S ∧ ∀ i < V, ∀ o < O, S.at i o = 0 := by
    apply ok_intro
    · simp only [embed, Val.asInts, bind, Except.bind, eY, applyMask, pure, Except.pure, Bool.false_eq_true, if_false]
      rfl
    · refine ⟨rfl, fun dY hr hc dv' G' h => ?_⟩
      obtain ⟨S, eS, hS⟩ := C42_negative_ids true (Mat.zeros (P E).rows (P E).cols) dY [-1] hr (by rw [hc]; exact hcol.symm) (by
        intro i hi
        simp only [List.mem_singleton] at hi
        simp only [Mat.zeros]
        omega)
      simp only [Val.asArr, eS, incGrad] at h
      cases h
      refine ⟨S, if_pos rfl, fun i hi o ho => ?_⟩
      rw [hS i (by simp only [Mat.zeros]; omega) o (by simp only [Mat.zeros]; omega)]
      simp [Mat.zeros, Mat.at]
  obtain ⟨⟨_, callback⟩, ecb, rfl, hcb⟩ := hemb
  refine ⟨⟨Y, callback, ecb, hY⟩, fun hex => ?_⟩
  obtain ⟨v', cb, back, e1, -, hback, hgr⟩ := hex P (.ints [-1]) hP rfl
  rw [ecb] at e1
  cases e1
  have hv := IsVJP_lookup_param E hE (n := 1) (K := 1) (fun _ _ => ⟨V - 1, by omega⟩) (fun _ : Fin O => 1) θ x
  have hv' := IsVJP_congr hv (g := fun (p : Params sh × (Fin 0 → ℝ)) (_ : Fin 1) j => p.1.get E hE ⟨V - 1, by omega⟩ j)
    fun p => by simp
  have hb := IsVJP_unique hback hv'
  obtain ⟨dv', G', e2, -, hG'⟩ := hgr (.arr (Mat.ofFn 1 O fun _ _ => 1)) (fun _ _ => 1) (fun _ => none) 0
    ⟨_, rfl, isMat_ofFn' _ _ fun _ _ => rfl⟩ isGrads_none
  obtain ⟨S, eS, hS⟩ := hcb _ rfl rfl _ _ e2
  have h3 := hG' E
  rw [eS] at h3
  have h4 : IsMat S (((0 : Params sh) + (back fun _ _ => 1).1) E) := h3
  have h5 := h4.2.2 (Fin.cast (by rw [hE]) (⟨V - 1, by omega⟩ : Fin V)) (Fin.cast (by rw [hE]) (⟨0, hO⟩ : Fin O))
  rw [hS _ (by simp only [Fin.val_cast]; omega) _ (by simp only [Fin.val_cast]; omega), hb] at h5
  simp [Params.put] at h5
end

/-- A table with 3 rows and 2 columns and the ids 2, 0, 2: the output is rows 2, 0 and 2. -/
example : Exact (sh := fun _ : Fin 1 => (3, 2)) (embed 0 none (fun _ _ => 0) true) true (Kind.ints [2, 0, 2]) (Kind.arr 3 2)
    (fun p i j => p.1.get 0 rfl (![2, 0, 2] i) j * 1) (fun _ i j => 10 * i + j) (fun k => k.elim0) :=
  C58_embed_partial (V := 3) (O := 2) 0 rfl none (fun _ _ => 0) true true ![2, 0, 2] _ _

example : Exact (sh := fun _ : Fin 1 => (3, 2)) (hashEmbed 0 7 (some 0.5) (fun _ j => if j = 0 then 0.2 else 0.8) true) true
    (Kind.ints [5, -1, 5]) (Kind.arr 3 2)
    (fun p i j => (∑ k, p.1.get 0 rfl (hashRow (by norm_num) 7 [5, -1, 5][i] k) j) *
      embedFactor true (some 0.5) (fun _ j => if j = 0 then 0.2 else 0.8) j) (fun _ i j => 10 * i + j) (fun k => k.elim0) :=
  C58_hash_embed_partial (V := 3) (O := 2) (by norm_num) (by norm_num) _ (by simp) 0 rfl 7 _ _ true true _ _

/-- A table that meets the hypotheses of `C58_negative_id`. -/
example : IsParams (sh := fun _ : Fin 1 => (3, 2)) (fun _ => Mat.ofFn 3 2 fun i j => (10 * i + j : ℝ))
    (fun _ i j => (10 * (i : ℕ) + (j : ℕ) : ℝ)) := fun _ => isMat_ofFn' _ _ fun _ _ => rfl

end Thinc
