import Verif.Lemmas.SparseLinear
import Verif.Props.Linear
import Verif.Props.Hash
import Verif.Lemmas.Columns
/-!
# C81: SparseLinear
-/
namespace Thinc
open Spec Spec.Tensor

theorem weightPlace_lt (v1 : Bool) {nW nO idx c : ℕ} (hi : idx < nW) (hc : c < nO) : weightPlace v1 nW idx c < nO * nW :=
  sparseOffset_lt v1 hi hc

theorem entry_of_lt {n : ℕ} (w : Fin n → ℝ) {i : ℕ} (h : i < n) : entry w i = w ⟨i, h⟩ := dif_pos h

/-- The gradient of a weight: for every example, class and feature, the gradient of the score times the value, once for each of
the two hashes that lead to the weight. -/
noncomputable def sparseBack (v1 : Bool) (nW : ℕ) {K nO : ℕ} (hash : Fin K → Fin 2 → BitVec 32) (vals : Fin K → ℝ) (ls : List ℕ)
    (dy : Fin ls.length → Fin nO → ℝ) (j : ℕ) : ℝ :=
  ∑ r : Fin ls.length, ∑ c : Fin nO, ∑ i : Fin K, if FeatureOf ls r i then
    ∑ k : Fin 2, if j = weightPlace v1 nW (bucket v1 nW (hash i k)) c then dy r c * vals i else 0 else 0

theorem sum_entry {n i : ℕ} (hi : i < n) (w : Fin n → ℝ) (a : ℝ) :
    ∑ j : Fin n, (if (j : ℕ) = i then a else 0) * w j = a * entry w i := by
  rw [entry_of_lt w hi, Finset.sum_eq_single ⟨i, hi⟩]
  · simp
  · intro j _ hj
    rw [if_neg (fun e => hj (Fin.ext e)), zero_mul]
  · simp

theorem IsVJP_sparse (v1 : Bool) {nW K nO : ℕ} (hW : 0 < nW) (hash : Fin K → Fin 2 → BitVec 32) (vals : Fin K → ℝ) (ls : List ℕ)
    (p : ((Fin 1 → Fin (nO * nW) → ℝ) × (Fin 1 → Fin nO → ℝ)) × (Fin 0 → ℝ)) :
    IsVJP (fun p : ((Fin 1 → Fin (nO * nW) → ℝ) × (Fin 1 → Fin nO → ℝ)) × (Fin 0 → ℝ) =>
      sparseScore v1 nW hash vals ls (p.1.1 0) (p.1.2 0)) p
      (fun dy => ((fun _ j => sparseBack v1 nW hash vals ls dy j, fun _ c => ∑ r, dy r c), 0)) := by
  have hadd : ∀ (i : ℕ) (x y : Fin (nO * nW) → ℝ), entry (x + y) i = entry x i + entry y i := by
    intro i x y; unfold entry; split <;> simp
  have hsm : ∀ (i : ℕ) (a : ℝ) (x : Fin (nO * nW) → ℝ), entry (a • x) i = a * entry x i := by
    intro i a x; unfold entry; split <;> simp
  refine IsVJP_linear' (fun x y => ?_) (fun a x => ?_) fun dy v => ?_
  · funext r c
    simp only [sparseScore, Prod.fst_add, Prod.snd_add, Pi.add_apply, hadd, Finset.sum_add_distrib]
    rw [add_add_add_comm, ← Finset.sum_add_distrib]
    congr 1
    refine Finset.sum_congr rfl fun i _ => ?_
    split
    · ring
    · simp
  · funext r c
    simp only [sparseScore, Prod.smul_fst, Prod.smul_snd, Pi.smul_apply, smul_eq_mul, hsm, mul_add, Finset.mul_sum]
    congr 1
    refine Finset.sum_congr rfl fun i _ => ?_
    split
    · rw [Finset.mul_sum]
      exact Finset.sum_congr rfl fun k _ => by ring
    · simp
  · have e1 : ∑ j : Fin (nO * nW), sparseBack v1 nW hash vals ls dy j * v.1.1 0 j =
        ∑ r : Fin ls.length, ∑ c : Fin nO, dy r c * ∑ i : Fin K, if FeatureOf ls r i then
          vals i * ∑ k : Fin 2, entry (v.1.1 0) (weightPlace v1 nW (bucket v1 nW (hash i k)) c) else 0 := by
      unfold sparseBack
      simp only [Finset.sum_mul]
      rw [Finset.sum_comm]
      refine Finset.sum_congr rfl fun r _ => ?_
      rw [Finset.sum_comm]
      refine Finset.sum_congr rfl fun c _ => ?_
      rw [Finset.sum_comm, Finset.mul_sum]
      refine Finset.sum_congr rfl fun i _ => ?_
      by_cases h : FeatureOf ls r i
      · simp only [if_pos h, Finset.sum_mul]
        rw [Finset.sum_comm, Finset.mul_sum, Finset.mul_sum]
        refine Finset.sum_congr rfl fun k _ => ?_
        have := sum_entry (sparseOffset_lt v1 (bucket_lt v1 hW (hash i k)) c.2) (v.1.1 0) (dy r c * vals i)
        rw [mul_assoc] at this
        exact this
      · simp [if_neg h]
    have e2 : ∑ c : Fin nO, (∑ r, dy r c) * v.1.2 0 c = ∑ r, ∑ c, dy r c * v.1.2 0 c := by
      simp only [Finset.sum_mul]
      exact Finset.sum_comm
    simp only [dot_prod, dot_pi, dot_real, Fin.sum_univ_one, Finset.univ_eq_empty, Finset.sum_empty, add_zero, Fin.isValue]
    rw [e1, e2]
    simp only [sparseScore, mul_add, Finset.sum_add_distrib]
    ring

section
variable {N : ℕ} {sh : Fin N → ℕ × ℕ}

theorem sum_feature {K r : ℕ} (ls : List ℕ) (hr : r < ls.length) (hK : ls.sum ≤ K) (f : Fin K → ℝ) (g : ℕ → ℝ)
    (hfg : ∀ i : Fin K, f i = g i) :
    ∑ t ∈ Finset.range (ls.getD r 0), g ((ls.take r).sum + t) = ∑ i : Fin K, if FeatureOf ls r i then f i else 0 := by
  have hs : (ls.take r).sum + ls.getD r 0 ≤ K := by
    have := List.sum_take_add_sum_drop ls r
    rw [List.drop_eq_getElem_cons hr, List.sum_cons] at this
    simp only [List.getD_eq_getElem?_getD, hr, List.getElem?_eq_getElem, Option.getD_some]
    omega
  rw [← sum_example hs g, Finset.sum_range]
  refine Finset.sum_congr rfl fun i _ => ?_
  rw [hfg]

/-- SparseLinear computes for every example and class the bias plus the weighted sum of the features, with the two weights of a
feature found by hashing its key with the seeds 0 and 1, and adds the exact gradients of the weights and the bias, for both
versions of the indexing, every number of weights per class from 1 to 2^31, every number of classes from 1, every nonempty batch,
and all lengths (also 0) that do not exceed the number of features; and every pointer stays inside its array.  The callback
returns the keys, values and lengths themselves instead of a gradient. -/
theorem C81_sparse_linear (W b : Fin N) (v1 train : Bool) {nO nW : ℕ} (hW : sh W = (1, nO * nW)) (hb : sh b = (1, nO))
    (hO : 0 < nO) (hnW : 0 < nW) (hnW2 : nW ≤ 2 ^ 31) (keys : List ℤ) (vals : Fin keys.length → ℝ) (ls : List ℕ) (hne : ls ≠ [])
    (hls : ls.sum ≤ keys.length) (θ : Params sh) (x : Fin 0 → ℝ) :
    Exact (sparseLinear W b nO nW v1) train (Kind.features keys vals ls) (Kind.arr ls.length nO)
      (fun p => sparseScore v1 nW (fun i k => murmur32 (BitVec.ofInt 64 keys[i]) (BitVec.ofNat 32 k)) vals ls (p.1.vec W hW)
        (p.1.vec b hb)) θ x := by
  have hlen : 0 < ls.length := List.length_pos_of_ne_nil hne
  refine Exact.intro (IsVJP_params2 W b hW hb (IsVJP_sparse v1 hnW _ vals ls ((θ.get W hW, θ.get b hb), x))) ?_
  rintro P _ hP ⟨V, rfl, hV⟩
  have hPW := hP.get W hW
  have hPb := hP.get b hb
  have hZ : IsMat (Mat.zeros ls.length nO : Mat ℝ) (fun (_ : Fin ls.length) (_ : Fin nO) => (0 : ℝ)) := ⟨rfl, rfl, fun _ _ => rfl⟩
  obtain ⟨S, eS, hS⟩ := hZ.npUpdate_row hPb (· + ·)
  have hwsize : (P W).buf.size = nO * nW := by
    show (P W).rows * (P W).cols = _
    rw [hPW.1, hPW.2.1, one_mul]
  have hwval : ∀ j (hj : j < nO * nW), (P W).buf.val j = θ.vec W hW ⟨j, hj⟩ := by
    intro j hj
    have := hPW.2.2 0 ⟨j, hj⟩
    simpa [Mat.at, Mat.buf, Params.vec] using this
  have hVsize : V.buf.size = keys.length := by
    show V.rows * V.cols = _
    rw [hV.1, hV.2.1, one_mul]
  have hVval : ∀ i : Fin keys.length, V.buf.val i = vals i := by
    intro i
    have := hV.2.2 0 i
    simpa [Mat.at, Mat.buf] using this
  have hkval : ∀ i : Fin keys.length, (keyBuf keys).val i = BitVec.ofInt 64 keys[i] := by
    intro i
    simp [keyBuf, List.getD_eq_getElem?_getD]
  have hSsize : S.buf.size = ls.length * nO := by
    show S.rows * S.cols = _
    rw [hS.1, hS.2.1]
  obtain ⟨s, es, hs⟩ := sparseExamples v1 (keyBuf keys) V.buf nO nW hnW hnW2 ls hls (by omega)
    (scoreClass v1 (P W).buf nW) (fun r i1 i2 v c j => if j = r * nO + c then
        ((P W).buf.val (sparseOffset v1 nW i1 c) + (P W).buf.val (sparseOffset v1 nW i2 c)) * v else 0) S.buf
    (fun r hr i1 h1 i2 h2 v c hc b hb => scoreClass_added v1 (P W).buf hwsize v b (hb.trans hSsize) hr h1 h2 hc)
  have eScores : setScoresC S.buf (keyBuf keys) V.buf (ls.map fun l : ℕ => (l : ℤ)) nO (P W).buf nW v1 = .ok s.1 := by
    simp only [setScoresC, es, bind, Except.bind, pure, Except.pure]
  apply ok_intro
  · simp only [sparseLinear, Val.asFeatures, List.length_map, bind, Except.bind, eS, eScores, pure, Except.pure]
    rfl
  · refine ⟨⟨_, rfl, rfl, rfl, fun r c => ?_⟩, ?_⟩
    · show s.1.val (r * nO + c) = _
      rw [hs.2]
      have e1 : S.buf.val (r * nO + c) = θ.vec b hb c := by
        have := hS.2.2 r c
        rw [Mat.at, hS.2.1] at this
        simpa [Mat.buf, Params.vec] using this
      rw [e1]
      unfold sparseScore
      congr 1
      beta_reduce
      rw [Finset.sum_eq_single (r : ℕ)]
      · rw [← sum_feature ls r.2 hls _ (fun i => V.buf.val i *
          ((P W).buf.val (sparseOffset v1 nW (bucket v1 nW (murmur32 ((keyBuf keys).val i) 0#32)) c) +
            (P W).buf.val (sparseOffset v1 nW (bucket v1 nW (murmur32 ((keyBuf keys).val i) 1#32)) c)))]
        · refine Finset.sum_congr rfl fun t _ => ?_
          rw [Finset.sum_eq_single (c : ℕ)]
          · rw [if_pos rfl]; ring
          · intro c' _ hc'
            rw [if_neg (by omega)]
          · intro h; exact absurd (Finset.mem_range.2 c.2) h
        · intro i
          rw [hVval, hkval, hwval _ (sparseOffset_lt v1 (bucket_lt v1 hnW _) c.2),
            hwval _ (sparseOffset_lt v1 (bucket_lt v1 hnW _) c.2), Fin.sum_univ_two]
          rw [entry_of_lt _ (weightPlace_lt v1 (bucket_lt v1 hnW _) c.2),
            entry_of_lt _ (weightPlace_lt v1 (bucket_lt v1 hnW _) c.2)]
          rfl
      · intro r' hr' hne'
        refine Finset.sum_eq_zero fun t _ => Finset.sum_eq_zero fun c' hc' => ?_
        rw [Finset.mem_range] at hc'
        refine if_neg fun e => hne' ?_
        have := rowMajor_div nO r c c.2
        rw [e, rowMajor_div nO r' c' hc'] at this
        exact this
      · intro h; exact absurd (Finset.mem_range.2 r.2) h
    · rintro _ dy G g ⟨D, rfl, hD⟩ hG
      have hDsize : D.buf.size = ls.length * nO := by
        show D.rows * D.cols = _
        rw [hD.1, hD.2.1]
      have ep : D.pointer = .ok D.buf := if_neg (by rw [hD.1, hD.2.1]; omega)
      obtain ⟨u, eu, hu⟩ := sparseExamples v1 (keyBuf keys) V.buf nO nW hnW hnW2 ls hls (by omega)
        (gradClass v1 D.buf nW) (fun r i1 i2 v c j => (if j = sparseOffset v1 nW i1 c then D.buf.val (r * nO + c) * v else 0) +
          (if j = sparseOffset v1 nW i2 c then D.buf.val (r * nO + c) * v else 0)) (Mat.zeros 1 (nO * nW) : Mat ℝ).buf
        (fun r hr i1 h1 i2 h2 v c hc b hb => gradClass_added v1 D.buf hDsize v b
          (hb.trans (by show 1 * (nO * nW) = _; rw [one_mul])) hr h1 h2 hc)
      have eGrad : setGradientC (Mat.zeros 1 (nO * nW) : Mat ℝ).buf (keyBuf keys) V.buf (ls.map fun l : ℕ => (l : ℤ)) nO D.buf nW v1
          = .ok u.1 := by
        simp only [setGradientC, eu, bind, Except.bind, pure, Except.pure]
      have hdW : IsMat (u.1.toMat 1 (nO * nW)) (fun (_ : Fin 1) (j : Fin (nO * nW)) =>
          sparseBack v1 nW (fun i k => murmur32 (BitVec.ofInt 64 keys[i]) (BitVec.ofNat 32 k)) vals ls dy j) := by
        refine ⟨rfl, rfl, fun z j => ?_⟩
        have hz : (z : ℕ) = 0 := by omega
        show u.1.val (z * (nO * nW) + j) = _
        rw [hz, zero_mul, zero_add, hu.2]
        simp only [Mat.zeros, Mat.buf, zero_add]
        unfold sparseBack
        rw [Finset.sum_range]
        refine Finset.sum_congr rfl fun r _ => ?_
        rw [Finset.sum_comm, Finset.sum_range]
        refine Finset.sum_congr rfl fun c _ => ?_
        have eD : D.buf.val (r * nO + c) = dy r c := by
          have := hD.2.2 r c
          rwa [Mat.at, hD.2.1] at this
        rw [← sum_feature ls r.2 hls _ (fun i =>
          (if (j : ℕ) = sparseOffset v1 nW (bucket v1 nW (murmur32 ((keyBuf keys).val i) 0#32)) c then dy r c * V.buf.val i else 0) +
          (if (j : ℕ) = sparseOffset v1 nW (bucket v1 nW (murmur32 ((keyBuf keys).val i) 1#32)) c then dy r c * V.buf.val i else 0))]
        · refine Finset.sum_congr rfl fun t _ => ?_
          rw [← eD]
          rfl
        · intro i
          rw [hVval, hkval, Fin.sum_univ_two]
          rfl
      have edB : sparseBias nO D = .ok (Mat.ofFn 1 nO fun _ j => if j < D.cols then ∑ i ∈ Finset.range D.rows, D.at i j else 0) :=
        if_neg (by rw [hD.2.1]; omega)
      have hdB : IsMat (Mat.ofFn 1 nO fun _ j => if j < D.cols then ∑ i ∈ Finset.range D.rows, D.at i j else 0)
          (fun (_ : Fin 1) c => ∑ r, dy r c) := by
        refine isMat_ofFn' _ _ fun _ c => ?_
        rw [hD.1, hD.2.1, if_pos c.2, Finset.sum_range]
        exact Finset.sum_congr rfl fun r _ => hD.2.2 r c
      obtain ⟨G1, e1, hG1⟩ := hG.incGrad W hW hdW
      obtain ⟨G2, e2, hG2⟩ := hG1.incGrad b hb hdB
      refine ⟨.tup [.ints keys, .arr V, .ints (ls.map fun l : ℕ => (l : ℤ))], G2, ?_, ⟨V, rfl, hV⟩, ?_⟩
      · simp only [Val.asArr, ep, eGrad, edB, e1, e2]
      · rw [← add_assoc]
        exact hG2

/-- One example with two features of the same key and one without features, two classes, three weights for each class. -/
example (v1 train : Bool) (θ : Params ![(1, 6), (1, 2)]) (x : Fin 0 → ℝ) :
    Exact (sparseLinear 0 1 2 3 v1) train (Kind.features [7, 7] ![5, -1] [2, 0]) (Kind.arr 2 2)
      (fun p => sparseScore v1 3 (fun i k => murmur32 (BitVec.ofInt 64 [7, 7][i]) (BitVec.ofNat 32 k)) ![5, -1] [2, 0]
        (p.1.vec 0 rfl) (p.1.vec 1 rfl)) θ x :=
  C81_sparse_linear (sh := ![(1, 6), (1, 2)]) 0 1 v1 train (nO := 2) (nW := 3) rfl rfl (by omega) (by omega) (by omega) [7, 7]
    ![5, -1] [2, 0] (by simp) (by simp) θ x

/-- When the number of weights is a power of two, the two versions find the same bucket. -/
theorem C81_bucket_pow_two (k : ℕ) (hash : BitVec 32) : bucket true (2 ^ k) hash = bucket false (2 ^ k) hash := by
  simp [bucket, Nat.and_two_pow_sub_one_eq_mod]

/-- In version 2 different classes never share a weight. -/
theorem C81_v2_separate {nW i i' c c' : ℕ} (hi : i < nW) (hi' : i' < nW) (h : weightPlace false nW i c = weightPlace false nW i' c') :
    c = c' ∧ i = i' := by
  simp only [weightPlace, Bool.false_eq_true, if_false] at h
  have h1 := rowMajor_div nW c i hi
  rw [h, rowMajor_div nW c' i' hi'] at h1
  subst h1
  exact ⟨rfl, by omega⟩

/-- In version 1 they do: the weight of a class and a bucket is the weight of the next class and the bucket before. -/
theorem C81_v1_shared (nW i c : ℕ) : weightPlace true nW (i + 1) c = weightPlace true nW i (c + 1) := by
  simp only [weightPlace, if_true]; omega

/-- In version 1 no score depends on the weights from place `nW + nO - 1` on: two layers that differ only there have the same
scores.  (With one class all weights are used; with 10 classes and 2^18 weights for each of them, nine tenths are not.) -/
theorem C81_v1_unused {nW K nO : ℕ} (hW : 0 < nW) (hash : Fin K → Fin 2 → BitVec 32) (vals : Fin K → ℝ) (ls : List ℕ)
    (w w' : Fin (nO * nW) → ℝ) (b : Fin nO → ℝ) (h : ∀ j : Fin (nO * nW), (j : ℕ) < nW + nO - 1 → w j = w' j) :
    sparseScore true nW hash vals ls w b = sparseScore true nW hash vals ls w' b := by
  funext r c
  unfold sparseScore
  congr 1
  refine Finset.sum_congr rfl fun i _ => ?_
  split
  · congr 1
    refine Finset.sum_congr rfl fun k _ => ?_
    have h1 := bucket_lt true hW (hash i k)
    rw [entry_of_lt w (weightPlace_lt true h1 c.2), entry_of_lt w' (weightPlace_lt true h1 c.2)]
    refine h _ ?_
    show weightPlace true nW (bucket true nW (hash i k)) c < _
    have := c.2
    simp only [weightPlace, if_true]
    omega
  · rfl

example : (2 : ℕ) + 2 - 1 < 2 * 2 := by decide

/-- In version 2 every weight is used: a feature whose first hash falls into bucket `i` has a score for class `c` that changes
with the weight at place `c * nW + i`. -/
theorem C81_v2_used {nW nO : ℕ} (hash : Fin 2 → BitVec 32) (c : Fin nO) (b : Fin nO → ℝ)
    (w : Fin (nO * nW) → ℝ) (j : Fin (nO * nW)) (hj : (j : ℕ) = weightPlace false nW (bucket false nW (hash 0)) c)
    (hpos : ∀ i, 0 ≤ w i) (hw : 0 < w j) :
    b c < sparseScore false nW (fun _ : Fin 1 => hash) (fun _ => 1) [1] w b 0 c := by
  unfold sparseScore
  have e0 : entry w (weightPlace false nW (bucket false nW (hash 0)) c) = w j := by
    rw [← hj, entry_of_lt w j.2]
  have e1 : 0 ≤ entry w (weightPlace false nW (bucket false nW (hash 1)) c) := by
    unfold entry
    split
    · exact hpos _
    · exact le_rfl
  have hf : FeatureOf [1] ((0 : Fin [1].length) : ℕ) ((0 : Fin 1) : ℕ) := by simp [FeatureOf]
  rw [Fin.sum_univ_one, if_pos hf, Fin.sum_univ_two, e0]
  linarith

/-! ### The hash -/

theorem xorshift16_inj {a b : BitVec 32} (h : a ^^^ (a >>> 16) = b ^^^ (b >>> 16)) : a = b := by
  have cancel : ∀ h : BitVec 32, (h ^^^ (h >>> 16)) ^^^ ((h ^^^ (h >>> 16)) >>> 16) = h := by
    intro h
    ext i hi
    simp only [BitVec.getElem_xor, BitVec.getElem_ushiftRight, BitVec.getLsbD_xor, BitVec.getLsbD_ushiftRight]
    have : h.getLsbD (16 + (16 + i)) = false := BitVec.getLsbD_of_ge _ _ (by omega)
    rw [this]
    simp
  rw [← cancel a, ← cancel b, h]

theorem xorshift13_inj {a b : BitVec 32} (h : a ^^^ (a >>> 13) = b ^^^ (b >>> 13)) : a = b := by
  have cancel : ∀ h : BitVec 32, ((h ^^^ (h >>> 13)) ^^^ ((h ^^^ (h >>> 13)) >>> 13)) ^^^ ((h ^^^ (h >>> 13)) >>> 26) = h := by
    intro h
    ext i hi
    simp only [BitVec.getElem_xor, BitVec.getElem_ushiftRight, BitVec.getLsbD_xor, BitVec.getLsbD_ushiftRight]
    have : h.getLsbD (13 + (26 + i)) = false := BitVec.getLsbD_of_ge _ _ (by omega)
    rw [this, show 13 + (13 + i) = 26 + i by omega]
    cases h[i] <;> cases h.getLsbD (13 + i) <;> cases h.getLsbD (26 + i) <;> rfl
  rw [← cancel a, ← cancel b, h]

theorem mul_inj32 (c d : BitVec 32) (hcd : c * d = 1#32) {a b : BitVec 32} (h : a * c = b * c) : a = b := by
  have : a * (c * d) = b * (c * d) := by rw [← BitVec.mul_assoc, ← BitVec.mul_assoc, h]
  rwa [hcd, BitVec.mul_one, BitVec.mul_one] at this

theorem rotate32_inj (s : ℕ) (hs : s < 32) {a b : BitVec 32} (h : (a <<< s) ||| (a >>> (32 - s)) = (b <<< s) ||| (b >>> (32 - s))) :
    a = b := by
  ext i hi
  by_cases h1 : i < 32 - s
  · have := congrArg (fun x : BitVec 32 => x.getLsbD (i + s)) h
    simp only [BitVec.getLsbD_or, BitVec.getLsbD_shiftLeft, BitVec.getLsbD_ushiftRight] at this
    have ea : a.getLsbD (32 - s + (i + s)) = false := BitVec.getLsbD_of_ge _ _ (by omega)
    have eb : b.getLsbD (32 - s + (i + s)) = false := BitVec.getLsbD_of_ge _ _ (by omega)
    rw [ea, eb] at this
    simpa [show i + s < 32 by omega, BitVec.getLsbD_eq_getElem hi] using this
  · have := congrArg (fun x : BitVec 32 => x.getLsbD (i - (32 - s))) h
    simp only [BitVec.getLsbD_or, BitVec.getLsbD_shiftLeft, BitVec.getLsbD_ushiftRight] at this
    rw [show 32 - s + (i - (32 - s)) = i by omega] at this
    simpa [show i - (32 - s) < s by omega, BitVec.getLsbD_eq_getElem hi] using this

theorem murmur32Final_inj {a b : BitVec 32} (h : murmur32Final a = murmur32Final b) : a = b := by
  unfold murmur32Final at h
  have h := mul_inj32 0xc2b2ae35#32 0x7ed1b41d#32 (by decide +kernel) (xorshift16_inj h)
  have h := mul_inj32 0x85ebca6b#32 0xa5cb9243#32 (by decide +kernel) (xorshift13_inj h)
  exact xorshift16_inj h

theorem murmur32Round_inj_key {h a b : BitVec 32} (e : murmur32Round h a = murmur32Round h b) : a = b := by
  unfold murmur32Round at e
  have e := (BitVec.add_left_inj _).1 e
  have e := mul_inj32 5#32 0xcccccccd#32 (by decide +kernel) e
  have e := rotate32_inj 13 (by omega) e
  have e := (BitVec.xor_right_inj _).1 e
  have e := mul_inj32 0x1b873593#32 0x56ed309b#32 (by decide +kernel) e
  have e := rotate32_inj 15 (by omega) e
  exact mul_inj32 0xcc9e2d51#32 0xdee13bb1#32 (by decide +kernel) e

theorem murmur32Round_inj_state {h h' a : BitVec 32} (e : murmur32Round h a = murmur32Round h' a) : h = h' := by
  unfold murmur32Round at e
  have e := (BitVec.add_left_inj _).1 e
  have e := mul_inj32 5#32 0xcccccccd#32 (by decide +kernel) e
  have e := rotate32_inj 13 (by omega) e
  exact (BitVec.xor_left_inj _).1 e

/-- Two keys below 2^32 (or, more generally, with the same upper half) never have the same hash. -/
theorem C81_hash_low (seed : BitVec 32) (a b : BitVec 64) (hup : a >>> 32 = b >>> 32) (h : murmur32 a seed = murmur32 b seed) :
    a = b := by
  unfold murmur32 at h
  have h := (BitVec.xor_left_inj _).1 (murmur32Final_inj h)
  rw [hup] at h
  exact halves_inj (murmur32Round_inj_key (murmur32Round_inj_state h)) (by rw [hup])

/-- Two keys with the same lower half never have the same hash. -/
theorem C81_hash_high (seed : BitVec 32) (a b : BitVec 64) (hlow : a &&& 0xffffffff#64 = b &&& 0xffffffff#64)
    (h : murmur32 a seed = murmur32 b seed) : a = b := by
  unfold murmur32 at h
  have h := (BitVec.xor_left_inj _).1 (murmur32Final_inj h)
  rw [hlow] at h
  exact halves_inj (by rw [hlow]) (murmur32Round_inj_key h)

/-- The two hashes of a key are always different. -/
theorem C81_two_hashes (a : BitVec 64) : murmur32 a 0#32 ≠ murmur32 a 1#32 := by
  intro h
  unfold murmur32 at h
  have h := (BitVec.xor_left_inj _).1 (murmur32Final_inj h)
  have h := murmur32Round_inj_state (murmur32Round_inj_state h)
  exact absurd h (by decide)

/-- The published test vectors of MurmurHash3_x86_32 for eight bytes: all zero. -/
example : murmur32 0#64 0#32 = 0x63852afc#32 := by decide +kernel

/-! ### Errors -/

/-- The lengths are not checked: when they exceed the number of features the forward pass reads outside the arrays. -/
theorem C81_reads_outside :
    sparseLinear 0 1 1 1 false true (fun _ => Mat.zeros 1 1) (.tup [.ints [], .arr (Mat.zeros 1 0), .ints [1]])
      = .error .outOfBounds := by
  simp [sparseLinear, Val.asFeatures, npUpdate, Mat.zeros, setScoresC, forM', sparseExample, forN, List.range_succ,
    sparseFeature, Buf.read, keyBuf, bind, Except.bind]

theorem forN_ok_step {σ : Type} {n : ℕ} {f : σ → ℕ → Except PyErr σ} {s s' : σ} (h : forN n s f = .ok s') :
    ∀ k < n, ∃ a b, f a k = .ok b := by
  have key : ∀ (xs : List ℕ) (s : σ), forM' xs s f = .ok s' → ∀ k ∈ xs, ∃ a b, f a k = .ok b := by
    intro xs
    induction xs with
    | nil => intro s _ k hk; cases hk
    | cons x xs ih =>
      intro s h k hk
      simp only [forM'] at h
      cases e : f s x with
      | error _ => rw [e] at h; cases h
      | ok a =>
        rw [e] at h
        rcases List.mem_cons.1 hk with rfl | hk
        · exact ⟨s, a, e⟩
        · exact ih a h k hk
  intro k hk
  exact key _ s h k (List.mem_range.2 hk)

theorem sparseExamples_inside (v1 : Bool) (keys : Buf (BitVec 64)) (values : Buf ℝ) (nO nW : ℕ)
    (body : Int → Nat → Nat → ℝ → Buf ℝ → Nat → Except PyErr (Buf ℝ)) (ls : List ℕ) :
    ∀ (out : Buf ℝ) (p : ℤ) (q : ℕ) s, q ≤ keys.size → q ≤ values.size →
      forM' (ls.map fun l : ℕ => (l : ℤ)) (out, p, (q : ℤ)) (sparseExample v1 keys values nO nW body) = .ok s →
      q + ls.sum ≤ keys.size ∧ q + ls.sum ≤ values.size := by
  induction ls with
  | nil => intro out p q s h1 h2 _; simpa using ⟨h1, h2⟩
  | cons l ls ih =>
    intro out p q s h1 h2 h
    simp only [List.map_cons, forM', sparseExample, Int.toNat_natCast, bind, Except.bind, pure, Except.pure] at h
    cases e : forN l out (sparseFeature v1 keys values nO nW (q : ℤ) (body p)) with
    | error _ => rw [e] at h; cases h
    | ok a =>
      rw [e] at h
      simp only at h
      rw [← Nat.cast_add] at h
      have hb : q + l ≤ keys.size ∧ q + l ≤ values.size := by
        cases l with
        | zero => exact ⟨h1, h2⟩
        | succ l =>
          obtain ⟨a', b', e'⟩ := forN_ok_step e l (by omega)
          simp only [sparseFeature, bind, Except.bind] at e'
          rw [← Nat.cast_add] at e'
          constructor
          · by_contra hc
            have : keys.read ((q + l : ℕ) : ℤ) = .error .outOfBounds := if_neg (by omega)
            rw [this] at e'
            cases e'
          · by_contra hc
            have : values.read ((q + l : ℕ) : ℤ) = .error .outOfBounds := if_neg (by omega)
            rw [this] at e'
            split at e'
            · cases e'
            · split at e'
              · cases e'
              · split at e'
                · cases e'
                · cases e'
      have := ih a _ (q + l) s hb.1 hb.2 h
      rw [List.sum_cons]
      omega

/-- More generally: no forward pass gets through when the lengths exceed the number of keys or of values. -/
theorem C81_lengths_fit (W b nO nW : ℕ) (v1 train : Bool) (P : ParamVals) (keys : List ℤ) (V : Mat ℝ) (ls : List ℕ) (r : Val × Callback)
    (h : sparseLinear W b nO nW v1 train P (.tup [.ints keys, .arr V, .ints (ls.map fun l : ℕ => (l : ℤ))]) = .ok r) :
    ls.sum ≤ keys.length ∧ ls.sum ≤ V.rows * V.cols := by
  simp only [sparseLinear, Val.asFeatures, setScoresC, bind, Except.bind, pure, Except.pure] at h
  split at h
  · cases h
  · rename_i S _
    cases e : forM' (ls.map fun l : ℕ => (l : ℤ)) (S.buf, (0 : ℤ), (0 : ℤ))
        (sparseExample v1 (keyBuf keys) V.buf nO nW (scoreClass v1 (P W).buf nW)) with
    | error _ => rw [e] at h; cases h
    | ok s =>
      have := sparseExamples_inside v1 (keyBuf keys) V.buf nO nW _ ls S.buf 0 0 s (Nat.zero_le _) (Nat.zero_le _) e
      simpa [keyBuf, Mat.buf] using this

/-- The callback fails on an empty batch. -/
theorem C81_empty_batch (W b nO nW : ℕ) (v1 train : Bool) (P : ParamVals) (keys : List ℤ) (V : Mat ℝ)
    (hb : (P b).rows = 1 ∧ (P b).cols = nO) :
    ∃ S callback, sparseLinear W b nO nW v1 train P (.tup [.ints keys, .arr V, .ints []]) = .ok (.arr S, callback) ∧
      S.rows = 0 ∧ S.cols = nO ∧ ∀ D G, D.rows = 0 → callback (.arr D) G = .error .indexError := by
  have eU : ∃ C, npUpdate (· + ·) (Mat.zeros 0 nO : Mat ℝ) (P b) = .ok C := by
    refine ⟨_, if_pos ⟨.inr hb.1, .inl hb.2⟩⟩
  obtain ⟨C, eC⟩ := eU
  refine ⟨C.buf.toMat 0 nO, ?_⟩
  apply Exists.intro
  refine ⟨?_, rfl, rfl, ?_⟩
  · simp only [sparseLinear, Val.asFeatures, List.length_nil, eC, setScoresC, forM', bind, Except.bind, pure, Except.pure]
    rfl
  · intro D G hD
    have : D.pointer = .error .indexError := if_pos (.inl hD)
    simp only [Val.asArr, this]

/-- The input must be a tuple of three arrays: any other number of items is refused with a ValueError before anything is
computed. -/
theorem C81_needs_three (W b nO nW : ℕ) (v1 train : Bool) (P : ParamVals) (items : List Val) (h : items.length ≠ 3) :
    sparseLinear W b nO nW v1 train P (.tup items) = .error .valueError := by
  have e : (Val.tup items).asFeatures = .error .valueError := by
    unfold Val.asFeatures
    split
    · rename_i e
      cases e
      exact absurd rfl h
    · rfl
  simp only [sparseLinear, e, bind, Except.bind]
end
end Thinc
