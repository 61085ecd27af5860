import Verif.Props.Crossentropy
import Verif.Props.PoolMax
/-!
# C46 Cross entropy: matrices of targets, the gradient of the cross entropy, errors.  C47 Sequences
-/
namespace Thinc
open Real Spec Finset

theorem toMat_at {r c : Nat} (x : Fin r → Fin c → ℝ) (i : Fin r) (j : Fin c) : (toMat x).at i j = x i j := by
  unfold toMat
  rw [ofFn_at _ _ _ _ _ j.2, dif_pos ⟨i.2, j.2⟩]

/-! ## Matrices of targets -/

theorem rowList_argmax (t : Mat ℝ) (i v : Nat) (hc : 0 < t.cols) :
    listArgmax (t.rowList i) = v ↔ firstMax (t.at i) t.cols v := by
  obtain ⟨n, hn⟩ : ∃ n, t.cols = n + 1 := ⟨t.cols - 1, by omega⟩
  unfold Mat.rowList
  rw [hn, listArgmax_map]
  exact ⟨fun h => h ▸ argmaxTo_spec _ _, fun h => argmaxTo_unique _ _ _ h⟩

/-- The row of targets stands for the missing value: its (first) largest entry is at that class. -/
def missingRow (c : CCE) (t : Mat ℝ) (i : Nat) : Prop :=
  ∃ v : Nat, c.missing = .int v ∧ firstMax (t.at i) t.cols v

theorem maskByValue_floats (G t : Mat ℝ) (c : CCE) (h : t.rows = G.rows) (hc : 0 < t.cols) :
    ∃ m, makeMaskByValue (.floats t) G c.missing = .ok m ∧ m.rows = G.rows ∧ m.cols = G.cols ∧
      ∀ i < G.rows, ∀ k < G.cols, (missingRow c t i → m.at i k = 0) ∧ (¬ missingRow c t i → m.at i k = 1) := by
  cases hm : c.missing with
  | int v =>
    simp only [makeMaskByValue, maskRows, if_pos h]
    rw [if_neg (by omega)]
    refine ⟨_, rfl, rfl, rfl, fun i hi k hk => ?_⟩
    rw [ofFn_at _ _ _ _ _ hk]
    have e : ((listArgmax (t.rowList i) : Int) = v) ↔ missingRow c t i := by
      constructor
      · intro e
        exact ⟨listArgmax (t.rowList i), by rw [hm, e], (rowList_argmax t i _ hc).1 rfl⟩
      · rintro ⟨w, e1, e2⟩
        rw [hm] at e1
        rw [Missing.int.inj e1, (rowList_argmax t i w hc).2 e2]
    exact ⟨fun h => if_pos (e.2 h), fun h => if_neg (fun h2 => h (e.1 h2))⟩
  | none =>
    refine ⟨_, rfl, rfl, rfl, fun i hi k hk => ⟨?_, fun _ => ones_at _ _ _ _ hk⟩⟩
    rintro ⟨w, e1, _⟩
    rw [hm] at e1; simp at e1
  | str s =>
    refine ⟨_, rfl, rfl, rfl, fun i hi k hk => ⟨?_, fun _ => ones_at _ _ _ _ hk⟩⟩
    rintro ⟨w, e1, _⟩
    rw [hm] at e1; simp at e1

/-- **C46** (matrix of targets).  Without label smoothing, a target matrix of the shape of the guesses with
entries between 0 and 1 gives `guess - target` (divided by the batch size if `normalize` is set), and zero in
the rows whose largest entry is at the missing value. -/
theorem C46_matrix_targets (c : CCE) (G T : Mat ℝ) (hc : c.Fits G) (hs : c.smoothing = 0)
    (hr : T.rows = G.rows) (hcols : T.cols = G.cols) (hT : isProb T) :
    ∃ D, c.getGrad G (.floats T) = .ok D ∧ D.rows = G.rows ∧ D.cols = G.cols ∧
      ∀ i < G.rows, ∀ k < G.cols,
        (missingRow c T i → D.at i k = 0) ∧
        (¬ missingRow c T i → D.at i k = (G.at i k - T.at i k) / c.divisor G.rows) := by
  classical
  have hcpos : 0 < T.cols := by
    rcases hc.smoothing with h | h
    · omega
    · omega
  obtain ⟨m, m1, m2, m3, m4⟩ := maskByValue_floats G T c hr hcpos
  have key : ∃ T2 M, c.convertTruths (.floats T) G = .ok (T2, M) ∧ T2.rows = G.rows ∧ T2.cols = G.cols ∧
      M.rows = G.rows ∧ M.cols = G.cols ∧ ∀ i < G.rows, ∀ k < G.cols, T2.at i k = T.at i k ∧ M.at i k = m.at i k := by
    unfold CCE.convertTruths
    simp only [readTruths, bind, Except.bind, m1, pure, Except.pure, targetMatrix]
    rw [if_neg (by simpa using hs)]
    simp only [negativesMask]
    cases hn : c.names with
    | none => exact ⟨T, m, rfl, hr, hcols, m2, m3, fun i hi k hk => ⟨rfl, rfl⟩⟩
    | some names =>
      have hfit := hc.names names hn
      simp only
      by_cases hne : names = []
      · rw [if_pos hne]
        exact ⟨T, m, rfl, hr, hcols, m2, m3, fun i hi k hk => ⟨rfl, rfl⟩⟩
      · rw [if_neg hne]
        simp only [applyNegatives, bind, Except.bind, Truths.len]
        have hnl : names.length = G.cols := hfit.resolve_left hne
        obtain ⟨A, x1, x2, x3, x4⟩ := npUpdate_ok (· * ·) T (Mat.ofFn T.rows names.length (fun _ _ => (1 : ℝ))) rfl
          (by show names.length = _; omega)
        obtain ⟨B, y1, y2, y3, y4⟩ := npUpdate_ok (· * ·) m
          ((Mat.ofFn T.rows names.length (fun _ _ => (1 : ℝ))).map (fun x => if x = -1 then 1 else x))
          (by show T.rows = _; omega) (by show names.length = _; omega)
        rw [x1]
        simp only
        rw [y1]
        refine ⟨_, B, rfl, by show A.rows = _; omega, by show A.cols = _; omega, by omega, by omega, fun i hi k hk => ?_⟩
        rw [map_at, x4 i (by omega) k (by omega), y4 i (by omega) k (by omega), map_at,
          ofFn_at _ _ _ _ _ (by omega)]
        have := (hT i (by omega) k (by omega)).1
        rw [mul_one, if_neg (by linarith), if_neg (by norm_num), mul_one]
        exact ⟨rfl, rfl⟩
  obtain ⟨T2, M, a1, a2, a3, a4, a5, a6⟩ := key
  obtain ⟨D, d1, d2, d3, d4⟩ := getGrad_ok c (.floats T) G T2 M a1 a2 a3 a4 a5 hc.prob (fun i hi k hk => by
    rw [(a6 i hi k hk).1]
    exact hT i (by omega) k (by omega))
  refine ⟨D, d1, d2, d3, fun i hi k hk => ?_⟩
  have e := d4 i hi k hk
  rw [(a6 i hi k hk).1, (a6 i hi k hk).2] at e
  refine ⟨fun h => ?_, fun h => ?_⟩
  · rw [e, (m4 i hi k hk).1 h]; simp
  · rw [e, (m4 i hi k hk).2 h, mul_one]; rfl

/-! ## The gradient is that of the cross entropy -/

/-- The cross entropy of a batch: the sum over the rows with a target of the cross entropy of the softmax of the
logits, divided by the batch size if `normalize` is set. -/
noncomputable def batchXent (c : CCE) {n m : Nat} (target : Fin n → Option (Fin m → ℝ)) (Z : Fin n → Fin m → ℝ) : ℝ :=
  ∑ i, (match target i with | none => 0 | some t => crossEntropy t (Spec.softmax (Z i))) / c.divisor n

theorem IsVJP_batchXent (c : CCE) {n m : Nat} (target : Fin n → Option (Fin m → ℝ)) (Z : Fin n → Fin m → ℝ)
    (ht : ∀ i t, target i = some t → ∑ k, t k = 1) :
    IsVJP (batchXent c target) Z (fun dl i k => dl *
      (match target i with | none => 0 | some t => (Spec.softmax (Z i) k - t k) / c.divisor n)) := by
  unfold batchXent
  have h := IsVJP_pi (f := fun (i : Fin n) (z : Fin m → ℝ) =>
      (match target i with | none => 0 | some t => crossEntropy t (Spec.softmax z)) / c.divisor n) (x := Z)
      (b := fun i dl k => dl * (match target i with | none => 0 | some t => (Spec.softmax (Z i) k - t k) / c.divisor n)) ?_
  · exact IsVJP_comp (IsVJP_sum _) h
  · intro i
    cases hti : target i with
    | none =>
      refine IsVJP_congr₂ (IsVJP_const (0 : ℝ) (Z i)) (fun _ => by simp) (fun dl => ?_)
      funext k
      simp
    | some t =>
      have h3 : IsVJP (fun x : ℝ => x / c.divisor n) (crossEntropy t (Spec.softmax (Z i))) (fun dy => dy * (1 / c.divisor n)) :=
        IsVJP_of_hasDerivAt ((hasDerivAt_id _).div_const _)
      refine IsVJP_congr₂ (IsVJP_comp h3 (IsVJP_xent t (Z i) (ht i t hti))) (fun _ => rfl) (fun dl => ?_)
      funext k
      simp only
      ring

theorem softmax_isProb {n m : Nat} (Z : Fin n → Fin m → ℝ) : isProb (toMat fun i => Spec.softmax (Z i)) := by
  intro i hi k hk
  have e := toMat_at (fun i => Spec.softmax (Z i)) ⟨i, hi⟩ ⟨k, hk⟩
  simp only at e
  rw [e]
  have : Nonempty (Fin m) := ⟨⟨k, hk⟩⟩
  refine ⟨(specSoftmax_pos _ _).le, ?_⟩
  rw [← specSoftmax_sum (Z ⟨i, hi⟩)]
  exact Finset.single_le_sum (f := fun k => Spec.softmax (Z ⟨i, hi⟩) k) (fun j _ => (specSoftmax_pos _ j).le) (Finset.mem_univ _)

/-- **C46** (gradient, labels).  If the guesses are the softmax of logits `Z`, the returned array is the gradient
of the batch's cross entropy with respect to the logits; the target of a row is the (smoothed) one-hot row of its
label, and rows with the missing value do not count. -/
theorem C46_gradient_labels (c : CCE) {n m : Nat} (Z : Fin n → Fin m → ℝ) (hs : validSmoothing m c.smoothing)
    (hn : c.namesFit m) (ts : List Int) (hlen : ts.length = n)
    (hts : ∀ y ∈ ts, (0 ≤ y ∧ y < m) ∨ (c.missing = .int y ∧ -(m : Int) ≤ y ∧ y < m))
    (truths : Truths) (htr : truths = .intList ts ∨ truths = .intArray ts)
    (target : Fin n → Option (Fin m → ℝ))
    (hmiss : ∀ i : Fin n, c.missing = .int (ts.get (i.cast hlen.symm)) → target i = none)
    (htgt : ∀ i : Fin n, c.missing ≠ .int (ts.get (i.cast hlen.symm)) →
      target i = some (fun k : Fin m => smoothed m c.smoothing (ts.get (i.cast hlen.symm)).toNat k)) :
    ∃ D, c.getGrad (toMat fun i => Spec.softmax (Z i)) truths = .ok D ∧
      IsVJP (batchXent c target) Z (fun dl i k => dl * D.at i k) := by
  obtain ⟨D, d1, d2, d3, d4⟩ := C46_int_labels_partial c (toMat fun i => Spec.softmax (Z i)) ⟨hs, hn, softmax_isProb Z⟩
    ts hlen hts truths htr
  refine ⟨D, d1, IsVJP_congr₂ (IsVJP_batchXent c target Z ?_) (fun _ => rfl) (fun dl => ?_)⟩
  · intro i t hit
    by_cases hm : c.missing = .int (ts.get (i.cast hlen.symm))
    · rw [hmiss i hm] at hit; simp at hit
    · rw [htgt i hm] at hit
      obtain rfl := Option.some.inj hit
      rw [Fin.sum_univ_eq_sum_range (fun k => smoothed m c.smoothing (ts.get (i.cast hlen.symm)).toNat k)]
      refine smoothed_sum m c.smoothing _ ?_ ?_
      · rcases hts _ (List.get_mem ts (i.cast hlen.symm)) with h | h
        · omega
        · exact absurd h.1 hm
      · rcases hs with h | h
        · exact Or.inl h.1
        · exact Or.inr h.2.1
  · funext i k
    have hi : i.val < ts.length := by omega
    obtain ⟨e1, e2⟩ := d4 i.val hi k.val k.2
    by_cases hm : c.missing = .int ts[i.val]
    · rw [e1 hm, hmiss i hm]
    · rw [e2 hm, htgt i hm, toMat_at]
      rfl

/-- The hypotheses can be met: two rows, three classes, label 2 and the missing value 1. -/
example : ∃ (c : CCE) (target : Fin 2 → Option (Fin 3 → ℝ)), validSmoothing 3 c.smoothing ∧ c.namesFit 3 ∧
    c.missing = .int 1 ∧ c.smoothing = 0.5 ∧ target 1 = none ∧
    target 0 = some (fun k : Fin 3 => smoothed 3 c.smoothing 2 k) :=
  ⟨⟨true, none, .int 1, none, 0.5⟩, ![some (fun k : Fin 3 => smoothed 3 0.5 2 k), none],
    Or.inr (by norm_num), fun _ h => by simp at h, rfl, rfl, rfl, rfl⟩

/-- **C46** (gradient, target matrix).  The same for target matrices whose rows are probability distributions,
when no row stands for the missing value. -/
theorem C46_gradient_matrix (c : CCE) {n m : Nat} (hm : 0 < m) (Z T : Fin n → Fin m → ℝ) (hs : c.smoothing = 0)
    (hn : c.namesFit m) (hT : ∀ i k, 0 ≤ T i k ∧ T i k ≤ 1) (hsum : ∀ i, ∑ k, T i k = 1)
    (hmiss : ∀ i < n, ¬ missingRow c (toMat T) i) :
    ∃ D, c.getGrad (toMat fun i => Spec.softmax (Z i)) (.floats (toMat T)) = .ok D ∧
      IsVJP (batchXent c (fun i => some (T i))) Z (fun dl i k => dl * D.at i k) := by
  obtain ⟨D, d1, d2, d3, d4⟩ := C46_matrix_targets c (toMat fun i => Spec.softmax (Z i)) (toMat T)
    ⟨Or.inl ⟨hs, hm⟩, hn, softmax_isProb Z⟩ hs rfl rfl (fun i hi k hk => by
      have e := toMat_at T ⟨i, hi⟩ ⟨k, hk⟩
      simp only at e
      rw [e]
      exact hT _ _)
  refine ⟨D, d1, IsVJP_congr₂ (IsVJP_batchXent c _ Z ?_) (fun _ => rfl) (fun dl => ?_)⟩
  · intro i t hit
    obtain rfl := Option.some.inj hit
    exact hsum i
  · funext i k
    rw [(d4 i i.2 k k.2).2 (hmiss i i.2), toMat_at, toMat_at]
    rfl

example : ∃ T : Fin 1 → Fin 2 → ℝ, (∀ i k, 0 ≤ T i k ∧ T i k ≤ 1) ∧ (∀ i, ∑ k, T i k = 1) ∧
    ∀ i < 1, ¬ missingRow ⟨true, none, .none, none, 0⟩ (toMat T) i := by
  refine ⟨fun _ _ => 1 / 2, fun _ _ => by norm_num, fun _ => by norm_num, ?_⟩
  rintro i _ ⟨v, h, _⟩
  simp at h

/-! ## The loss -/

/-- **C46** (loss).  `get_loss` and `__call__` return the sum of the squared entries of what `get_grad` returns
(this is not the cross entropy), with the same exceptions; it is non-negative. -/
theorem C46_loss (c : CCE) (G : Mat ℝ) (truths : Truths) :
    (∀ e, c.getGrad G truths = .error e → c.getLoss G truths = .error e ∧ c.call G truths = .error e) ∧
    (∀ D, c.getGrad G truths = .ok D → ∃ l, c.getLoss G truths = .ok l ∧ c.call G truths = .ok (D, l) ∧
      l = ∑ i ∈ range D.rows, ∑ k ∈ range D.cols, D.at i k ^ 2 ∧ 0 ≤ l) := by
  refine ⟨fun e h => ?_, fun D h => ?_⟩
  · simp only [CCE.getLoss, CCE.call, h, bind, Except.bind, and_self]
  · refine ⟨lossFromGrad D, by simp only [CCE.getLoss, h, bind, Except.bind]; rfl,
      by simp only [CCE.call, h, bind, Except.bind]; rfl, rfl, ?_⟩
    show (0 : ℝ) ≤ ∑ i ∈ range D.rows, ∑ k ∈ range D.cols, D.at i k ^ 2
    exact Finset.sum_nonneg fun i _ => Finset.sum_nonneg fun k _ => sq_nonneg (D.at i k)

/-! ## Errors -/

/-- **C46** (errors): a list of strings without names is a ValueError. -/
theorem C46_strings_without_names (c : CCE) (G : Mat ℝ) (t : PyStr) (ts : List PyStr) (h : c.names = none) :
    c.getGrad G (.strList (t :: ts)) = .error .valueError := by
  simp [CCE.getGrad, CCE.convertTruths, readTruths, h, bind, Except.bind]

/-- **C46** (errors): a string that is neither a name, nor the missing value, nor negates a name, is a KeyError. -/
theorem C46_unknown_name (c : CCE) (G : Mat ℝ) (names : List PyStr) (hn : names.Nodup) (hne : names ≠ [])
    (hnames : c.names = some names) (pre : List PyStr) (ms : List Meaning) (hpre : List.Forall₂ (Reads c names) pre ms)
    (v : PyStr) (post : List PyStr) (hm : c.missing ≠ .str v) (hv : v ∉ names)
    (hp : ∀ p, c.negPrefix = some p → p ≠ [] → ∀ rest, v = p ++ rest → rest ∉ names)
    (hpost : ∃ ms', List.Forall₂ (Reads c names) post ms') :
    c.getGrad G (.strList (pre ++ v :: post)) = .error .keyError := by
  classical
  obtain ⟨ms', hpost⟩ := hpost
  have hconv : ∀ (xs : List PyStr) (ys : List Meaning), List.Forall₂ (Reads c names) xs ys → xs.mapM (convertStr c names) = .ok (ys.map (Meaning.stored names)) := by
    intro xs ys h
    refine mapM_forall2 ?_
    rw [List.forall₂_map_right_iff]
    exact h.imp fun v m h => (convertStr_ok c names hn hne v m h).1
  have hlook : ∀ ys : List Meaning, (∀ y ∈ ys, ∃ x, Reads c names x y) → ∃ ls, (ys.map (Meaning.stored names)).mapM (fun r => lookupName names r.1) = .ok ls := by
    intro ys h
    induction ys with
    | nil => exact ⟨[], rfl⟩
    | cons y ys ih =>
      obtain ⟨ls, e⟩ := ih (fun z hz => h z (List.mem_cons_of_mem _ hz))
      obtain ⟨x, hx⟩ := h y List.mem_cons_self
      have hy := (convertStr_ok c names hn hne x y hx).2
      have e1 : (y.stored names).1 = names[y.cls] := by
        have e2 : names.getD y.cls [] = names[y.cls] := by simp [hy]
        rw [← e2]
        cases y <;> rfl
      refine ⟨y.cls :: ls, ?_⟩
      rw [List.map_cons, List.mapM_cons, e1, lookupName_getElem names hn _ hy, e]
      rfl
  have hread : readTruths c (.strList (pre ++ v :: post)) G = .error .keyError := by
    simp only [readTruths]
    rw [if_neg (by simp), hnames]
    simp only [bind, Except.bind]
    by_cases hneg : ∃ p, c.negPrefix = some p ∧ v ≠ [] ∧ p ≠ [] ∧ p.isPrefixOf v
    · -- the lookup of the negated name fails
      obtain ⟨p, h1, h2, h3, h4⟩ := hneg
      have hbad : convertStr c names v = .error .keyError := by
        unfold convertStr
        rw [if_neg hm, h1]
        simp only
        rw [if_pos ⟨h2, h3, h4⟩]
        obtain ⟨rest, hrest⟩ := List.isPrefixOf_iff_prefix.1 h4
        have : lookupName names (v.drop p.length) = .error .keyError := by
          refine lookupName_notMem names _ ?_
          rw [← hrest, List.drop_left]
          exact hp p h1 h3 rest hrest.symm
        simp only [bind, Except.bind, this]
      rw [List.mapM_append, hconv pre ms hpre, List.mapM_cons, hbad]
      rfl
    · have hbad : convertStr c names v = .ok (v, false, none) := by
        unfold convertStr
        rw [if_neg hm]
        cases hq : c.negPrefix with
        | none => rfl
        | some p =>
          simp only
          rw [if_neg (fun h => hneg ⟨p, hq, h⟩)]
      have e : (pre ++ v :: post).mapM (convertStr c names) =
          .ok (ms.map (Meaning.stored names) ++ (v, false, none) :: ms'.map (Meaning.stored names)) := by
        rw [List.mapM_append, hconv pre ms hpre, List.mapM_cons, hbad, hconv post ms' hpost]
        rfl
      rw [e]
      obtain ⟨ls, els⟩ := hlook ms (fun y hy => by
        obtain ⟨i, hi, rfl⟩ := List.getElem_of_mem hy
        exact ⟨_, (List.forall₂_iff_get.1 hpre).2 i (by rw [hpre.length_eq]; exact hi) hi⟩)
      simp only
      rw [List.mapM_append, els, List.mapM_cons, lookupName_notMem names v hv]
      rfl
  simp only [CCE.getGrad, CCE.convertTruths, hread, bind, Except.bind]

/-- **C46** (errors): too few or too many labels, and probabilities outside [0,1], are ValueErrors; so is label
smoothing with a matrix of targets. -/
theorem C46_bad_matrix (c : CCE) (G T : Mat ℝ) (hn : c.names = none) (hm : c.missing = .none)
    (hbad : T.rows ≠ G.rows ∨ T.cols ≠ G.cols ∨ ¬ isProb G ∨ ¬ isProb T ∨ c.smoothing ≠ 0) :
    c.getGrad G (.floats T) = .error .valueError := by
  classical
  simp only [CCE.getGrad, CCE.convertTruths, readTruths, makeMaskByValue, hm, bind, Except.bind, pure, Except.pure,
    targetMatrix, negativesMask, hn]
  by_cases hs : c.smoothing ≠ 0
  · rw [if_pos hs]
  rw [if_neg hs]
  simp only [applyNegatives]
  by_cases h1 : G.rows ≠ T.rows ∨ G.cols ≠ T.cols
  · rw [if_pos h1]
  rw [if_neg h1]
  by_cases h2 : G.anyEntry (· > 1) ∨ G.anyEntry (· < 0)
  · rw [if_pos h2]
  rw [if_neg h2]
  by_cases h3 : T.anyEntry (· > 1) ∨ T.anyEntry (· < 0)
  · rw [if_pos h3]
  exfalso
  have hprob : ∀ A : Mat ℝ, ¬ (A.anyEntry (· > 1) ∨ A.anyEntry (· < 0)) → isProb A := by
    intro A h i hi k hk
    refine ⟨?_, ?_⟩ <;> by_contra hx
    · exact h (Or.inr ⟨i, hi, k, hk, by linarith⟩)
    · exact h (Or.inl ⟨i, hi, k, hk, by linarith⟩)
  rcases hbad with h | h | h | h | h
  · exact h1 (Or.inl (Ne.symm h))
  · exact h1 (Or.inr (Ne.symm h))
  · exact h (hprob G h2)
  · exact h (hprob T h3)
  · exact hs h

/-- **C46** (found by the model): a negated label cannot be used together with label smoothing.  The smoothed
target becomes `-(1 - s)` instead of 0, and `get_grad` raises ValueError for every batch that has one. -/
theorem C46_negated_with_smoothing_raises (c : CCE) (G : Mat ℝ) (names : List PyStr) (hn : names.Nodup)
    (hnames : c.names = some names) (hcols : names.length = G.cols) (ts : List PyStr) (ms : List Meaning)
    (hreads : List.Forall₂ (Reads c names) ts ms) (hlen : ts.length = G.rows)
    (hs : validSmoothing G.cols c.smoothing) (hpos : 0 < c.smoothing) (j : Nat) (hneg : Meaning.negates j ∈ ms) :
    c.getGrad G (.strList ts) = .error .valueError := by
  classical
  have hlt : c.smoothing < 1 ∧ 1 < G.cols := by
    rcases hs with h | h
    · linarith [h.1]
    · refine ⟨lt_of_lt_of_le h.2.2 ?_, h.2.1⟩
      have : (0 : ℝ) < G.cols := by exact_mod_cast (by omega : 0 < G.cols)
      rw [div_le_one this]
      linarith
  have hne : names ≠ [] := by intro e; rw [e] at hcols; simp at hcols; omega
  have hml : ms.length = ts.length := hreads.length_eq.symm
  have hts : ts ≠ [] := by
    intro e
    rw [e] at hml
    rw [List.eq_nil_of_length_eq_zero hml] at hneg
    simp at hneg
  have hcls := reads_cls c names hn hne ts ms hreads
  obtain ⟨mask, hread, m2, m3, m4⟩ := readStr_ok c G names hn hne hnames ts ms hreads hlen hts
  obtain ⟨T, t1, t2, t3, t4⟩ := toCategorical_ok ((ms.map Meaning.cls).map Int.ofNat) Int.toNat G.cols c.smoothing hs (by
    intro y hy
    simp only [List.mem_map] at hy
    obtain ⟨_, ⟨m, hm, rfl⟩, rfl⟩ := hy
    exact npAxisIndex_nat _ _ (by have := hcls m hm; omega))
  simp only [List.length_map] at t2
  unfold CCE.getGrad CCE.convertTruths
  simp only [hread, bind, Except.bind, targetMatrix, t1]
  have hN : negativesMask c (Truths.strList ts).len (fun i => (ms[i]?).bind Meaning.neg) = some (Mat.ofFn ts.length names.length
      (fun i k => match (ms[i]?).bind Meaning.neg with | none => 1 | some j => if k = j then -1 else 0)) := by
    simp only [negativesMask, hnames, if_neg hne]
    rfl
  rw [hN]
  generalize hNN : (Mat.ofFn ts.length names.length
      (fun i k => match (ms[i]?).bind Meaning.neg with | none => (1 : ℝ) | some j => if k = j then -1 else 0)) = N
  have n1 : N.rows = ts.length := by rw [← hNN]; rfl
  have n2 : N.cols = names.length := by rw [← hNN]; rfl
  simp only [applyNegatives, bind, Except.bind]
  obtain ⟨A, x1, x2, x3, x4⟩ := npUpdate_ok (· * ·) T N (by omega) (by omega)
  obtain ⟨B, y1, y2, y3, y4⟩ := npUpdate_ok (· * ·) mask (N.map (fun x => if x = -1 then 1 else x))
    (by show N.rows = _; omega) (by show N.cols = _; omega)
  rw [x1]
  simp only
  rw [y1]
  simp only [pure, Except.pure]
  by_cases h1 : G.rows ≠ (A.map (fun x => if x = -1 then 0 else x)).rows ∨ G.cols ≠ (A.map (fun x => if x = -1 then 0 else x)).cols
  · rw [if_pos h1]
  rw [if_neg h1]
  by_cases h2 : G.anyEntry (· > 1) ∨ G.anyEntry (· < 0)
  · rw [if_pos h2]
  rw [if_neg h2]
  rw [if_pos]
  obtain ⟨i, hi, hij⟩ := List.getElem_of_mem hneg
  have hj := hcls _ hneg
  simp only [Meaning.cls] at hj
  refine Or.inr ⟨i, by show i < A.rows; omega, j, by show j < A.cols; omega, ?_⟩
  have e := x4 i (by omega) j (by omega)
  have e2 := t4 i (by simp only [List.length_map]; exact hi) j (by omega)
  have e3 : N.at i j = -1 := by
    rw [← hNN, ofFn_at _ _ _ _ _ hj, List.getElem?_eq_getElem hi, hij]
    simp [Meaning.neg]
  rw [map_at, e, e2, e3]
  have e4 : smoothed G.cols c.smoothing (((ms.map Meaning.cls).map Int.ofNat)[i]'(by simp only [List.length_map]; exact hi)).toNat j = 1 - c.smoothing := by
    simp [smoothed, hij, Meaning.cls]
  rw [e4, if_neg (by linarith)]
  linarith

/-- The hypotheses can be met. -/
example : ∃ c : CCE, c.names = some [['a'], ['b']] ∧ 0 < c.smoothing ∧ validSmoothing 2 c.smoothing ∧
    Reads c [['a'], ['b']] ['!', 'b'] (.negates 1) :=
  ⟨⟨true, some [['a'], ['b']], .none, some ['!'], 0.25⟩, rfl, by norm_num, Or.inr (by norm_num),
    Reads.negates ['!'] 1 (by decide) rfl (by decide) (by simp)⟩

end Thinc
