import Verif.Model.PoolLayers
import Verif.Spec.Pooling
import Verif.Lemmas.Columns
import Verif.Lemmas.Attention
import Verif.Props.MaxoutLayer
import Verif.Props.PoolEnds
/-!
# C75: the pooling layers
-/
namespace Thinc
open Spec Spec.Tensor Topology

section
variable {N : ℕ} {sh : Fin N → ℕ × ℕ} {m : ℕ} {ls : List ℕ}

theorem seqLen_eq (b : Fin ls.length) : seqLen ls b = ls.get b := by
  simp [seqLen, List.getD_eq_getElem?_getD]

theorem rowOf_surj (i : Fin ls.sum) : ∃ b t, rowOf ls b t = i := by
  obtain ⟨hb, t, ht, e⟩ := memberOf_spec ls i i.2
  exact ⟨⟨_, hb⟩, ⟨t, by rw [← seqLen_eq]; exact ht⟩, Fin.ext e.symm⟩

theorem rowOf_inj {b c : Fin ls.length} {t : Fin (ls.get b)} {s : Fin (ls.get c)} (h : rowOf ls b t = rowOf ls c s) :
    b = c ∧ (t : ℕ) = s := by
  have h1 := memberOf_start ls b t (by rw [seqLen_eq]; exact t.2)
  have h2 := memberOf_start ls c s (by rw [seqLen_eq]; exact s.2)
  have h3 : seqStart ls b + t = seqStart ls c + s := congrArg Fin.val h
  have h4 : (b : ℕ) = c := by rw [← h1, ← h2, h3]
  refine ⟨Fin.ext h4, ?_⟩
  rw [h4] at h3
  omega

theorem sum_rowOf (f : Fin ls.sum → ℝ) : ∑ i, f i = ∑ b, ∑ t, f (rowOf ls b t) := by
  rw [Finset.sum_sigma', Finset.univ_sigma_univ]
  refine (Finset.sum_bij (fun (p : (b : Fin ls.length) × Fin (ls.get b)) _ => rowOf ls p.1 p.2) (fun _ _ => Finset.mem_univ _) ?_ ?_
    fun _ _ => rfl).symm
  · rintro ⟨b, t⟩ - ⟨c, s⟩ - h
    obtain ⟨h1, h2⟩ := rowOf_inj h
    dsimp only at h1 h2 s t
    subst h1
    rw [show t = s from Fin.ext h2]
  · intro i _
    obtain ⟨b, t, h⟩ := rowOf_surj i
    exact ⟨⟨b, t⟩, Finset.mem_univ _, h⟩

/-- The transpose of a weighted sum of the items of each sequence. -/
noncomputable def poolBack (ls : List ℕ) (c : (b : Fin ls.length) → Fin (ls.get b) → Fin m → ℝ) (d : Fin ls.length → Fin m → ℝ) :
    Fin ls.sum → Fin m → ℝ :=
  fun i o => c (rowOf_surj i).choose (rowOf_surj i).choose_spec.choose o * d (rowOf_surj i).choose o

theorem poolBack_rowOf (c : (b : Fin ls.length) → Fin (ls.get b) → Fin m → ℝ) (d : Fin ls.length → Fin m → ℝ) (b : Fin ls.length)
    (t : Fin (ls.get b)) (o : Fin m) : poolBack ls c d (rowOf ls b t) o = c b t o * d b o := by
  unfold poolBack
  have h := (rowOf_surj (rowOf ls b t)).choose_spec.choose_spec
  generalize (rowOf_surj (rowOf ls b t)).choose_spec.choose = t' at h ⊢
  generalize (rowOf_surj (rowOf ls b t)).choose = b' at *
  obtain ⟨rfl, h2⟩ := rowOf_inj h
  rw [Fin.ext h2]

theorem IsVJP_pool (c : (b : Fin ls.length) → Fin (ls.get b) → Fin m → ℝ) (x : Fin ls.sum → Fin m → ℝ) :
    IsVJP (fun (x : Fin ls.sum → Fin m → ℝ) (b : Fin ls.length) o => ∑ t, c b t o * x (rowOf ls b t) o) x (poolBack ls c) := by
  refine IsVJP_linear' (fun x y => ?_) (fun a x => ?_) fun dy v => ?_
  · funext b o
    simp only [Pi.add_apply, mul_add, Finset.sum_add_distrib]
  · funext b o
    simp only [Pi.smul_apply, smul_eq_mul, Finset.mul_sum]
    exact Finset.sum_congr rfl fun t _ => by ring
  · simp only [dot_pi, dot_real]
    rw [sum_rowOf]
    refine Finset.sum_congr rfl fun b _ => ?_
    rw [Finset.sum_comm]
    refine Finset.sum_congr rfl fun o _ => ?_
    rw [Finset.mul_sum]
    exact Finset.sum_congr rfl fun t _ => by rw [poolBack_rowOf]; ring

/-- What the numbers of a gradient array are, from what they are in each sequence. -/
theorem isMat_seqs {A : Mat ℝ} {y : Fin ls.sum → Fin m → ℝ} (hr : A.rows = ls.sum) (hc : A.cols = m)
    (h : ∀ (b : Fin ls.length) (t : Fin (ls.get b)) (o : Fin m), seqAt A ls b t o = y (rowOf ls b t) o) : IsMat A y := by
  refine ⟨hr, hc, fun i o => ?_⟩
  obtain ⟨b, t, rfl⟩ := rowOf_surj i
  exact h b t o

theorem seqAt_eq {A : Mat ℝ} {x : Fin ls.sum → Fin m → ℝ} (hA : IsMat A x) (b : Fin ls.length) (t : Fin (ls.get b)) (o : Fin m) :
    seqAt A ls b t o = x (rowOf ls b t) o := hA.2.2 (rowOf ls b t) o

theorem IsVJP_input {E F : Type} [NormedAddCommGroup E] [NormedSpace ℝ E] [Tensor E] [NormedAddCommGroup F] [NormedSpace ℝ F]
    [Tensor F] {f : E → F} {x : E} {back : F → E} (h : IsVJP f x back) (θ : Params sh) :
    IsVJP (fun p : Params sh × E => f p.2) (θ, x) (fun dy => (0, back dy)) :=
  IsVJP_comp (f := fun p : Params sh × E => p.2) (x := (θ, x)) h (IsVJP_snd _)

theorem checkConsistency_ok {n : ℕ} {Y D : Mat ℝ} {y d : Fin n → Fin m → ℝ} (hY : IsMat Y y) (hD : IsMat D d) :
    checkConsistency Y D = .ok () := if_pos ⟨hD.1.trans hY.1.symm, hD.2.1.trans hY.2.1.symm⟩

/-- `reduce_sum` gives the sum of each sequence, with exact gradients.  Missing: batches without any row, which raise IndexError
(`C37_all_empty_raises`). -/
theorem C75_sum_partial (hn : 0 < ls.sum) (train : Bool) (θ : Params sh) (x : Fin ls.sum → Fin m → ℝ) :
    Exact reduceSumLayer train (Kind.ragged ls m) (Kind.arr ls.length m) (fun p => poolSum ls p.2) θ x := by
  have hv : IsVJP (poolSum (m := m) ls) x (poolBack ls fun _ _ _ => 1) :=
    IsVJP_congr (IsVJP_pool _ x) fun y => by
      funext b o
      simp only [poolSum, one_mul]
  refine Exact.intro (IsVJP_input hv θ) ?_
  rintro P v hP ⟨X, rfl, hX⟩
  obtain ⟨Y, eY, r, c, h⟩ := C37_reduce_sum_partial X ls (by rw [hX.1]; exact hn) (by rw [hX.1])
  rw [hX.2.1] at c h
  have hY : IsMat Y (poolSum ls x) := ⟨r, c, fun b o => by
    rw [h b b.2 o o.2, seqLen_eq, Finset.sum_range]
    exact Finset.sum_congr rfl fun t _ => seqAt_eq hX b t o⟩
  apply ok_intro
  · simp only [reduceSumLayer, Val.lengths, Val.raggedData, bind, Except.bind, pure, Except.pure]
    rw [show ls.map Int.ofNat = asInts ls from rfl, eY]
  · refine ⟨⟨Y, rfl, hY⟩, ?_⟩
    rintro _ dy G g ⟨D, rfl, hD⟩ hG
    obtain ⟨dX, e, r', c', h'⟩ := C37_backprop_reduce_sum D ls hD.1
    refine ⟨.ragged dX ls, G, ?_, ⟨dX, rfl, isMat_seqs r' (c'.trans hD.2.1) fun b t o => ?_⟩, by simpa using hG⟩
    · simp only [Val.asArr, checkConsistency_ok hY hD, e]
    · dsimp only
      rw [poolBack_rowOf, one_mul, h' b b.2 t (by rw [seqLen_eq]; exact t.2) o (by rw [hD.2.1]; exact o.2), hD.2.2]

/-- `reduce_mean` gives the mean of each sequence (zero for an empty one), with exact gradients.  Missing: batches without any
row. -/
theorem C75_mean_partial (hn : 0 < ls.sum) (train : Bool) (θ : Params sh) (x : Fin ls.sum → Fin m → ℝ) :
    Exact reduceMeanLayer train (Kind.ragged ls m) (Kind.arr ls.length m) (fun p => poolMean ls p.2) θ x := by
  have hv : IsVJP (poolMean (m := m) ls) x (poolBack ls fun b _ _ => 1 / (ls.get b : ℝ)) :=
    IsVJP_congr (IsVJP_pool _ x) fun y => by
      funext b o
      simp only [poolMean]
      split
      · rename_i h0
        have : IsEmpty (Fin (ls.get b)) := by rw [h0]; infer_instance
        exact (Finset.sum_of_isEmpty _).symm
      · rw [← Finset.mul_sum]
        ring
  refine Exact.intro (IsVJP_input hv θ) ?_
  rintro P v hP ⟨X, rfl, hX⟩
  obtain ⟨Y, eY, r, c, h⟩ := C37_reduce_mean_partial X ls (by rw [hX.1]; exact hn) (by rw [hX.1])
  rw [hX.2.1] at c h
  have hY : IsMat Y (poolMean ls x) := ⟨r, c, fun b o => by
    rw [h b b.2 o o.2, seqLen_eq, Finset.sum_range]
    simp only [poolMean]
    split
    · rfl
    · congr 1
      exact Finset.sum_congr rfl fun t _ => seqAt_eq hX b t o⟩
  apply ok_intro
  · simp only [reduceMeanLayer, Val.lengths, Val.raggedData, bind, Except.bind, pure, Except.pure]
    rw [show ls.map Int.ofNat = asInts ls from rfl, eY]
  · refine ⟨⟨Y, rfl, hY⟩, ?_⟩
    rintro _ dy G g ⟨D, rfl, hD⟩ hG
    obtain ⟨dX, e, r', c', h'⟩ := C37_backprop_reduce_mean D ls hD.1
    refine ⟨.ragged dX ls, G, ?_, ⟨dX, rfl, isMat_seqs r' (c'.trans hD.2.1) fun b t o => ?_⟩, by simpa using hG⟩
    · simp only [Val.asArr, checkConsistency_ok hY hD, e]
    · dsimp only
      rw [poolBack_rowOf, h' b b.2 t (by rw [seqLen_eq]; exact t.2) o (by rw [hD.2.1]; exact o.2), hD.2.2, seqLen_eq]
      ring

theorem noEmpty_mem (h : NoEmpty ls) : ∀ l ∈ ls, 0 < l := by
  intro l hl
  obtain ⟨b, rfl⟩ := List.get_of_mem hl
  exact h b

theorem IsVJP_poolMax (x : Fin ls.sum → Fin m → ℝ) (w : (b : Fin ls.length) → Fin m → Fin (ls.get b))
    (hw : ∀ b o t, t ≠ w b o → x (rowOf ls b t) o < x (rowOf ls b (w b o)) o) :
    IsVJP (poolMax (m := m) ls) x (poolBack ls fun b t o => if w b o = t then 1 else 0) := by
  refine IsVJP_congr_nhds (IsVJP_pool _ x) ?_
  have h2 : ∀ᶠ z in 𝓝 x, ∀ b o t, t ≠ w b o → z (rowOf ls b t) o < z (rowOf ls b (w b o)) o := by
    simp only [Filter.eventually_all]
    intro b o t ht
    have c : ∀ i, ContinuousAt (fun z : Fin ls.sum → Fin m → ℝ => z i o) x := fun i =>
      ((continuous_apply o).comp (continuous_apply i)).continuousAt
    exact (c _).eventually_lt (c _) (hw b o t ht)
  filter_upwards [h2] with z hz
  funext b o
  have : Nonempty (Fin (ls.get b)) := ⟨w b o⟩
  simp only [poolMax, ite_mul, one_mul, zero_mul, Finset.sum_ite_eq, Finset.mem_univ, if_true]
  refine le_antisymm (ciSup_le fun t => ?_) (le_ciSup (f := fun t => z (rowOf ls b t) o) (Set.finite_range _).bddAbove (w b o))
  by_cases ht : t = w b o
  · rw [ht]
  · exact (hz b o t ht).le

/-- `reduce_max` gives the maximum of each sequence, with exact gradients, when there are no empty sequences (these raise
ValueError, `C38_bad_lengths_raise`) and in every sequence and column one item is larger than the others. -/
theorem C75_max (junk : ℕ → ℝ) (hpos : NoEmpty ls) (train : Bool) (θ : Params sh) (x : Fin ls.sum → Fin m → ℝ)
    (hwin : ∀ b o, ∃ w, ∀ t, t ≠ w → x (rowOf ls b t) o < x (rowOf ls b w) o) :
    Exact (reduceMaxLayer junk) train (Kind.ragged ls m) (Kind.arr ls.length m) (fun p => poolMax ls p.2) θ x := by
  choose w hw using hwin
  refine Exact.intro (IsVJP_input (IsVJP_poolMax x w hw) θ) ?_
  rintro P v hP ⟨X, rfl, hX⟩
  obtain ⟨Y, W, eY, r, c, rW, cW, h⟩ := C38_reduce_max junk X ls (noEmpty_mem hpos) (by rw [hX.1])
  rw [hX.2.1] at c cW h
  have hYW : ∀ (b : Fin ls.length) (o : Fin m), Y.at b o = poolMax ls x b o ∧ W.at b o = (w b o : ℕ) := by
    intro b o
    obtain ⟨t, ⟨ht1, ht2, -⟩, g1, g2⟩ := h b b.2 o o.2
    rw [seqLen_eq] at ht1 ht2
    have htw : (⟨t, ht1⟩ : Fin (ls.get b)) = w b o := by
      by_contra hne
      have h1 := hw b o _ hne
      have h2 := ht2 (w b o) (w b o).2
      beta_reduce at h2
      rw [seqAt_eq hX b (w b o) o, seqAt_eq hX b ⟨t, ht1⟩ o] at h2
      exact absurd h2 (not_le.2 h1)
    have : Nonempty (Fin (ls.get b)) := ⟨w b o⟩
    refine ⟨?_, by rw [g2, ← htw]⟩
    rw [g1, seqAt_eq hX b ⟨t, ht1⟩ o, htw]
    refine le_antisymm (le_ciSup (f := fun t => x (rowOf ls b t) o) (Set.finite_range _).bddAbove _) (ciSup_le fun t => ?_)
    by_cases ht : t = w b o
    · rw [ht]
    · exact (hw b o t ht).le
  have hY : IsMat Y (poolMax ls x) := ⟨r, c, fun b o => (hYW b o).1⟩
  apply ok_intro
  · simp only [reduceMaxLayer, Val.lengths, Val.raggedData, bind, Except.bind, pure, Except.pure]
    rw [show ls.map Int.ofNat = asInts ls from rfl, eY]
  · refine ⟨⟨Y, rfl, hY⟩, ?_⟩
    rintro _ dy G g ⟨D, rfl, hD⟩ hG
    have hDW : ∀ b < ls.length, ∀ o < D.cols, ∃ t : ℕ, W.at b o = t ∧ t < seqLen ls b := fun b hb o ho => by
      rw [hD.2.1] at ho
      refine ⟨w ⟨b, hb⟩ ⟨o, ho⟩, (hYW ⟨b, hb⟩ ⟨o, ho⟩).2, ?_⟩
      rw [seqLen_eq ⟨b, hb⟩]
      exact (w _ _).2
    obtain ⟨dX, e, r', c', h'⟩ := (C38_backprop_reduce_max_partial D W ls (noEmpty_mem hpos) hD.1 rW (cW.trans hD.2.1.symm)
      (fun b hb o ho => by obtain ⟨t, h1, -⟩ := hDW b hb o ho; omega)).1
      (fun b hb o ho => by obtain ⟨t, h1, h2⟩ := hDW b hb o ho; omega)
    refine ⟨.ragged dX ls, G, ?_, ⟨dX, rfl, isMat_seqs r' (c'.trans hD.2.1) fun b t o => ?_⟩, by simpa using hG⟩
    · simp only [Val.asArr, checkConsistency_ok hY hD, e]
    · dsimp only
      rw [poolBack_rowOf, h' b b.2 t (by rw [seqLen_eq]; exact t.2) o (by rw [hD.2.1]; exact o.2), hD.2.2, (hYW b o).2]
      by_cases ht : w b o = t
      · rw [if_pos ht, if_pos (by rw [ht]), one_mul]
      · rw [if_neg ht, if_neg (fun h => ht (Fin.ext (by exact_mod_cast h))), zero_mul]

/-- `reduce_first` gives the first item of each sequence, with exact gradients. -/
theorem C75_first (hls : ls ≠ []) (hpos : NoEmpty ls) (train : Bool) (θ : Params sh) (x : Fin ls.sum → Fin m → ℝ) :
    Exact reduceFirstLayer train (Kind.ragged ls m) (Kind.arr ls.length m) (fun p => poolFirst ls hpos p.2) θ x := by
  have hv : IsVJP (poolFirst (m := m) ls hpos) x (poolBack ls fun b t _ => if ⟨0, hpos b⟩ = t then 1 else 0) :=
    IsVJP_congr (IsVJP_pool _ x) fun y => by
      funext b o
      simp only [poolFirst, ite_mul, one_mul, zero_mul, Finset.sum_ite_eq, Finset.mem_univ, if_true]
  refine Exact.intro (IsVJP_input hv θ) ?_
  rintro P v hP ⟨X, rfl, hX⟩
  obtain ⟨Y, se, eY, r, c, h⟩ := C39_reduce_first X ls (noEmpty_mem hpos) hls hX.1.symm
  rw [hX.2.1] at c h
  have hY : IsMat Y (poolFirst ls hpos x) := ⟨r, c, fun b o => by
    rw [h b b.2 o o.2]
    exact seqAt_eq hX b ⟨0, hpos b⟩ o⟩
  apply ok_intro
  · simp only [reduceFirstLayer, Val.lengths, Val.raggedData, bind, Except.bind, pure, Except.pure]
    rw [show ls.map Int.ofNat = asInts ls from rfl, eY]
  · refine ⟨⟨Y, rfl, hY⟩, ?_⟩
    rintro _ dy G g ⟨D, rfl, hD⟩ hG
    obtain ⟨Y', se', dX, e1, e, r', c', h'⟩ := C39_backprop_first X D ls (noEmpty_mem hpos) hls hX.1.symm hD.1
    obtain ⟨rfl, rfl⟩ : Y = Y' ∧ se = se' := by
      rw [eY] at e1
      simpa using e1
    refine ⟨.ragged dX ls, G, ?_, ⟨dX, rfl, isMat_seqs (r'.trans hX.1) (c'.trans hD.2.1) fun b t o => ?_⟩, by simpa using hG⟩
    · simp only [Val.asArr, checkConsistency_ok hY hD, e]
    · dsimp only
      rw [poolBack_rowOf, h' b b.2 t (by rw [seqLen_eq]; exact t.2) o (by rw [hD.2.1]; exact o.2), hD.2.2]
      by_cases ht : (t : ℕ) = 0
      · rw [if_pos ht, if_pos (Fin.ext ht.symm), one_mul]
      · rw [if_neg ht, if_neg (fun h => ht (congrArg Fin.val h).symm), zero_mul]

/-- `reduce_last` gives the last item of each sequence, with exact gradients. -/
theorem C75_last (hls : ls ≠ []) (hpos : NoEmpty ls) (train : Bool) (θ : Params sh) (x : Fin ls.sum → Fin m → ℝ) :
    Exact reduceLastLayer train (Kind.ragged ls m) (Kind.arr ls.length m) (fun p => poolLast ls hpos p.2) θ x := by
  have hv : IsVJP (poolLast (m := m) ls hpos) x
      (poolBack ls fun b t _ => if ⟨ls.get b - 1, Nat.sub_lt (hpos b) Nat.one_pos⟩ = t then 1 else 0) :=
    IsVJP_congr (IsVJP_pool _ x) fun y => by
      funext b o
      simp only [poolLast, ite_mul, one_mul, zero_mul, Finset.sum_ite_eq, Finset.mem_univ, if_true]
  refine Exact.intro (IsVJP_input hv θ) ?_
  rintro P v hP ⟨X, rfl, hX⟩
  obtain ⟨Y, se, eY, r, c, h⟩ := C39_reduce_last X ls (noEmpty_mem hpos) hls hX.1.symm
  rw [hX.2.1] at c h
  have hY : IsMat Y (poolLast ls hpos x) := ⟨r, c, fun b o => by
    rw [h b b.2 o o.2, seqLen_eq]
    exact seqAt_eq hX b ⟨ls.get b - 1, Nat.sub_lt (hpos b) Nat.one_pos⟩ o⟩
  apply ok_intro
  · simp only [reduceLastLayer, Val.lengths, Val.raggedData, bind, Except.bind, pure, Except.pure]
    rw [show ls.map Int.ofNat = asInts ls from rfl, eY]
  · refine ⟨⟨Y, rfl, hY⟩, ?_⟩
    rintro _ dy G g ⟨D, rfl, hD⟩ hG
    obtain ⟨Y', se', dX, e1, e, r', c', h'⟩ := C39_backprop_last X D ls (noEmpty_mem hpos) hls hX.1.symm hD.1
    obtain ⟨rfl, rfl⟩ : Y = Y' ∧ se = se' := by
      rw [eY] at e1
      simpa using e1
    refine ⟨.ragged dX ls, G, ?_, ⟨dX, rfl, isMat_seqs (r'.trans hX.1) (c'.trans hD.2.1) fun b t o => ?_⟩, by simpa using hG⟩
    · simp only [Val.asArr, checkConsistency_ok hY hD, e]
    · dsimp only
      rw [poolBack_rowOf, h' b b.2 t (by rw [seqLen_eq]; exact t.2) o (by rw [hD.2.1]; exact o.2), hD.2.2, seqLen_eq]
      have := hpos b
      by_cases ht : (t : ℕ) + 1 = ls.get b
      · rw [if_pos ht, if_pos (Fin.ext (show ls.get b - 1 = t by omega)), one_mul]
      · rw [if_neg ht, if_neg (fun h => ht (by have := congrArg Fin.val h; simp only at this; omega)), zero_mul]

/-- The callbacks reject a gradient of another shape than the output. -/
theorem C75_shape_checked (hn : 0 < ls.sum) (train : Bool) (P : ParamVals) (X : Mat ℝ) (hX : X.rows = ls.sum) (D : Mat ℝ) (G : GradStore)
    (hD : D.rows ≠ ls.length ∨ D.cols ≠ X.cols) :
    (∃ Y callback, reduceSumLayer train P (.ragged X ls) = .ok (Y, callback) ∧ callback (.arr D) G = .error .valueError) ∧
    ∃ Y callback, reduceMeanLayer train P (.ragged X ls) = .ok (Y, callback) ∧ callback (.arr D) G = .error .valueError := by
  obtain ⟨Y, eY, r, c, -⟩ := C37_reduce_sum_partial X ls (by rw [hX]; exact hn) (by rw [hX])
  obtain ⟨Z, eZ, r', c', -⟩ := C37_reduce_mean_partial X ls (by rw [hX]; exact hn) (by rw [hX])
  have h1 : ¬ (D.rows = Y.rows ∧ D.cols = Y.cols) := by rw [r, c]; tauto
  have h2 : ¬ (D.rows = Z.rows ∧ D.cols = Z.cols) := by rw [r', c']; tauto
  constructor
  · refine ⟨.arr Y, _, by
      simp only [reduceSumLayer, Val.lengths, Val.raggedData, bind, Except.bind, pure, Except.pure]
      rw [show ls.map Int.ofNat = asInts ls from rfl, eY], ?_⟩
    simp only [Val.asArr, checkConsistency, h1, if_false]
  · refine ⟨.arr Z, _, by
      simp only [reduceMeanLayer, Val.lengths, Val.raggedData, bind, Except.bind, pure, Except.pure]
      rw [show ls.map Int.ofNat = asInts ls from rfl, eZ], ?_⟩
    simp only [Val.asArr, checkConsistency, h2, if_false]
end

/-- Two sequences, of two rows and one row; the first has its maximum in its second row. -/
example (junk : ℕ → ℝ) (θ : Params (fun p : Fin 0 => p.elim0)) :=
  C75_max (ls := [2, 1]) (m := 1) junk (by intro b; fin_cases b <;> decide) true θ (fun i _ => (i : ℝ)) (by
    intro b o
    fin_cases b
    · refine ⟨⟨1, by decide⟩, fun t ht => ?_⟩
      have : (t : ℕ) = 0 := by
        have h1 : (t : ℕ) < 2 := t.2
        have h2 : (t : ℕ) ≠ 1 := fun h => ht (Fin.ext h)
        omega
      simp [rowOf, this]
    · refine ⟨⟨0, by decide⟩, fun t ht => absurd (Fin.ext ?_) ht⟩
      have h1 : (t : ℕ) < 1 := t.2
      simp only
      omega)

example (θ : Params (fun p : Fin 0 => p.elim0)) (x : Fin [2, 0, 1].sum → Fin 3 → ℝ) := C75_mean_partial (by decide) true θ x

end Thinc
