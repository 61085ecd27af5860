import Verif.Lemmas.MemSafeLayers
import Verif.Model.TextInit
/-!
# Layers that stay inside their buffers: the single layers and the sequence wrappers
-/
namespace Thinc

theorem Safely.of_error {α β : Type} {Q : α → Prop} {R : β → Prop} {r : Except PyErr α} {e : PyErr} (h : Safely Q r)
    (he : r = .error e) : Safely R (.error e : Except PyErr β) := by
  subst he; exact h

theorem safely_map {α β : Type} {r : Except PyErr α} {f : α → β} (h : Safely (fun _ => True) r) :
    Safely (fun _ => True) (r.map f) := by
  cases r with
  | ok a => trivial
  | error e => exact h

/-! ### Dense layers -/

theorem leaf_lift₂ (f : (ℕ → ℝ) → (ℕ → ℝ) → ℕ → ℝ) (A B : Mat ℝ) : Safely (fun _ => True) (Mat.lift₂ f A B) := by
  unfold Mat.lift₂; safe_all
macro_rules | `(tactic| safe_leaf) => `(tactic| exact leaf_lift₂ _ _ _)
theorem leaf_opsAffine (X W b : Mat ℝ) : Safely (fun _ => True) (opsAffine X W b) := by unfold opsAffine; safe_all
macro_rules | `(tactic| safe_leaf) => `(tactic| exact leaf_opsAffine _ _ _)
theorem leaf_denseBackprop (W b : ℕ) (bf : Bool) (P : ParamVals) (X dY : Mat ℝ) (G : GradStore) :
    Safely (fun _ => True) (denseBackprop W b bf P X dY G) := by unfold denseBackprop; safe_all
macro_rules | `(tactic| safe_leaf) => `(tactic| exact leaf_denseBackprop _ _ _ _ _ _ _)
theorem leaf_backpropClippedLinear (a b c d : ℝ) (dY X : ℕ → ℝ) : Safely (fun _ => True) (backpropClippedLinear a b c d dY X) := by
  unfold backpropClippedLinear; safe_all
macro_rules | `(tactic| safe_leaf) => `(tactic| exact leaf_backpropClippedLinear _ _ _ _ _ _)

theorem safe_dense (W b : ℕ) (bf : Bool) (act : (ℕ → ℝ) → ℕ → ℝ) (back : Mat ℝ → Mat ℝ → Mat ℝ → Mat ℝ → Except PyErr (Mat ℝ))
    (h : ∀ X p Y dY, Safely (fun _ => True) (back X p Y dY)) : LayerSafe (dense W b bf act back) := by
  intro train P X
  unfold dense
  have h' := h
  safe_all
  exact h _ _ _ _

theorem safe_linear (W b : ℕ) : LayerSafe (linear W b) := by intro train P X; unfold linear; safe_all
theorem safe_reluLayer (W b : ℕ) : LayerSafe (reluLayer W b) := safe_dense _ _ _ _ _ fun _ _ _ _ => by safe_all
theorem safe_sigmoidLayer (W b : ℕ) : LayerSafe (sigmoidLayer W b) := safe_dense _ _ _ _ _ fun _ _ _ _ => by safe_all
theorem safe_swishLayer (W b : ℕ) : LayerSafe (swishLayer W b) := safe_dense _ _ _ _ _ fun _ _ _ _ => by safe_all
theorem safe_geluLayer (erf : ℝ → ℝ) (W b : ℕ) : LayerSafe (geluLayer erf W b) := safe_dense _ _ _ _ _ fun _ _ _ _ => by safe_all
theorem safe_mishLayer (W b : ℕ) : LayerSafe (mishLayer W b) := safe_dense _ _ _ _ _ fun _ _ _ _ => by safe_all
theorem safe_hardSwishLayer (W b : ℕ) : LayerSafe (hardSwishLayer W b) := safe_dense _ _ _ _ _ fun _ _ _ _ => by safe_all
theorem safe_hardSwishMobilenetLayer (W b : ℕ) : LayerSafe (hardSwishMobilenetLayer W b) :=
  safe_dense _ _ _ _ _ fun _ _ _ _ => by safe_all
theorem safe_dishLayer (W b : ℕ) : LayerSafe (dishLayer W b) := safe_dense _ _ _ _ _ fun _ _ _ _ => by safe_all
theorem safe_clippedLinearLayer (s o lo hi : ℝ) (W b : ℕ) : LayerSafe (clippedLinearLayer s o lo hi W b) :=
  safe_dense _ _ _ _ _ fun _ _ _ _ => by safe_all

theorem safe_logisticLayer : LayerSafe logisticLayer := by
  intro train P X; unfold logisticLayer entrywise; safe_all

/-! ### Softmax, MultiSoftmax, LayerNorm, CauchySimilarity -/

theorem leaf_npMax {ι : Type} [Fintype ι] {n : ℕ} (x : ι → Fin n → ℝ) : Safely (fun _ => True) (npMax x) := by
  cases n with
  | zero => unfold npMax; safe_all
  | succ n => unfold npMax; safe_all
macro_rules | `(tactic| safe_leaf) => `(tactic| exact leaf_npMax _)
theorem leaf_softmax {ι : Type} [Fintype ι] {n : ℕ} (t : ℝ) (x : ι → Fin n → ℝ) : Safely (fun _ => True) (Thinc.softmax t x) := by
  unfold Thinc.softmax
  refine Safely.bind (R := fun _ => True) (leaf_npMax _) fun _ _ => trivial
macro_rules | `(tactic| safe_leaf) => `(tactic| exact leaf_softmax _ _)
theorem leaf_matSoftmax (t : ℝ) (Y : Mat ℝ) : Safely (fun _ => True) (Y.softmax t) := by unfold Mat.softmax; safe_all
macro_rules | `(tactic| safe_leaf) => `(tactic| exact leaf_matSoftmax _ _)
theorem safely_checkConsistency (Y dY : Mat ℝ) : Safely (fun _ => dY.rows = Y.rows ∧ dY.cols = Y.cols) (checkConsistency Y dY) := by
  unfold checkConsistency
  split
  · assumption
  · exact nofun
theorem leaf_checkConsistency (Y dY : Mat ℝ) : Safely (fun _ => True) (checkConsistency Y dY) := (safely_checkConsistency Y dY).any
macro_rules | `(tactic| safe_leaf) => `(tactic| exact leaf_checkConsistency _ _)
theorem leaf_multiSoftmaxLoop (Y : Mat ℝ) (nOs : List ℕ) (i : ℕ) : Safely (fun _ => True) (multiSoftmaxLoop Y nOs i) := by
  induction nOs generalizing i with
  | nil => trivial
  | cons n nOs ih =>
    have := ih (i + n)
    unfold multiSoftmaxLoop
    safe_all
macro_rules | `(tactic| safe_leaf) => `(tactic| exact leaf_multiSoftmaxLoop _ _ _)

theorem safe_softmaxLayer (W b : ℕ) (n : Bool) (t : ℝ) : LayerSafe (softmaxLayer W b n t) := by
  intro train P X; unfold softmaxLayer softmaxBackprop; safe_all
theorem safe_multiSoftmax (W b : ℕ) (nOs : List ℕ) : LayerSafe (multiSoftmax W b nOs) := by
  intro train P X; unfold multiSoftmax; safe_all
theorem safe_layerNorm (Gp b : ℕ) : LayerSafe (layerNorm Gp b) := by
  intro train P X; unfold layerNorm lnScaleShift lnDMoments
  refine (leaf_asArr _).bind fun X _ => ?_
  dsimp only
  refine (leaf_npBinary _ _ _).bind fun _ _ => ?_
  refine (leaf_npBinary _ _ _).bind fun _ _ => ?_
  refine Safely.bind (R := fun p => ∀ d G, Safely (fun _ => True) (p.2 d G)) ?_ ?_
  · refine (leaf_npBinary _ _ _).bind fun _ _ => ?_
    refine (leaf_npUpdate _ _ _).bind fun _ _ => ?_
    intro d G
    dsimp only
    safe_all
  · rintro ⟨Y, f⟩ hf
    refine safely_pure (passSafe_mk fun _ _ => ?_)
    refine (leaf_asArr _).bind fun X _ => ?_
    refine (hf _ _).bind fun p _ => ?_
    obtain ⟨d, G⟩ := p
    safe_all
theorem leaf_twoArrs (v : Val) : Safely (fun _ => True) v.twoArrs := by unfold Val.twoArrs; safe_all
macro_rules | `(tactic| safe_leaf) => `(tactic| exact leaf_twoArrs _)
theorem safe_cauchySimilarity (W : ℕ) : LayerSafe (cauchySimilarity W) := by
  intro train P X; unfold cauchySimilarity cauchyInverse; safe_all

/-! ### Dropout -/

theorem leaf_mulAll (Xs Ms : List (Mat ℝ)) : Safely (fun _ => True) (mulAll Xs Ms) := by
  induction Xs generalizing Ms with
  | nil => unfold mulAll; trivial
  | cons X Xs ih =>
    cases Ms with
    | nil => unfold mulAll; trivial
    | cons M Ms =>
      have := ih Ms
      unfold mulAll
      safe_all
macro_rules | `(tactic| safe_leaf) => `(tactic| exact leaf_mulAll _ _)
theorem safe_dropout (r : ℝ) (on : Bool) (draws : ℕ → ℕ → ℕ → ℝ) : LayerSafe (dropout r on draws) := by
  intro train P X; unfold dropout dropoutRagged dropoutPadded dropoutLists dropoutArray; dsimp only
  split
  · exact fun _ _ => trivial
  cases X <;> dsimp only <;> safe_all

/-! ### Pooling -/

theorem leaf_takeRows {K : Type} [Zero K] (X : Mat K) (is : List ℤ) : Safely (fun Y => Y.rows = is.length ∧ ∀ i ∈ is, i < X.rows) (X.takeRows is) := by
  unfold Mat.takeRows
  split
  · rename_i h
    exact ⟨rfl, fun i hi => by have := List.all_eq_true.1 h i hi; simp at this; exact this.2⟩
  · exact nofun
theorem leaf_putRows {K : Type} [Zero K] (X : Mat K) (is : List ℤ) (d : Mat K) : Safely (fun _ => True) (X.putRows is d) := by
  unfold Mat.putRows; safe_all
macro_rules | `(tactic| safe_leaf) => `(tactic| exact leaf_putRows _ _ _)
macro_rules | `(tactic| safe_leaf) => `(tactic| exact Safely.any (leaf_takeRows _ _))

theorem safe_reduceSumLayer : LayerSafe reduceSumLayer := by
  intro train P X; unfold reduceSumLayer
  refine (leaf_lengths _).bind fun ls _ => (leaf_raggedData _).bind fun A _ => (safely_reduceSum _ _).bind fun Y hY => ?_
  refine safely_pure (passSafe_mk fun _ _ => ?_)
  refine (leaf_asArr _).bind fun d _ => (safely_checkConsistency _ _).bind fun _ hd => ?_
  have := safely_backpropReduceSum d (ls.map Int.ofNat) (by rw [hd.1, hY.1])
  safe_all
theorem safe_reduceMeanLayer : LayerSafe reduceMeanLayer := by
  intro train P X; unfold reduceMeanLayer
  refine (leaf_lengths _).bind fun ls _ => (leaf_raggedData _).bind fun A _ => (safely_reduceMean _ _).bind fun Y hY => ?_
  refine safely_pure (passSafe_mk fun _ _ => ?_)
  refine (leaf_asArr _).bind fun d _ => (safely_checkConsistency _ _).bind fun _ hd => ?_
  have := safely_backpropReduceMean d (ls.map Int.ofNat) (by rw [hd.1, hY.1])
  safe_all
theorem safe_reduceMaxLayer (junk : ℕ → ℝ) : LayerSafe (reduceMaxLayer junk) := by
  intro train P X; unfold reduceMaxLayer
  refine (leaf_lengths _).bind fun ls _ => (leaf_raggedData _).bind fun A _ => (safely_reduceMax junk _ _).bind fun r hY => ?_
  obtain ⟨Y, which⟩ := r
  refine safely_pure (passSafe_mk fun _ _ => ?_)
  refine (leaf_asArr _).bind fun d _ => (safely_checkConsistency _ _).bind fun _ hd => ?_
  have := safely_backpropReduceMax d which (ls.map Int.ofNat) (by rw [hd.1, hY.1]) (by rw [hd.2, hY.2.1, hY.2.2.1, hY.2.2.2.1])
    fun i _ => hY.2.2.2.2 i
  safe_all
theorem safe_reduceFirstLayer : LayerSafe reduceFirstLayer := by
  intro train P X; unfold reduceFirstLayer reduceFirst backpropReduceFirst; safe_all
theorem safe_reduceLastLayer : LayerSafe reduceLastLayer := by
  intro train P X; unfold reduceLastLayer reduceLast backpropReduceLast; safe_all

/-! ### Windows -/

macro_rules | `(tactic| safe_leaf) => `(tactic| exact safely_seq2col _ _ _)
macro_rules | `(tactic| safe_leaf) => `(tactic| exact safely_backpropSeq2col _ _ _)
theorem safe_expandWindow (nW : ℕ) : LayerSafe (expandWindow nW) := by
  intro train P X; unfold expandWindow expandWindowRagged expandWindowFloats windowFloats
  cases X <;> dsimp only <;> safe_all

/-! ### Attention -/

theorem leaf_npZip (f : ℝ → ℝ → ℝ) (A B : Mat ℝ) : Safely (fun _ => True) (npZip f A B) := by unfold npZip; safe_all
macro_rules | `(tactic| safe_leaf) => `(tactic| exact leaf_npZip _ _ _)
theorem leaf_npZipInplace (f : ℝ → ℝ → ℝ) (A B : Mat ℝ) : Safely (fun _ => True) (npZipInplace f A B) := by unfold npZipInplace; safe_all
macro_rules | `(tactic| safe_leaf) => `(tactic| exact leaf_npZipInplace _ _ _)
theorem leaf_softmaxSequences (X : Mat ℝ) (ls : List ℤ) : Safely (fun _ => True) (softmaxSequences X ls) := by
  unfold softmaxSequences
  dsimp only
  refine (safely_reduceSum _ _).bind fun s hs => ?_
  have := safely_backpropReduceSum s ls (by rw [hs.1])
  safe_all
macro_rules | `(tactic| safe_leaf) => `(tactic| exact leaf_softmaxSequences _ _)
theorem leaf_backpropSoftmaxSequences (dY Y : Mat ℝ) (ls : List ℤ) : Safely (fun _ => True) (backpropSoftmaxSequences dY Y ls) := by
  unfold backpropSoftmaxSequences
  refine (leaf_npZip _ _ _).bind fun d _ => ?_
  refine (safely_reduceSum _ _).bind fun s hs => ?_
  have := safely_backpropReduceSum s ls (by rw [hs.1])
  safe_all
macro_rules | `(tactic| safe_leaf) => `(tactic| exact leaf_backpropSoftmaxSequences _ _ _)
theorem leaf_attentionWeights (Q K : Mat ℝ) (ls : List ℕ) : Safely (fun _ => True) (attentionWeights Q K ls) := by
  unfold attentionWeights; safe_all
macro_rules | `(tactic| safe_leaf) => `(tactic| exact leaf_attentionWeights _ _ _)
theorem leaf_attentionBackward (Q K a : Mat ℝ) (ls : List ℕ) (d : Mat ℝ) : Safely (fun _ => True) (attentionBackward Q K a ls d) := by
  unfold attentionBackward; safe_all
macro_rules | `(tactic| safe_leaf) => `(tactic| exact leaf_attentionBackward _ _ _ _ _)
theorem leaf_applyBackward (a X d : Mat ℝ) : Safely (fun _ => True) (applyBackward a X d) := by
  unfold applyBackward; safe_all
macro_rules | `(tactic| safe_leaf) => `(tactic| exact leaf_applyBackward _ _ _)
theorem safe_parametricAttention (Q : ℕ) : LayerSafe (parametricAttention Q) := by
  intro train P X; unfold parametricAttention; safe_all
theorem safe_parametricAttentionV2 (Q : ℕ) (L : Layer) (h : LayerSafe L) : LayerSafe (parametricAttentionV2 Q L) := by
  intro train P X; unfold parametricAttentionV2; safe_all

/-! ### Embeddings -/

theorem leaf_applyMask (o : Mat ℝ) (m : Option (Mat ℝ)) : Safely (fun _ => True) (applyMask o m) := by unfold applyMask; safe_all
macro_rules | `(tactic| safe_leaf) => `(tactic| exact leaf_applyMask _ _)
theorem leaf_npIndex (n : ℕ) (i : ℤ) : Safely (fun _ => True) (npIndex n i) := by unfold npIndex; safe_all
macro_rules | `(tactic| safe_leaf) => `(tactic| exact leaf_npIndex _ _)

theorem safe_embed (E : ℕ) (dr : Option ℝ) (flips : ℕ → ℕ → ℝ) (fast : Bool) : LayerSafe (embed E dr flips fast) := by
  intro train P X; unfold embed
  refine (leaf_asInts _).bind fun ids _ => ?_
  dsimp only
  refine (leaf_takeRows _ _).bind fun o ho => ?_
  refine (leaf_applyMask _ _).bind fun o' _ => ?_
  refine safely_pure (passSafe_mk fun _ _ => ?_)
  refine (leaf_asArr _).bind fun d _ => (leaf_applyMask _ _).bind fun d' _ => ?_
  refine (safely_scatterAdd fast (Mat.zeros (P E).rows (P E).cols) ids d' ho.2).bind fun _ _ => ?_
  safe_all

theorem safe_hashEmbed (E : ℕ) (seed : BitVec 32) (dr : Option ℝ) (flips : ℕ → ℕ → ℝ) (fast : Bool) :
    LayerSafe (hashEmbed E seed dr flips fast) := by
  intro train P X; unfold hashEmbed
  refine (leaf_asInts _).bind fun ids _ => ?_
  dsimp only
  split
  · exact fun _ _ => nofun
  by_cases h0 : (P E).rows = 0
  · refine Safely.bind (R := fun _ => False) ?_ fun _ h => h.elim
    unfold gatherAdd
    refine (safely_pointer _).bind ?_
    rintro _ ⟨_, h, _⟩
    omega
  have hpos : (0 : ℤ) < (P E).rows := by omega
  have hk : ∀ i, 0 ≤ ((hashIds ids seed).modInt (P E).rows).val i ∧ ((hashIds ids seed).modInt (P E).rows).val i < (P E).rows :=
    fun i => ⟨Int.emod_nonneg _ (by omega), Int.emod_lt_of_pos _ hpos⟩
  refine (safely_gatherAdd _ _ fun i _ => ⟨(hk i).1, .inl (hk i).2⟩).bind fun o _ => ?_
  refine (leaf_applyMask _ _).bind fun o' _ => ?_
  refine safely_pure (passSafe_mk fun _ _ => ?_)
  refine (leaf_asArr _).bind fun d _ => (leaf_applyMask _ _).bind fun d' _ => ?_
  refine (safely_scatterColumns fast _ _ _ d' fun b _ k _ => (hk _).2).bind fun _ _ => ?_
  safe_all

theorem safe_uniqued (L : Layer) (h : LayerSafe L) (col : ℤ) (fast : Bool) : LayerSafe (uniqued L col fast) := by
  intro train P X; unfold uniqued
  cases X <;> try with_reducible exact safely_err (by decide)
  rename_i A
  dsimp only
  split
  · exact h _ _ _
  refine (leaf_npIndex _ _).bind fun c _ => ?_
  refine (leaf_takeRows _ _).bind fun XU _ => ?_
  refine Safely.bindLayer h fun Y cb hcb => ?_
  dsimp only
  refine (leaf_asArr _).bind fun YU _ => ?_
  refine (leaf_takeRows _ _).bind fun Y' hY' => ?_
  refine safely_pure (passSafe_mk fun _ _ => ?_)
  refine (leaf_asArr _).bind fun d _ => ?_
  refine (safely_scatterAdd fast (Mat.zeros YU.rows YU.cols) _ d hY'.2).bind fun _ _ => ?_
  safe_all

theorem safe_intsGetitemColumn (c : ℤ) : LayerSafe (intsGetitemColumn c) := by
  intro train P X; unfold intsGetitemColumn
  cases X <;> try with_reducible exact safely_err (by decide)
  dsimp only
  safe_all

/-! ### Conversions and sequence wrappers -/

theorem leaf_npConcatenate {α : Type} (xs : List (Arr α)) : Safely (fun _ => True) (npConcatenate xs) := by unfold npConcatenate; safe_all
macro_rules | `(tactic| safe_leaf) => `(tactic| exact leaf_npConcatenate _)
theorem leaf_opsFlatten {α : Type} [Zero α] (xs : List (Arr α)) (pad nd : ℕ) : Safely (fun _ => True) (opsFlatten xs pad nd) := by
  unfold opsFlatten; safe_all
macro_rules | `(tactic| safe_leaf) => `(tactic| exact leaf_opsFlatten _ _ _)
theorem leaf_opsUnflatten {α : Type} (x : Arr α) (ls : List ℕ) (pad : ℕ) : Safely (fun _ => True) (opsUnflatten x ls pad) := by
  unfold opsUnflatten; safe_all
macro_rules | `(tactic| safe_leaf) => `(tactic| exact leaf_opsUnflatten _ _ _)
theorem leaf_assignRows {β : Type} (d : List β) (a n : ℕ) (s : List β) : Safely (fun _ => True) (assignRows d a n s) := by
  unfold assignRows; safe_all
theorem leaf_padAssign {α : Type} (o : List (List (List α))) (p : Arr α × ℕ) : Safely (fun _ => True) (padAssign o p) := by
  unfold padAssign
  split
  · exact nofun
  split
  · trivial
  · rename_i h; exact (leaf_assignRows _ _ _ _).of_error h
theorem leaf_opsPad {α : Type} [Zero α] (xs : List (Arr α)) (r : ℤ) : Safely (fun _ => True) (opsPad xs r) := by
  unfold opsPad
  split
  · exact nofun
  split
  · exact nofun
  split
  · exact nofun
  dsimp only
  split
  · trivial
  · rename_i h; exact (leaf_forM _ _ _ fun _ _ _ => leaf_padAssign _ _).of_error h
theorem leaf_list2padded {α : Type} [Zero α] (xs : List (Arr α)) : Safely (fun _ => True) (list2padded xs) := by
  unfold list2padded
  split
  · trivial
  · safe_all
  · dsimp only
    split
    · exact nofun
    · split
      · rename_i h; exact (leaf_opsPad _ _).of_error h
      · safe_all
macro_rules | `(tactic| safe_leaf) => `(tactic| exact leaf_list2padded _)
theorem leaf_unpadAssign {α : Type} (d : Arr3 α) (is ls : List ℕ) (o : List (Option (Arr α))) (i : ℕ) :
    Safely (fun _ => True) (unpadAssign d is ls o i) := by unfold unpadAssign; safe_all
theorem leaf_allSome {β : Type} (l : List (Option β)) : Safely (fun _ => True) (allSome l) := by
  induction l with
  | nil => trivial
  | cons x l ih =>
    cases x with
    | none => exact nofun
    | some x =>
      unfold allSome
      split
      · trivial
      · rename_i h; exact ih.of_error h
theorem leaf_unpadList {α : Type} (p : Padded α) : Safely (fun _ => True) (unpadList p) := by
  unfold unpadList
  split
  · exact leaf_allSome _
  · rename_i h; unfold padded2list at h; exact (leaf_forM _ _ _ fun _ _ _ => leaf_unpadAssign _ _ _ _ _).of_error h
macro_rules | `(tactic| safe_leaf) => `(tactic| exact leaf_unpadList _)
theorem leaf_arrays (v : Val) : Safely (fun _ => True) v.arrays := by unfold Val.arrays; safe_all
macro_rules | `(tactic| safe_leaf) => `(tactic| exact leaf_arrays _)
theorem leaf_intArrays (v : Val) : Safely (fun _ => True) v.intArrays := by unfold Val.intArrays; safe_all
macro_rules | `(tactic| safe_leaf) => `(tactic| exact leaf_intArrays _)
theorem leaf_reshapeCells (A : Mat ℝ) (n : ℕ) : Safely (fun _ => True) (reshapeCells A n) := by unfold reshapeCells; safe_all
macro_rules | `(tactic| safe_leaf) => `(tactic| exact leaf_reshapeCells _ _)
theorem leaf_valUnflatten (v : Val) (ls : List ℕ) (pad : ℕ) : Safely (fun _ => True) (v.unflatten ls pad) := by
  unfold Val.unflatten
  split
  · exact safely_map (leaf_opsUnflatten _ _ _)
  · exact safely_map (leaf_opsUnflatten _ _ _)
  · exact nofun
macro_rules | `(tactic| safe_leaf) => `(tactic| exact leaf_valUnflatten _ _ _)

theorem safe_list2raggedL : LayerSafe list2raggedL := by intro train P X; unfold list2raggedL; safe_all
theorem safe_ragged2listL : LayerSafe ragged2listL := by intro train P X; unfold ragged2listL; safe_all
theorem safe_list2arrayL : LayerSafe list2arrayL := by intro train P X; unfold list2arrayL; safe_all
theorem safe_list2paddedL : LayerSafe list2paddedL := by intro train P X; unfold list2paddedL; safe_all
theorem safe_padded2listL : LayerSafe padded2listL := by intro train P X; unfold padded2listL; safe_all

theorem safe_withArrayListL (L : Layer) (h : LayerSafe L) (pad : ℕ) : LayerSafe (withArrayListL L pad) := by
  intro train P X; unfold withArrayListL; safe_all
theorem safe_withArrayRaggedL (L : Layer) (h : LayerSafe L) : LayerSafe (withArrayRaggedL L) := by
  intro train P X; unfold withArrayRaggedL; safe_all
theorem safe_withArray2dPaddedL (L : Layer) (h : LayerSafe L) : LayerSafe (withArray2dPaddedL L) := by
  intro train P X; unfold withArray2dPaddedL; safe_all
theorem safe_withArray2dL (L : Layer) (h : LayerSafe L) (pad : ℕ) : LayerSafe (withArray2dL L pad) := by
  intro train P X; unfold withArray2dL
  cases X <;> first
    | exact h _ _ _ | exact safe_withArrayListL L h _ _ _ _ | exact safe_withArrayRaggedL L h _ _ _ | exact safe_withArray2dPaddedL L h _ _ _
theorem safe_withArrayIdsL (L : Layer) (h : LayerSafe L) (pad : ℕ) : LayerSafe (withArrayIdsL L pad) := by
  intro train P X; unfold withArrayIdsL; safe_all
theorem safe_withArrayAny (L : Layer) (h : LayerSafe L) (pad : ℕ) : LayerSafe (withArrayAny L pad) := by
  intro train P X; unfold withArrayAny
  split
  · exact safe_withArrayIdsL L h _ _ _ _
  · exact safe_withArray2dL L h _ _ _ _
theorem safe_withListRaggedL (L : Layer) (h : LayerSafe L) : LayerSafe (withListRaggedL L) := by
  intro train P X; unfold withListRaggedL; safe_all
theorem safe_withListPaddedL (L : Layer) (h : LayerSafe L) : LayerSafe (withListPaddedL L) := by
  intro train P X; unfold withListPaddedL; safe_all
theorem safe_withListL (L : Layer) (h : LayerSafe L) : LayerSafe (withListL L) := by
  intro train P X; unfold withListL
  cases X <;> first | exact h _ _ _ | exact safe_withListRaggedL L h _ _ _ | exact safe_withListPaddedL L h _ _ _
theorem safe_withRaggedListL (L : Layer) (h : LayerSafe L) : LayerSafe (withRaggedListL L) := by
  intro train P X; unfold withRaggedListL; safe_all
theorem safe_withRaggedPaddedL (L : Layer) (h : LayerSafe L) : LayerSafe (withRaggedPaddedL L) := by
  intro train P X; unfold withRaggedPaddedL; safe_all
theorem safe_withRaggedL (L : Layer) (h : LayerSafe L) : LayerSafe (withRaggedL L) := by
  intro train P X; unfold withRaggedL
  split
  · exact h _ _ _
  · exact safe_withRaggedPaddedL L h _ _ _
  · exact nofun
  · exact safe_withRaggedListL L h _ _ _
theorem safe_withPaddedRaggedL (L : Layer) (h : LayerSafe L) : LayerSafe (withPaddedRaggedL L) := by
  intro train P X; unfold withPaddedRaggedL; safe_all
theorem safe_withPaddedListL (L : Layer) (h : LayerSafe L) : LayerSafe (withPaddedListL L) := by
  intro train P X; unfold withPaddedListL; safe_all
theorem safe_withPaddedL (L : Layer) (h : LayerSafe L) : LayerSafe (withPaddedL L) := by
  intro train P X; unfold withPaddedL
  split
  · exact h _ _ _
  · exact safe_withPaddedRaggedL L h _ _ _
  · exact safe_withPaddedListL L h _ _ _

theorem safe_bidirectional (L R : Layer) (h : LayerSafe L) (hR : LayerSafe R) : LayerSafe (bidirectional L R) := by
  have h1 : ∀ v, Safely (fun _ => True) (bidiReverse v) := fun v => by unfold bidiReverse; safe_all
  have h2 : ∀ v w, Safely (fun _ => True) (bidiConcatenate v w) := fun v w => by unfold bidiConcatenate; safe_all
  have h3 : ∀ v, Safely (fun _ => True) (bidiSplit v) := fun v => by unfold bidiSplit; safe_all
  have h4 : ∀ v w, Safely (fun _ => True) (bidiSum v w) := fun v w => by unfold bidiSum; safe_all
  intro train P X; unfold bidirectional
  refine (h1 _).bind fun _ _ => Safely.bindLayer h fun _ _ hcb => Safely.bindLayer hR fun _ _ hcb' => (h2 _ _).bind fun _ _ => ?_
  refine safely_pure (passSafe_mk fun _ _ => ?_)
  refine (h3 _).bind fun _ _ => Safely.bindCb hcb fun _ _ => Safely.bindCb hcb' fun _ _ => (h4 _ _).bind fun _ _ => ?_
  trivial

end Thinc
