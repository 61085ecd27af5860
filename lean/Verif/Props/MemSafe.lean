import Verif.Lemmas.MemSafeLeaves
import Verif.Model.MaxoutLayer
import Verif.Model.SparseLinear
import Verif.Props.Gather
import Verif.Props.PoolMax
import Verif.Props.Maxout
import Verif.Props.SparseLinear
/-!
# C131: compiled code stays inside the arrays it is given
-/
namespace Thinc
open Spec.Memory
variable {K : Type} [Field K]

/-- Every network of these layers, with whatever parameters, inputs and gradients: it returns or raises, but reads and writes
nothing outside an array. -/
theorem C131_layers {L : Layer} (h : Built L) : Safe L := by
  refine LayerSafe.safe ?_
  induction h with
  | noop => exact safe_noop
  | linear W b => exact safe_linear W b
  | relu W b => exact safe_reluLayer W b
  | sigmoid W b => exact safe_sigmoidLayer W b
  | swish W b => exact safe_swishLayer W b
  | gelu erf W b => exact safe_geluLayer erf W b
  | mish W b => exact safe_mishLayer W b
  | hardSwish W b => exact safe_hardSwishLayer W b
  | hardSwishMobilenet W b => exact safe_hardSwishMobilenetLayer W b
  | dish W b => exact safe_dishLayer W b
  | clippedLinear s o lo hi W b => exact safe_clippedLinearLayer s o lo hi W b
  | logistic => exact safe_logisticLayer
  | softmax W b n t => exact safe_softmaxLayer W b n t
  | multiSoftmax W b nOs => exact safe_multiSoftmax W b nOs
  | layerNorm G b => exact safe_layerNorm G b
  | cauchySimilarity W => exact safe_cauchySimilarity W
  | dropout r on d => exact safe_dropout r on d
  | reduceSum => exact safe_reduceSumLayer
  | reduceMean => exact safe_reduceMeanLayer
  | reduceMax j => exact safe_reduceMaxLayer j
  | reduceFirst => exact safe_reduceFirstLayer
  | reduceLast => exact safe_reduceLastLayer
  | expandWindow n => exact safe_expandWindow n
  | parametricAttention Q => exact safe_parametricAttention Q
  | parametricAttentionV2 Q L _ ih => exact safe_parametricAttentionV2 Q L ih
  | embed E d f fast => exact safe_embed E d f fast
  | hashEmbed E s d f fast => exact safe_hashEmbed E s d f fast
  | uniqued L c fast _ ih => exact safe_uniqued L ih c fast
  | intsGetitem c => exact safe_intsGetitemColumn c
  | list2ragged => exact safe_list2raggedL
  | ragged2list => exact safe_ragged2listL
  | list2array => exact safe_list2arrayL
  | list2padded => exact safe_list2paddedL
  | padded2list => exact safe_padded2listL
  | chain Ls _ ih => exact safe_chain Ls ih
  | add Ls _ ih => exact safe_addLayers Ls ih
  | concatenate Ls _ ih => exact safe_concatenate Ls ih
  | tuplify Ls _ ih => exact safe_tuplify Ls ih
  | clone L c n _ _ ih ihc => exact safe_clone L c n ih ihc
  | residual L _ ih => exact safe_residual L ih
  | siamese L S _ _ ih ihS => exact safe_siamese L S ih ihS
  | mapList L _ ih => exact safe_mapList L ih
  | withGetitem i L _ ih => exact safe_withGetitem i L ih
  | bidirectional L R _ _ ih ihR => exact safe_bidirectional L R ih ihR
  | withArray L pad _ ih => exact safe_withArrayAny L ih pad
  | withList L _ ih => exact safe_withListL L ih
  | withRagged L _ ih => exact safe_withRaggedL L ih
  | withPadded L _ ih => exact safe_withPaddedL L ih

/-- A classifier of texts: hashed words, a window, attention, mean pooling and a softmax. -/
example : Safe (chain [list2raggedL, withArrayAny (residual (chain [expandWindow 1, mishLayer 0 1, layerNorm 2 3])) 0,
    concatenate [chain [parametricAttention 4, reduceSumLayer], reduceMaxLayer fun _ => 0], softmaxLayer 5 6 true 1]) :=
  C131_layers (.chain _ (by
    simp only [List.forall_mem_cons, List.not_mem_nil, false_implies, implies_true, and_true]
    refine ⟨.list2ragged, .withArray _ _ (.residual _ (.chain _ ?_)), .concatenate _ ?_, .softmax _ _ _ _⟩
    · simp only [List.forall_mem_cons, List.not_mem_nil, false_implies, implies_true, and_true]
      exact ⟨.expandWindow 1, .mish 0 1, .layerNorm 2 3⟩
    · simp only [List.forall_mem_cons, List.not_mem_nil, false_implies, implies_true, and_true]
      refine ⟨.chain _ ?_, .reduceMax _⟩
      simp only [List.forall_mem_cons, List.not_mem_nil, false_implies, implies_true, and_true]
      exact ⟨.parametricAttention 4, .reduceSum⟩))

/-- The same for the operations of the backend, for any arrays and lengths. -/
theorem C131_reduce_sum (X : Mat K) (lengths : List Int) : Inside (reduceSum X lengths) := (safely_reduceSum X lengths).inside
theorem C131_reduce_mean (X : Mat K) (lengths : List Int) : Inside (reduceMean X lengths) := (safely_reduceMean X lengths).inside
theorem C131_reduce_max [LinearOrder K] (junk : Nat → K) (X : Mat K) (lengths : List Int) : Inside (reduceMax junk X lengths) :=
  (safely_reduceMax junk X lengths).inside
omit [Field K] in
theorem C131_maxout [LinearOrder K] (junk : Nat → K) (junkW : Nat → Int) (X : Cube K) : Inside (maxout junk junkW X) :=
  (safely_maxout junk junkW X).inside
theorem C131_seq2col (X : Mat K) (nW : Nat) (lengths : Option (List Int)) : Inside (seq2col X nW lengths) :=
  (safely_seq2col X nW lengths).inside
theorem C131_backprop_seq2col (dY : Mat K) (nW : Nat) (lengths : Option (List Int)) : Inside (backpropSeq2col dY nW lengths) :=
  (safely_backpropSeq2col dY nW lengths).inside

/-- The other operations trust some of their arguments.  There have to be as many gradient rows as lengths … -/
theorem C131_backprop_reduce_sum_partial (d : Mat K) (lengths : List Int) (h : lengths.length ≤ d.rows) :
    Inside (backpropReduceSum d lengths) := (safely_backpropReduceSum d lengths h).inside
theorem C131_backprop_reduce_mean_partial (d : Mat K) (lengths : List Int) (h : lengths.length ≤ d.rows) :
    Inside (backpropReduceMean d lengths) := (safely_backpropReduceMean d lengths h).inside

/-- … and with `reduce_max` an index for every entry, none of them negative (too large ones are rejected) … -/
theorem C131_backprop_reduce_max_partial (d : Mat K) (which : Mat Int) (lengths : List Int) (h : lengths.length ≤ d.rows)
    (hsize : lengths.length * d.cols ≤ which.rows * which.cols) (hw : ∀ i < lengths.length * d.cols, 0 ≤ which.val i) :
    Inside (backpropReduceMax d which lengths) := (safely_backpropReduceMax d which lengths h hsize hw).inside

/-- … and with `maxout` the same … -/
theorem C131_backprop_maxout_partial (dY : Mat K) (which : Mat Int) (P : Nat)
    (hsize : dY.rows * dY.cols ≤ which.rows * which.cols) (hw : ∀ i < dY.rows * dY.cols, 0 ≤ which.val i) :
    Inside (backpropMaxout dY which P) := (safely_backpropMaxout dY which P hsize hw).inside

/-- … and ids that are not negative and not exactly the number of rows for `gather_add` … -/
theorem C131_gather_add_partial (table : Mat K) (ids : Mat Int)
    (h : ∀ i < ids.rows * ids.cols, 0 ≤ ids.val i ∧ ids.val i ≠ table.rows) : Inside (gatherAdd table ids) :=
  (safely_gatherAdd table ids fun i hi => ⟨(h i hi).1, by have := (h i hi).2; omega⟩).inside

/-- … and ids below the number of rows for `scatter_add` (negative ones are skipped). -/
theorem C131_scatter_add_partial (fast : Bool) (table : Mat K) (ids : List Int) (values : Mat K) (h : ∀ i ∈ ids, i < table.rows) :
    Inside (scatterAdd fast table ids values) := (safely_scatterAdd fast table ids values h).inside

/-- The conditions hold of gradients of the right shape. -/
example : Inside (backpropReduceSum (Mat.zeros 2 3 : Mat ℚ) [1, -4]) ∧
    Inside (backpropReduceMax (Mat.zeros 2 1 : Mat ℚ) (Mat.ofFn 2 1 fun i _ => 5 * i) [1, 2]) ∧
    Inside (backpropMaxout (Mat.zeros 1 2 : Mat ℚ) (Mat.ofFn 1 2 fun _ j => 7 * j) 3) ∧
    Inside (gatherAdd (Mat.zeros 2 2 : Mat ℚ) (Mat.ofFn 1 2 fun _ j => 9 * j)) ∧
    Inside (scatterAdd true (Mat.zeros 2 2 : Mat ℚ) [1, 0, 1] (Mat.zeros 3 2)) := by
  refine ⟨C131_backprop_reduce_sum_partial _ _ (by decide), C131_backprop_reduce_max_partial _ _ _ (by decide) (by decide) ?_,
    C131_backprop_maxout_partial _ _ _ (by decide) ?_, C131_gather_add_partial _ _ ?_, C131_scatter_add_partial _ _ _ _ (by decide)⟩
  all_goals decide

/-- Without the conditions all six leave an array. -/
theorem C131_kernels_wrong :
    ¬ Inside (backpropReduceSum (Mat.zeros 1 1 : Mat ℚ) [1, 1]) ∧
    ¬ Inside (backpropReduceMean (Mat.zeros 1 1 : Mat ℚ) [1, 1]) ∧
    ¬ Inside (backpropReduceMax (Mat.zeros 1 1 : Mat ℚ) (Mat.ofFn 1 1 fun _ _ => -1) [1]) ∧
    ¬ Inside (backpropReduceMax (Mat.zeros 2 1 : Mat ℚ) (Mat.ofFn 1 1 fun _ _ => 0) [1, 1]) ∧
    ¬ Inside (backpropMaxout (Mat.zeros 1 1 : Mat ℚ) (Mat.ofFn 1 1 fun _ _ => -1) 2) ∧
    ¬ Inside (backpropMaxout (Mat.zeros 2 1 : Mat ℚ) (Mat.ofFn 1 1 fun _ _ => 0) 2) ∧
    ¬ Inside (gatherAdd (Mat.zeros 1 1 : Mat ℚ) (Mat.ofFn 1 1 fun _ _ => 1)) ∧
    ¬ Inside (gatherAdd (Mat.zeros 1 1 : Mat ℚ) (Mat.ofFn 1 1 fun _ _ => -1)) ∧
    ¬ Inside (scatterAdd true (Mat.zeros 1 1 : Mat ℚ) [1] (Mat.zeros 1 1)) := by
  have key : ∀ {β : Type} (r : Except PyErr β), errOf r = some .outOfBounds → ¬ Inside r := by
    intro β r h hi
    cases r with
    | ok a => cases h
    | error e => exact hi (by simpa [errOf] using h)
  refine ⟨key _ ?_, key _ ?_, key _ ?_, key _ ?_, key _ ?_, key _ ?_, key _ ?_, key _ ?_, key _ ?_⟩ <;> decide +kernel

/-- The Maxout layer: the forward pass is safe for any input; the callback if the gradient has no more entries than the
output. -/
theorem C131_maxout_layer_partial (junk : Nat → ℝ) (junkW : Nat → Int) (W b nO nP nI : Nat) (train : Bool) (P : ParamVals) (X : Val) :
    Inside (maxoutLayer junk junkW W b nO nP nI train P X) ∧
    ∀ (Y : Mat ℝ) (cb : Callback), maxoutLayer junk junkW W b nO nP nI train P X = .ok (.arr Y, cb) →
      ∀ (dY : Mat ℝ) (G : GradStore), dY.rows * dY.cols ≤ Y.rows * Y.cols → Inside (cb (.arr dY) G) := by
  have key : Safely (fun p => ∀ Y : Mat ℝ, p.1 = .arr Y → ∀ (dY : Mat ℝ) G, dY.rows * dY.cols ≤ Y.rows * Y.cols → Inside (p.2 (.arr dY) G))
      (maxoutLayer junk junkW W b nO nP nI train P X) := by
    unfold maxoutLayer
    have hr : ∀ (A : Mat ℝ) r c, Safely (fun _ => True) (A.reshape r c) := fun A r c => by unfold Mat.reshape; safe_all
    have hr3 : ∀ (A : Mat ℝ) r c d, Safely (fun _ => True) (A.reshape3 r c d) := fun A r c d => by unfold Mat.reshape3; safe_all
    have hr2 : ∀ (A : Cube ℝ) r c, Safely (fun _ => True) (A.reshape2 r c) := fun A r c => by unfold Cube.reshape2; safe_all
    refine (leaf_asArr _).bind fun X _ => (hr _ _ _).bind fun W2 _ => (leaf_gemm _ _ _ _).bind fun Y _ => (hr _ _ _).bind fun b1 _ =>
      (leaf_npUpdate _ _ _).bind fun Y' _ => (hr3 _ _ _ _).bind fun Z _ => (safely_maxout junk junkW Z).bind fun p hp => ?_
    obtain ⟨best, which⟩ := p
    simp only at hp
    refine safely_pure fun Y hY dY G hd => ?_
    obtain rfl : best = Y := by simpa using hY
    refine Safely.inside (Q := fun _ => True) ?_
    show Safely (fun _ => True) (backpropMaxout dY which nP >>= _)
    refine (safely_backpropMaxout dY which nP (by rw [hp.2.2.1, hp.2.2.2.1, ← hp.1, ← hp.2.1]; exact hd)
      fun i hi => hp.2.2.2.2 i (by rw [← hp.1, ← hp.2.1]; omega)).bind fun dZ _ => ?_
    safe_all
    exact hr2 _ _ _
  exact ⟨key.inside, fun Y cb e dY G hd => key.result e Y rfl dY G hd⟩

/-- Otherwise not: with a gradient of two rows for an output of one row, the kernel reads the index of the largest piece behind
the end of the array. -/
theorem C131_maxout_layer_wrong :
    ∃ (Y : Val) (cb : Callback),
      maxoutLayer (fun _ => 0) (fun _ => 0) 0 1 1 1 1 true (fun _ => Mat.zeros 1 1) (.arr (Mat.zeros 1 1)) = .ok (Y, cb) ∧
      ¬ Inside (cb (.arr (Mat.zeros 2 1)) fun _ => none) := by
  simp only [maxoutLayer, Val.asArr, Mat.reshape, Mat.reshape3, Mat.zeros, gemm, npDot, Mat.transpose, Mat.ofFn, npUpdate, maxout,
    Cube.pointer, cpuMaxout, argmaxLoop, forN, forM', Buf.read, Buf.write, Cube.buf, Buf.toMat, bind, Except.bind, pure, Except.pure,
    List.range_succ, List.range_zero, Bool.false_eq_true, if_true, if_false]
  norm_num [forM', Except.bind]
  refine ⟨_, _, ⟨rfl, rfl⟩, fun h => h ?_⟩
  have : backpropMaxout (⟨2, 1, fun _ => 0⟩ : Mat ℝ) ⟨1, 1, fun _ => 0⟩ 1 = .error .outOfBounds := by
    simp [backpropMaxout, cpuBackpropMaxout, Mat.pointer, Mat.buf, forN, forM', List.range_succ, Buf.read, Buf.write, bind, Except.bind,
      pure, Except.pure]
  simp only [this]

/-- The SparseLinear layer does not check that its lengths fit its keys, nor that there is a gradient for every example. -/
theorem C131_sparse_linear_wrong :
    ¬ Inside (sparseLinear 0 1 1 1 false true (fun _ => Mat.zeros 1 1) (.tup [.ints [], .arr (Mat.zeros 1 0), .ints [1]])) :=
  fun h => h C81_reads_outside

end Thinc
