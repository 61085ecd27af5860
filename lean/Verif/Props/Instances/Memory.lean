import Verif.Props.ArrMemLayers
import Verif.Props.ArrMemTuplify
import Verif.Props.ArrMemPadded
/-!
# C122: a network
-/
namespace Thinc
open Shared Spec.Shared

/-- `chain(LayerNorm(), add(Linear(), Relu(), Dropout()), residual(Gelu()), concatenate(Relu(), Linear()), Dropout(), Softmax())` in memory -/
noncomputable def memNet (erf : ℝ → ℝ) (draws : Nat → Nat → Nat → ℝ) : MLayer :=
  mChain ((layerNormBody 0 1).layer :: [mAdd [(linearBody 2 3).layer, mRelu 4 5, mDropout (1 / 2) true draws], mResidual (mGelu erf 6 7),
    mConcatenate [mRelu 8 9, (linearBody 10 11).layer], mDropout (1 / 2) true draws] ++ [(softmaxBody 12 13 true 1).layer])

/-- The same on values. -/
noncomputable def valNet (erf : ℝ → ℝ) (draws : Nat → Nat → Nat → ℝ) : Layer :=
  chain (layerNorm 0 1 :: [addLayers [linear 2 3, reluLayer 4 5, dropout (1 / 2) true draws], residual (geluLayer erf 6 7),
    concatenateForward [reluLayer 8 9, linear 10 11], dropout (1 / 2) true draws] ++ [softmaxLayer 12 13 true 1])

theorem memNet_faithful (erf : ℝ → ℝ) (draws : Nat → Nat → Nat → ℝ) : Faithful true true (memNet erf draws) (valNet erf draws) := by
  refine C122_chain (C122_layernorm 0 1) (C122_softmax 12 13 true 1) (.cons ?_ (.cons ?_ (.cons ?_ (.cons ?_ .nil))))
  · exact (C122_add_partial (C122_linear 2 3) (.cons ((C122_dense_output 4 5).1.weaken (by simp) (by simp)) (.cons (C122_dropout _ _ _) .nil))).weaken (by simp) (by simp)
  · exact (C122_residual_partial (C122_dense 6 7 erf 0 0 0 0).1).weaken (by simp) (by simp)
  · exact (C122_concatenate_partial (C122_dense_output 8 9).1 (.cons ((C122_linear 10 11).weaken (by simp) (by simp)) .nil)).weaken (by simp) (by simp)
  · exact C122_dropout _ _ _

/-- An input with two rows and three columns, and the weights and biases of a network whose layers have three columns up to the one that
concatenates. -/
noncomputable def memStart : ArrMem where
  params := fun p => if p = 12 then Mat.ofFn 2 6 fun i j => i + j else if p = 13 then Mat.ofFn 1 2 fun _ _ => 1 else
    if p = 0 ∨ p % 2 = 1 then Mat.ofFn 1 3 fun _ j => j else Mat.ofFn 3 3 fun i j => i + 2 * j
  cell := fun _ => Mat.ofFn 2 3 fun i j => i + j
  next := 1

example : In memStart (.arr ⟨0, []⟩) := by simp [In, RVal.refs, memStart]

example (E : Nat) (r : Option ℝ) (f : Nat → Nat → ℝ) : FaithfulAt true true (mEmbed E r f false) (embed E r f false) false (.ints [0]) memStart :=
  C122_embed_partial E r f false (by simp [In, RVal.refs])

example (erf : ℝ → ℝ) : Faithful true true (mTuplify [mGelu erf 0 1, mNoop]) (tuplify [geluLayer erf 0 1, noop]) :=
  C122_tuplify_partial (C122_dense 0 1 erf 0 0 0 0).1 (.cons C122_noop .nil)

example : FaithfulAt true true (mResidual (mRelu 0 1)) (residual (reluLayer 0 1)) true (.arr ⟨0, []⟩) memStart :=
  C122_residual_arrays (C122_dense_output 0 1).1 true (by simp [In, RVal.refs, memStart]) (by simp)

/-- `chain(with_array(memNet), list2ragged(), with_array(Linear()))` on lists -/
example (erf : ℝ → ℝ) (draws : Nat → Nat → Nat → ℝ) : Faithful false false
    (mChain (mWithArray2d (memNet erf draws) 1 :: [mList2ragged] ++ [mWithArray2d (linearBody 14 15).layer 0]))
    (chain (withArray2dL (valNet erf draws) 1 :: [list2raggedL] ++ [withArray2dL (linear 14 15) 0])) :=
  C122_chain (C122_with_array (memNet_faithful erf draws) 1) (C122_with_array (C122_linear 14 15) 0) (.cons C122_conversions.1 .nil)

/-- Two sequences that are parts of one array. -/
example : In memStart (.list (mSplit ⟨0, []⟩ 0 [1, 1] 0)) := by simp [In, RVal.refs, RVal.refsAll, mSplit, memStart, ArrRef.slice]

/-- `chain(list2padded(), with_ragged(with_list(with_array(Linear()))), padded2list())` -/
example : Faithful false false
    (mChain (mList2padded :: [mWithRagged (mWithList (mWithArray2d (linearBody 14 15).layer 0))] ++ [mPadded2list]))
    (chain (list2paddedL :: [withRaggedL (withListL (withArray2dL (linear 14 15) 0))] ++ [padded2listL])) :=
  C122_chain C122_padded_conversions.1 C122_padded_conversions.2
    (.cons (C122_with_sequences (C122_with_sequences (C122_with_array (C122_linear 14 15) 0)).1).2.1 .nil)

end Thinc
