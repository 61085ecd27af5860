import Verif.Model.ArrMemLayers
import Verif.Props.ArrMem
/-!
# C122: more layers on shared arrays
-/
namespace Thinc
open Shared Spec.Shared

/-- The dense layers that do not use their output in the callback. -/
theorem denseBody_faithful (W b : Nat) (bFirst : Bool) (act : (Nat → ℝ) → Nat → ℝ) (back : Mat ℝ → Mat ℝ → Mat ℝ → Except PyErr (Mat ℝ)) :
    Faithful true true (denseBody W b bFirst act back).layer (dense W b bFirst act fun X preact _ dY => back X preact dY) := by
  refine body_faithful _ _ false (fun train P X => ?_) (fun _ _ _ _ _ _ => rfl)
  unfold denseBody dense
  simp only
  refine agree_same _ fun A hA => agree_same _ fun B hB => ?_
  refine ⟨rfl, ?_⟩
  funext dY G
  rw [hA]
  rfl

/-- The dense layers that use their output in the callback. -/
theorem denseOutBody_faithful (W b : Nat) (bFirst : Bool) (act : (Nat → ℝ) → Nat → ℝ) (back : Mat ℝ → Mat ℝ → Mat ℝ → Mat ℝ → Except PyErr (Mat ℝ)) :
    Faithful false true (denseOutBody W b bFirst act back).layer (dense W b bFirst act back) := by
  refine body_faithful _ _ true (fun train P X => ?_) (fun h => by cases h)
  unfold denseOutBody dense
  simp only
  refine agree_same _ fun A hA => agree_same _ fun B hB => ?_
  refine ⟨rfl, ?_⟩
  funext dY G
  rw [hA]
  rfl

/-- `Gelu`, `Mish`, `HardSwish`, `HardSwishMobilenet`, `Dish` and `ClippedLinear`. -/
theorem C122_dense (W b : Nat) (erf : ℝ → ℝ) (slope offset minVal maxVal : ℝ) :
    Faithful true true (mGelu erf W b) (geluLayer erf W b) ∧ Faithful true true (mMish W b) (mishLayer W b) ∧
    Faithful true true (mHardSwish W b) (hardSwishLayer W b) ∧ Faithful true true (mHardSwishMobilenet W b) (hardSwishMobilenetLayer W b) ∧
    Faithful true true (mDish W b) (dishLayer W b) ∧
    Faithful true true (mClippedLinear slope offset minVal maxVal W b) (clippedLinearLayer slope offset minVal maxVal W b) :=
  ⟨denseBody_faithful _ _ _ _ _, denseBody_faithful _ _ _ _ _, denseBody_faithful _ _ _ _ _, denseBody_faithful _ _ _ _ _, denseBody_faithful _ _ _ _ _, denseBody_faithful _ _ _ _ _⟩

/-- `Relu`, `Sigmoid`, `Swish`: the output must not be changed until the callback has been called. -/
theorem C122_dense_output (W b : Nat) : Faithful false true (mRelu W b) (reluLayer W b) ∧ Faithful false true (mSigmoid W b) (sigmoidLayer W b) ∧
    Faithful false true (mSwish W b) (swishLayer W b) :=
  ⟨denseOutBody_faithful _ _ _ _ _, denseOutBody_faithful _ _ _ _ _, denseOutBody_faithful _ _ _ _ _⟩

/-- `Logistic` and `sigmoid_activation`: the same. -/
theorem C122_logistic : Faithful false true mLogistic logisticLayer := by
  refine body_faithful _ _ true (fun train P X => ?_) (fun h => by cases h)
  unfold logisticBody logisticLayer entrywise
  simp only
  refine agree_same _ fun A hA => ?_
  exact ⟨rfl, rfl⟩

theorem C122_softmax (W b : Nat) (normalizeOutputs : Bool) (temperature : ℝ) :
    Faithful true true (softmaxBody W b normalizeOutputs temperature).layer (softmaxLayer W b normalizeOutputs temperature) := by
  refine body_faithful _ _ false (fun train P X => ?_) (fun _ _ _ _ _ _ => rfl)
  unfold softmaxBody softmaxLayer
  simp only
  refine agree_same _ fun A hA => ?_
  split
  · exact (rfl : PyErr.valueError = _)
  refine agree_same _ fun B hB => ?_
  split
  · refine agree_same _ fun C hC => ⟨rfl, ?_⟩
    funext dY G
    simp only [softmaxBwd]
    rw [hA]
    rfl
  · exact ⟨rfl, rfl⟩

theorem C122_multisoftmax (W b : Nat) (nOs : List Nat) : Faithful true true (multiSoftmaxBody W b nOs).layer (multiSoftmax W b nOs) := by
  refine body_faithful _ _ false (fun train P X => ?_) (fun _ _ _ _ _ _ => rfl)
  unfold multiSoftmaxBody multiSoftmax
  simp only
  refine agree_same _ fun A hA => agree_same _ fun B hB => agree_same _ fun C hC => agree_same _ fun D hD => ⟨rfl, ?_⟩
  funext dY G
  rw [hA]
  rfl

theorem C122_maxout (junk : Nat → ℝ) (junkW : Nat → Int) (W b nO nP nI : Nat) :
    Faithful true true (maxoutBody junk junkW W b nO nP nI).layer (maxoutLayer junk junkW W b nO nP nI) := by
  refine body_faithful _ _ false (fun train P X => ?_) (fun _ _ _ _ _ _ => rfl)
  unfold maxoutBody maxoutLayer
  simp only
  refine agree_same _ fun A hA => agree_same _ fun B hB => agree_same _ fun C hC => agree_same _ fun D hD => agree_same _ fun E hE =>
    agree_same _ fun F hF => agree_same _ fun H hH => ⟨rfl, ?_⟩
  funext dY G
  rw [hA, hB]
  rfl

theorem C122_layernorm (Gp b : Nat) : Faithful true true (layerNormBody Gp b).layer (layerNorm Gp b) := by
  refine body_faithful _ _ false (fun train P X => ?_) (fun _ _ _ _ _ _ => rfl)
  unfold layerNormBody layerNorm
  simp only
  refine agree_same _ fun A hA => agree_same _ fun B hB => agree_same _ fun C hC => ?_
  rw [lnScaleShift]
  simp only [bind_assoc, pure_bind]
  refine agree_same _ fun D hD => agree_same _ fun E hE => ⟨rfl, ?_⟩
  funext dY G
  rw [hA]
  simp only [lnMoments, bind_assoc, pure_bind]
  rfl

theorem C122_attention (Qp : Nat) : Faithful true true (attentionBody Qp).layer (parametricAttention Qp) := by
  refine body_faithful _ _ false (fun train P X => ?_) (fun _ _ _ _ _ _ => rfl)
  unfold attentionBody parametricAttention
  simp only
  refine agree_same _ fun A hA => agree_same _ fun B hB => agree_same _ fun C hC => agree_same _ fun D hD => ⟨rfl, ?_⟩
  funext dY G
  rw [hA, hB]
  rfl

theorem private_faithful (L : Layer) : Faithful true true (privateBody L).layer L :=
  body_faithful _ _ false (fun train P X => agree_mono (agree_self (L train P X)) fun a b h => (by subst h; exact ⟨rfl, rfl⟩)) (fun _ _ _ _ _ _ => rfl)

/-- The pooling layers and `expand_window`. -/
theorem C122_pooling (junk : Nat → ℝ) (nW : Nat) : Faithful true true mReduceSum reduceSumLayer ∧ Faithful true true mReduceMean reduceMeanLayer ∧
    Faithful true true (mReduceMax junk) (reduceMaxLayer junk) ∧ Faithful true true mReduceFirst reduceFirstLayer ∧
    Faithful true true mReduceLast reduceLastLayer ∧ Faithful true true (mExpandWindow nW) (expandWindow nW) :=
  ⟨private_faithful _, private_faithful _, private_faithful _, private_faithful _, private_faithful _, private_faithful _⟩

/-- `Dropout`: input and output may be the same array. -/
theorem C122_dropout (rate : ℝ) (isEnabled : Bool) (draws : Nat → Nat → Nat → ℝ) :
    Faithful false false (mDropout rate isEnabled draws) (dropout rate isEnabled draws) := by
  intro train X m hX
  by_cases h : rate = 0 ∨ (isEnabled && train) = false
  · have := C122_noop train X m hX
    unfold FaithfulAt mDropout dropout
    simp only
    rw [if_pos h, if_pos h]
    exact this
  · have := (private_faithful (dropout rate isEnabled draws)).weaken (o' := false) (g' := false) (fun _ => rfl) (fun _ => rfl) train X m hX
    unfold FaithfulAt mDropout
    rw [if_neg h]
    exact this

end Thinc
