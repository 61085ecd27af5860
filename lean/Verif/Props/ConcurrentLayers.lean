import Verif.Props.Concurrent
import Verif.Props.ConcurrentGrads
import Verif.Props.Random
import Verif.Model.Dense
import Verif.Model.SoftmaxLayer
import Verif.Model.MaxoutLayer
import Verif.Model.LayerNorm
import Verif.Model.PoolLayers
import Verif.Model.Cauchy
import Verif.Model.Attention
import Verif.Model.SparseLinear
import Verif.Model.WindowLayer
/-!
# C130: which parameters a layer reads
-/
namespace Thinc
open Conc Random Spec.Conc Spec.Random

/-- **C130.**  Layers read no parameters but their own. -/
theorem C130_linear (W b : Nat) : ReadsOnly [W, b] (linear W b) := fun P P' h train X => by
  simp only [linear, h W (by simp), h b (by simp)]

private theorem backprop_congr {W b : Nat} {P P' : ParamVals} (hW : P W = P' W) : (fun bFirst => denseBackprop W b bFirst P) = fun bFirst => denseBackprop W b bFirst P' := by
  funext bFirst X dY G
  simp only [denseBackprop, hW]

private theorem reads_dense (W b : Nat) (bFirst : Bool) (act : (Nat → ℝ) → Nat → ℝ) (back : Mat ℝ → Mat ℝ → Mat ℝ → Mat ℝ → Except PyErr (Mat ℝ)) :
    ReadsOnly [W, b] (dense W b bFirst act back) := fun P P' h train X => by
  have : denseBackprop W b bFirst P = denseBackprop W b bFirst P' := congrFun (backprop_congr (h W (by simp))) bFirst
  simp only [dense, h W (by simp), h b (by simp), this]

theorem C130_dense (W b : Nat) : ReadsOnly [W, b] (reluLayer W b) ∧ ReadsOnly [W, b] (sigmoidLayer W b) ∧ ReadsOnly [W, b] (swishLayer W b) ∧
    (∀ erf, ReadsOnly [W, b] (geluLayer erf W b)) ∧ ReadsOnly [W, b] (mishLayer W b) ∧ ReadsOnly [W, b] (hardSwishLayer W b) ∧
    ReadsOnly [W, b] (hardSwishMobilenetLayer W b) ∧ ReadsOnly [W, b] (dishLayer W b) ∧
    ∀ slope offset lo hi, ReadsOnly [W, b] (clippedLinearLayer slope offset lo hi W b) :=
  ⟨reads_dense _ _ _ _ _, reads_dense _ _ _ _ _, reads_dense _ _ _ _ _, fun _ => reads_dense _ _ _ _ _, reads_dense _ _ _ _ _, reads_dense _ _ _ _ _, reads_dense _ _ _ _ _, reads_dense _ _ _ _ _,
    fun _ _ _ _ => reads_dense _ _ _ _ _⟩

theorem C130_softmax (W b : Nat) (normalize : Bool) (T : ℝ) : ReadsOnly [W, b] (softmaxLayer W b normalize T) := fun P P' h train X => by
  have : softmaxBackprop W b T P = softmaxBackprop W b T P' := by
    have : denseBackprop W b true P = denseBackprop W b true P' := congrFun (backprop_congr (h W (by simp))) true
    funext X Y dY G
    simp only [softmaxBackprop, this]
  simp only [softmaxLayer, h W (by simp), h b (by simp), this]

theorem C130_maxout (junk : Nat → ℝ) (junkW : Nat → Int) (W b nO nP nI : Nat) : ReadsOnly [W, b] (maxoutLayer junk junkW W b nO nP nI) :=
  fun P P' h train X => by simp only [maxoutLayer, h W (by simp), h b (by simp)]

theorem C130_layer_norm (G b : Nat) : ReadsOnly [G, b] (layerNorm G b) := fun P P' h train X => by
  have : lnScaleShift G b P = lnScaleShift G b P' := by
    funext X
    simp only [lnScaleShift, h G (by simp), h b (by simp)]
  simp only [layerNorm, this]

theorem C130_embed (E : Nat) (rate : Option ℝ) (flips : Nat → Nat → ℝ) (fast : Bool) : ReadsOnly [E] (embed E rate flips fast) :=
  fun P P' h train X => by simp only [embed, h E (by simp)]

theorem C130_hash_embed (E : Nat) (seed : BitVec 32) (rate : Option ℝ) (flips : Nat → Nat → ℝ) (fast : Bool) :
    ReadsOnly [E] (hashEmbed E seed rate flips fast) :=
  fun P P' h train X => by simp only [hashEmbed, h E (by simp)]

theorem C130_attention (Q : Nat) : ReadsOnly [Q] (parametricAttention Q) := fun P P' h train X => by
  simp only [parametricAttention, h Q (by simp)]

theorem C130_cauchy (W : Nat) : ReadsOnly [W] (cauchySimilarity W) := fun P P' h train X => by
  simp only [cauchySimilarity, h W (by simp)]

theorem C130_sparse_linear (W b nO length : Nat) (v1 : Bool) : ReadsOnly [W, b] (sparseLinear W b nO length v1) := fun P P' h train X => by
  simp only [sparseLinear, h W (by simp), h b (by simp)]

theorem C130_without_parameters :
    ReadsOnly [] noop ∧ ReadsOnly [] reduceSumLayer ∧ ReadsOnly [] reduceMeanLayer ∧ (∀ junk, ReadsOnly [] (reduceMaxLayer junk)) ∧
    ReadsOnly [] reduceFirstLayer ∧ ReadsOnly [] reduceLastLayer ∧ (∀ nW, ReadsOnly [] (expandWindow nW)) ∧
    (∀ rate isEnabled draws, ReadsOnly [] (dropout rate isEnabled draws)) ∧ ReadsOnly [] list2raggedL ∧ ReadsOnly [] ragged2listL ∧
    ReadsOnly [] list2arrayL ∧ ReadsOnly [] list2paddedL ∧ ReadsOnly [] padded2listL :=
  ⟨fun _ _ _ _ _ => rfl, fun _ _ _ _ _ => rfl, fun _ _ _ _ _ => rfl, fun _ _ _ _ _ _ => rfl, fun _ _ _ _ _ => rfl, fun _ _ _ _ _ => rfl,
    fun _ _ _ _ _ _ => rfl, fun _ _ _ _ _ _ _ _ => rfl, fun _ _ _ _ _ => rfl, fun _ _ _ _ _ => rfl, fun _ _ _ _ _ => rfl, fun _ _ _ _ _ => rfl,
    fun _ _ _ _ _ => rfl⟩

/-! ### An instance -/

/-- A network of two layers that share their weights, and a wrapped module. -/
private noncomputable def net {R : Type} (m : Nat) (M : Bool → Val → Except PyErr (Val × Callback)) : CLayer R :=
  combineC chainTree [Conc.leafC [0, 1] (linear 0 1), Conc.leafC [0, 1] (reluLayer 0 1), torchC m M]

private theorem net_ok {R : Type} (m : Nat) (M : Bool → Val → Except PyErr (Val × Callback)) :
    Spec.Conc.Network (R := R) (fun n => n = m) (net m M) (chain [linear 0 1, reluLayer 0 1, fun train _ X => M train X]) := by
  refine .combine C128_chain _ [linear 0 1, reluLayer 0 1, fun train _ X => M train X] rfl fun p hp => ?_
  simp only [List.zip_cons_cons, List.zip_nil_right, List.mem_cons, List.not_mem_nil, or_false] at hp
  rcases hp with rfl | rfl | rfl
  · exact .leaf _ _ (C130_linear 0 1)
  · exact .leaf _ _ (C130_dense 0 1).1
  · exact .torch _ _ rfl

-- One thread predicts and one trains, with shared parameters and a module each.
example (M : Bool → Val → Except PyErr (Val × Callback)) (X X' : Val) := C130_calls_partial
  [⟨net 0 M, (· = 0), chain [linear 0 1, reluLayer 0 1, fun train _ X => M train X], false, X⟩,
   ⟨net 1 M, (· = 1), chain [linear 0 1, reluLayer 0 1, fun train _ X => M train X], true, X'⟩]
  (by
    intro c hc
    simp only [List.mem_cons, List.not_mem_nil, or_false] at hc
    rcases hc with rfl | rfl <;> exact net_ok _ M)
  (by
    intro i j hi hj hij m h1 h2
    have hi' : i = 0 ∨ i = 1 := by simp at hi; omega
    have hj' : j = 0 ∨ j = 1 := by simp at hj; omega
    rcases hi' with rfl | rfl <;> rcases hj' with rfl | rfl <;> simp_all)

-- A module that doubles its input in training mode only.
example := C130_module_wrong (fun a _ => a) ⟨fun _ => Mat.zeros 0 0, fun _ => none, fun _ => true⟩ 0
  (fun train X => .ok (if train then .list [X, X] else X, fun dY G => .ok (dY, G))) (.ints [1]) (.ints [2]) _ _ rfl rfl

end Thinc
