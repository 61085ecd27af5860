import Verif.Props.ArrMemTuplify
import Verif.Props.ArrMemLayers
import Mathlib.Tactic.NormNum
/-!
# C122: where the layers that write into shared arrays go wrong
-/
namespace Thinc
open Shared Spec.Shared

/-- The first entry of an array. -/
def firstEntry : Val → ℝ
  | .arr A => A.at 0 0
  | _ => 0

/-- One array, with one row of two ones. -/
noncomputable def exOnes : ArrMem := ⟨fun _ => Mat.ofFn 1 1 fun _ _ => 1, fun _ => Mat.ofFn 1 2 fun _ _ => 1, 1⟩

/-- `add` with `noop` (or a `Dropout` that is not active) first: a forward pass changes the caller's input. -/
theorem C122_add_noop_wrong : ∃ (m m' : ArrMem) (X Y : RVal) (c : MCallback), In m X ∧ mAdd [mNoop, mNoop] false X m = .ok (Y, c, m') ∧
    X.read m ≠ X.read m' := by
  refine ⟨exOnes, _, .arr ⟨0, []⟩, _, _, by simp [In, RVal.refs, exOnes], rfl, ?_⟩
  intro h
  have h := congrArg firstEntry h
  simp only [RVal.read, firstEntry] at h
  revert h
  show ((1:ℝ) = 1 + 1) → False
  norm_num

theorem asContig_row (r : ArrRef) (m : ArrMem) (h : (r.get m).rows ≤ 1) : asContig r m = (r, m) := if_pos (.inl h)

/-- Two arrays: one row of one, and one row of two ones. -/
noncomputable def exRowPair : ArrMem := ⟨fun _ => Mat.ofFn 1 1 fun _ _ => 1, fun a => if a = 0 then Mat.ofFn 1 1 fun _ _ => 1 else Mat.ofFn 1 2 fun _ _ => 1, 2⟩

/-- `concatenate` with `noop` first: for one row, the backward pass changes the caller's gradient. -/
theorem C122_concatenate_noop_wrong : ∃ (m : ArrMem) (X dY : RVal), In m X ∧ In m dY ∧ ∃ (Y : RVal) (c : MCallback) (m1 : ArrMem),
    mConcatenate [mNoop, mNoop] false X m = .ok (Y, c, m1) ∧ ∃ (dX : RVal) (m2 : ArrMem) (G' : GradStore),
      c dY m1 (fun _ => none) = .ok (dX, m2, G') ∧ dY.read m1 ≠ dY.read m2 := by
  refine ⟨exRowPair, .arr ⟨0, []⟩, .arr ⟨1, []⟩, by simp [In, RVal.refs, exRowPair], by simp [In, RVal.refs, exRowPair], _, _, _, rfl, ?_⟩
  generalize hm : (exRowPair.alloc _).2 = m1
  have h1 : m1.cell 1 = Mat.ofFn 1 2 fun _ _ => 1 := by rw [← hm]; rfl
  refine ⟨.arr ((⟨1, []⟩ : ArrRef).slice (.cols 0 1)), ((⟨1, []⟩ : ArrRef).slice (.cols 0 1)).put m1 (Mat.ofFn 1 1 fun _ _ => 1 + 1), fun _ => none, ?_, ?_⟩
  · rw [show List.map (fun r => (ArrRef.get exRowPair r).cols) [⟨0, []⟩, ⟨0, []⟩].reverse = [1, 1] from rfl]
    simp only [RVal.asRef, mConcatBack, mConcatRest, List.zip_cons_cons, bind, Except.bind]
    have e : ∀ a b, asContig ((⟨1, []⟩ : ArrRef).slice (.cols a b)) m1 = ((⟨1, []⟩ : ArrRef).slice (.cols a b), m1) := by
      intro a b
      apply asContig_row
      rw [slice_get]
      simp only [ArrRef.get, List.foldl_nil, h1]
      simp [ArrSlice.get, Mat.colBlock, Mat.ofFn]
    rw [e, e]
    simp only [RVal.addGradient, RVal.iadd, slice_get, bind, Except.bind]
    simp only [ArrRef.get, List.foldl_nil, h1]
    rfl
  · intro h
    have h := congrArg firstEntry h
    simp only [RVal.read, firstEntry, ArrRef.get, List.foldl_nil, h1, ArrRef.put, ArrRef.slice] at h
    revert h
    show ((1:ℝ) = 1 + 1) → False
    norm_num

theorem mask_half : getDropoutMask 1 1 (some (1 / 2)) (fun _ _ => 1) = Mat.ofFn 1 1 fun _ _ => 2 := by
  unfold getDropoutMask
  norm_num

/-- One array with a one in it; parameters with a one in them. -/
noncomputable def exOne : ArrMem := ⟨fun _ => Mat.ofFn 1 1 fun _ _ => 1, fun _ => Mat.ofFn 1 1 fun _ _ => 1, 1⟩

/-- `Embed` with dropout: the backward pass changes the caller's gradient. -/
theorem C122_embed_wrong : ∃ (m : ArrMem) (X dY : RVal), In m X ∧ In m dY ∧ ∃ (Y : RVal) (c : MCallback) (m1 : ArrMem),
    mEmbed 0 (some (1 / 2)) (fun _ _ => 1) false true X m = .ok (Y, c, m1) ∧ ∃ (dX : RVal) (m2 : ArrMem) (G' : GradStore),
      c dY m1 (fun _ => none) = .ok (dX, m2, G') ∧ dY.read m1 ≠ dY.read m2 := by
  refine ⟨exOne, .ints [0], .arr ⟨0, []⟩, by simp [In, RVal.refs], by simp [In, RVal.refs, exOne], ?_⟩
  unfold mEmbed
  simp only [RVal.read, if_true]
  rw [show (exOne.params 0).cols = 1 from rfl, mask_half]
  refine ⟨_, _, _, rfl, _, _, _, rfl, ?_⟩
  intro h
  have h := congrArg firstEntry h
  simp only [firstEntry] at h
  revert h
  show ((1:ℝ) = 1 * 2) → False
  norm_num

/-- `Embed` with dropout rate one half, and draws that keep everything: the mask is two. -/
noncomputable def exEmbed (E : Nat) : MLayer := mEmbed E (some (1 / 2)) (fun _ _ => 1) false

/-- The same with the mask written out. -/
noncomputable def exEmbedM (E : Nat) (X : RVal) (m : ArrMem) : Except PyErr (RVal × MCallback × ArrMem) := do
  let ids ← (X.read m).asInts
  let output ← (m.params E).takeRows ids
  let output ← applyMask output (some (Mat.ofFn 1 1 fun _ _ => 2))
  pure (.arr ⟨(m.alloc output).1, []⟩, fun dOutput m G => do
    let d ← dOutput.asRef
    let m ← mApplyMask d (some (Mat.ofFn 1 1 fun _ _ => 2)) m
    let dVectors ← scatterAdd false (Mat.zeros (m.params E).rows (m.params E).cols) ids (ArrRef.get m d)
    let G ← incGrad G E dVectors
    pure (.ints (ids.map (fun _ => 0)), m, G), (m.alloc output).2)

theorem exEmbed_eq (E : Nat) (X : RVal) (m : ArrMem) (h : (m.params E).cols = 1) : exEmbed E true X m = exEmbedM E X m := by
  unfold exEmbed mEmbed exEmbedM
  simp only [if_true, h, mask_half]

/-- The result of the first of two such layers. -/
noncomputable def exFirst : RVal × MCallback × ArrMem := (exEmbedM 0 (.ints [0]) exOne).toOption.getD (.list [], fun _ _ _ => .error .typeError, exOne)

/-- The parameter gradient of the second of two `Embed` layers that are added is wrong: the first has changed the gradient. -/
theorem C122_add_embed_wrong : ∃ (m : ArrMem) (X dY : RVal), In m X ∧ In m dY ∧
    (∃ (Y : RVal) (c : MCallback) (m1 : ArrMem), mAdd [exEmbed 0, exEmbed 1] true X m = .ok (Y, c, m1) ∧
      ∃ (dX : RVal) (m2 : ArrMem) (G : GradStore), c dY m1 (fun _ => none) = .ok (dX, m2, G) ∧ (G 1).map (fun A => A.at 0 0) = some 4) ∧
    ∃ (y : Val) (cb : Callback), addLayers [embed 0 (some (1 / 2)) (fun _ _ => 1) false, embed 1 (some (1 / 2)) (fun _ _ => 1) false] true
        m.params (X.read m) = .ok (y, cb) ∧
      ∃ (d : Val) (G : GradStore), cb (dY.read m) (fun _ => none) = .ok (d, G) ∧ (G 1).map (fun A => A.at 0 0) = some 2 := by
  refine ⟨exOne, .ints [0], .arr ⟨0, []⟩, by simp [In, RVal.refs], by simp [In, RVal.refs, exOne], ?_, ?_⟩
  · have hp : exFirst.2.2.params = fun _ => ⟨1, 1, fun _ => 1⟩ := rfl
    have hn : exFirst.2.2.next = 2 := rfl
    have hc : exFirst.2.2.cell 0 = ⟨1, 1, fun _ => 1⟩ := rfl
    unfold mAdd mAddForward
    simp only []
    rw [exEmbed_eq 0 _ _ rfl, show exEmbedM 0 (.ints [0]) exOne = .ok exFirst from rfl]
    simp only [bind, Except.bind]
    rw [exEmbed_eq 1 _ _ rfl]
    refine ⟨_, _, _, rfl, _, _, _, rfl, ?_⟩
    norm_num [Mat.at, Mat.ofFn, ArrRef.get, ArrRef.put, putPath, exOne, ArrMem.alloc, Mat.zeros, hp, hn, hc]
  · unfold addLayers embed
    simp only [RVal.read, if_true]
    rw [show (exOne.params 0).cols = 1 from rfl]
    simp only [forM', addForwardStep]
    rw [show (exOne.params 1).cols = 1 from rfl, mask_half]
    refine ⟨_, _, rfl, _, _, rfl, ?_⟩
    norm_num [Mat.at, Mat.ofFn, ArrRef.get, ArrRef.put, putPath, exOne, Mat.zeros, ArrMem.alloc]

/-- Weights minus one, bias zero; two arrays with a one in them. -/
noncomputable def exNegative : ArrMem :=
  ⟨fun p => Mat.ofFn 1 1 fun _ _ => if p = 0 then -1 else 0, fun _ => Mat.ofFn 1 1 fun _ _ => 1, 2⟩

/-- `add` with `Relu` first: the output that the callback of `Relu` needs is overwritten with the sum, and the gradient is wrong. -/
theorem C122_add_relu_wrong : ∃ (m : ArrMem) (X dY : RVal), In m X ∧ In m dY ∧
    (∃ (Y : RVal) (c : MCallback) (m1 : ArrMem), mAdd [mRelu 0 1, mNoop] true X m = .ok (Y, c, m1) ∧
      ∃ (dX : RVal) (m2 : ArrMem) (G : GradStore), c dY m1 (fun _ => none) = .ok (dX, m2, G) ∧ firstEntry (dX.read m2) = 0) ∧
    ∃ (y : Val) (cb : Callback), addLayers [reluLayer 0 1, noop] true m.params (X.read m) = .ok (y, cb) ∧
      ∃ (d : Val) (G : GradStore), cb (dY.read m) (fun _ => none) = .ok (d, G) ∧ firstEntry d = 1 := by
  refine ⟨exNegative, .arr ⟨0, []⟩, .arr ⟨1, []⟩, by simp [In, RVal.refs, exNegative], by simp [In, RVal.refs, exNegative], ?_, ?_⟩
  · refine ⟨_, _, _, rfl, _, _, _, rfl, ?_⟩
    norm_num [firstEntry, RVal.read, Mat.at, Mat.ofFn, ArrRef.get, ArrRef.put, putPath, exNegative, cpuRelu, cpuBackpropRelu, Mat.lift, Mat.transpose, ArrMem.alloc, RVal.fresh, Val.asArr]
  · refine ⟨_, _, rfl, _, _, rfl, ?_⟩
    norm_num [firstEntry, Mat.at, Mat.ofFn, ArrRef.get, exNegative, cpuRelu, cpuBackpropRelu, Mat.lift, Mat.transpose]

end Thinc
