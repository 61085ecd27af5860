import Verif.Props.ArrMemWrong
/-!
# C123: why a user has to be careful
-/
namespace Thinc
open Shared Spec.Shared

/-- The input is overwritten between the forward and the backward pass: the gradient of the weights is that of another input. -/
theorem C123_input_wrong : ∃ (m : ArrMem) (X dY : RVal) (r : ArrRef) (B : Mat ℝ), In m X ∧ In m dY ∧ r ∈ X.refs ∧
    (∃ (Y : RVal) (c : MCallback) (m1 : ArrMem), (linearBody 0 1).layer true X m = .ok (Y, c, m1) ∧
      ∃ (dX : RVal) (m2 : ArrMem) (G : GradStore), c dY (r.put m1 B) (fun _ => none) = .ok (dX, m2, G) ∧ (G 0).map (fun A => A.at 0 0) = some 5) ∧
    ∃ (y : Val) (cb : Callback), linear 0 1 true m.params (X.read m) = .ok (y, cb) ∧
      ∃ (d : Val) (G : GradStore), cb (dY.read m) (fun _ => none) = .ok (d, G) ∧ (G 0).map (fun A => A.at 0 0) = some 1 := by
  refine ⟨exNegative, .arr ⟨0, []⟩, .arr ⟨1, []⟩, ⟨0, []⟩, Mat.ofFn 1 1 fun _ _ => 5, by simp [In, RVal.refs, exNegative],
    by simp [In, RVal.refs, exNegative], by simp [RVal.refs], ?_, ?_⟩
  · refine ⟨_, _, _, rfl, _, _, _, rfl, ?_⟩
    norm_num [Mat.at, Mat.ofFn, ArrRef.get, ArrRef.put, putPath, exNegative, Mat.transpose, ArrMem.alloc, RVal.fresh, RVal.read]
  · refine ⟨_, _, rfl, _, _, rfl, ?_⟩
    norm_num [Mat.at, Mat.ofFn, ArrRef.get, exNegative, Mat.transpose]

/-- The output of `Relu` is overwritten before the backward pass: the gradient is wrong. -/
theorem C123_output_wrong : ∃ (m : ArrMem) (X dY : RVal), In m X ∧ In m dY ∧
    (∃ (Y : RVal) (c : MCallback) (m1 : ArrMem), mRelu 0 1 true X m = .ok (Y, c, m1) ∧ ∃ (r : ArrRef) (B : Mat ℝ), r ∈ Y.refs ∧
      ∃ (dX : RVal) (m2 : ArrMem) (G : GradStore), c dY (r.put m1 B) (fun _ => none) = .ok (dX, m2, G) ∧ firstEntry (dX.read m2) = -1) ∧
    ∃ (y : Val) (cb : Callback), reluLayer 0 1 true m.params (X.read m) = .ok (y, cb) ∧
      ∃ (d : Val) (G : GradStore), cb (dY.read m) (fun _ => none) = .ok (d, G) ∧ firstEntry d = 0 := by
  refine ⟨exNegative, .arr ⟨0, []⟩, .arr ⟨1, []⟩, by simp [In, RVal.refs, exNegative], by simp [In, RVal.refs, exNegative], ?_, ?_⟩
  · refine ⟨_, _, _, rfl, ⟨2, []⟩, Mat.ofFn 1 1 fun _ _ => 5, by simp [RVal.refs, RVal.fresh, ArrMem.alloc, exNegative], _, _, _, rfl, ?_⟩
    norm_num [firstEntry, Mat.at, Mat.ofFn, ArrRef.get, ArrRef.put, putPath, exNegative, cpuBackpropRelu, ArrMem.alloc, RVal.fresh, RVal.read]
  · refine ⟨_, _, rfl, _, _, rfl, ?_⟩
    norm_num [firstEntry, Mat.at, Mat.ofFn, ArrRef.get, exNegative, cpuRelu, cpuBackpropRelu, Mat.lift, Mat.transpose]

/-- A callback that is called after the parameters have been updated: the gradient of the input is that of the new weights. -/
theorem C123_old_callback_wrong : ∃ (m : ArrMem) (X dY : RVal) (P : ParamVals), In m X ∧ In m dY ∧
    (∃ (Y : RVal) (c : MCallback) (m1 : ArrMem), (linearBody 0 1).layer true X m = .ok (Y, c, m1) ∧
      ∃ (dX : RVal) (m2 : ArrMem) (G : GradStore), c dY { m1 with params := P } (fun _ => none) = .ok (dX, m2, G) ∧ firstEntry (dX.read m2) = 3) ∧
    ∃ (y : Val) (cb : Callback), linear 0 1 true m.params (X.read m) = .ok (y, cb) ∧
      ∃ (d : Val) (G : GradStore), cb (dY.read m) (fun _ => none) = .ok (d, G) ∧ firstEntry d = -1 := by
  refine ⟨exNegative, .arr ⟨0, []⟩, .arr ⟨1, []⟩, fun _ => Mat.ofFn 1 1 fun _ _ => 3, by simp [In, RVal.refs, exNegative],
    by simp [In, RVal.refs, exNegative], ?_, ?_⟩
  · refine ⟨_, _, _, rfl, _, _, _, rfl, ?_⟩
    norm_num [firstEntry, Mat.at, Mat.ofFn, ArrRef.get, exNegative, ArrMem.alloc, RVal.fresh, RVal.read]
  · refine ⟨_, _, rfl, _, _, rfl, ?_⟩
    norm_num [firstEntry, Mat.at, Mat.ofFn, ArrRef.get, exNegative]

end Thinc
