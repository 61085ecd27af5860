import Verif.Props.MemSession
/-!
# C123: a session
-/
namespace Thinc
open Shared Spec.Shared

/-- Before the first call: no arrays. -/
noncomputable def exMemStart : MSession Unit :=
  ⟨⟨exLinearHeap, OptState.init true⟩, ⟨readParams exLinearHeap exLinearSlots, fun _ => ⟨0, 0, fun _ => 0⟩, 0⟩, [], [], []⟩

/-- Two inputs and two forward passes, of which one is dropped; after the backward pass the user overwrites the output; then the update. -/
noncomputable def exMemCalls (x t x' : ℝ) : List MCall :=
  [.new (Mat.ofFn 1 1 fun _ _ => x), .beginUpdate (.arr ⟨0, []⟩), .new (Mat.ofFn 1 1 fun _ _ => x'), .beginUpdate (.arr ⟨2, []⟩),
    .backpropLoss 0 (exLinearBatch x t).lossGrad, .write ⟨1, []⟩ (Mat.ofFn 1 1 fun _ _ => 8), .finishUpdate]

/-- The state after a call that does not raise. -/
noncomputable def exMemNext (s : MSession Unit) (c : MCall) : MSession Unit :=
  (s.call (linearBody 0 1).layer 2 exLinearSlots exTrainCfg 0 c).toOption.getD s

/-- The states on the way. -/
noncomputable def exMemAt (x t x' : ℝ) (n : Nat) : MSession Unit := ((exMemCalls x t x').take n).foldl exMemNext exMemStart

theorem callsOn_cons {A : Type} {M : MLayer} {N : Nat} {slot : Slots} {cfg : OptCfg (Nat × String)} {root : Addr} {s s' : MSession A} {c : MCall}
    (cs : List MCall) (e : s.call M N slot cfg root c = .ok s') : callsOn M N slot cfg root s (c :: cs) = callOn s.mem c ++ callsOn M N slot cfg root s' cs := by
  rw [callsOn, e]
  simp [Except.toOption]

theorem careful_cons {A : Type} {o : Bool} {M : MLayer} {N : Nat} {slot : Slots} {cfg : OptCfg (Nat × String)} {root : Addr} {s s' : MSession A} {c : MCall}
    {cs : List MCall} (ha : Allowed o s c) (e : s.call M N slot cfg root c = .ok s') (h : Careful o M N slot cfg root s' cs) :
    Careful o M N slot cfg root s (c :: cs) := by
  refine ⟨ha, fun s2 e2 => ?_⟩
  rw [e] at e2
  cases e2
  exact h

theorem exMem_work (x t x' : ℝ) : Spec.WorksOn (callsOn (linearBody 0 1).layer 2 exLinearSlots exTrainCfg 0 exMemStart (exMemCalls x t x'))
    [[exLinearBatch x t]] := by
  have e : callsOn (linearBody 0 1).layer 2 exLinearSlots exTrainCfg 0 exMemStart (exMemCalls x t x') =
      [.beginUpdate (exLinearBatch x t).input, .beginUpdate (.arr (Mat.ofFn 1 1 fun _ _ => x')), .backprop 0 (exLinearBatch x t).lossGrad,
        .finishUpdate] := by
    unfold exMemCalls
    rw [callsOn_cons (s' := exMemAt x t x' 1) _ rfl, callsOn_cons (s' := exMemAt x t x' 2) _ rfl,
      callsOn_cons (s' := exMemAt x t x' 3) _ rfl, callsOn_cons (s' := exMemAt x t x' 4) _ rfl, callsOn_cons (s' := exMemAt x t x' 5) _ rfl,
      callsOn_cons (s' := exMemAt x t x' 6) _ rfl]
    rw [callsOn, show (∀ r : Except PyErr (MSession Unit), (r.toOption.toList.flatMap fun s' =>
      callsOn (linearBody 0 1).layer 2 exLinearSlots exTrainCfg 0 s' []) = []) from fun r => by simp [callsOn]]
    rfl
  rw [e]
  exact ⟨by simp [Spec.Fresh], rfl⟩

theorem exMem_careful (x t x' : ℝ) : Careful true (linearBody 0 1).layer 2 exLinearSlots exTrainCfg 0 exMemStart (exMemCalls x t x') := by
  unfold exMemCalls
  refine careful_cons (s' := exMemAt x t x' 1) trivial rfl ?_
  refine careful_cons (s' := exMemAt x t x' 2) (fun a ha => ha) rfl ?_
  refine careful_cons (s' := exMemAt x t x' 3) trivial rfl ?_
  refine careful_cons (s' := exMemAt x t x' 4) ?_ rfl ?_
  · intro a ha
    rw [show a = 2 from List.mem_singleton.1 ha]
    show 2 ∈ [0, 1, 2]
    decide
  refine careful_cons (s' := exMemAt x t x' 5) ?_ rfl ?_
  · intro p hp
    cases hp
    rfl
  refine ⟨?_, fun _ _ => ⟨trivial, fun _ _ => trivial⟩⟩
  · refine ⟨show 1 ∈ [0, 1, 2, 3, 4, 5] by decide, fun p hp => ?_⟩
    rcases List.mem_cons.1 hp with e | hp
    · cases e
      exact ⟨show 1 ∉ [0] by decide, fun _ => ⟨rfl, show 1 ∈ [1] by decide⟩⟩
    · rcases List.mem_cons.1 hp with e | hp
      · cases e
        exact ⟨show 1 ∉ [2] by decide, fun h => absurd (show 1 ∈ [3] from h) (by decide)⟩
      · cases hp

/-- Non-vacuity of C123: the session trains the model by a step of gradient descent. -/
example (x t x' : ℝ) : ∃ u, exMemStart.run (linearBody 0 1).layer 2 exLinearSlots exTrainCfg 0 (exMemCalls x t x') = .ok u ∧
    u.train.opt.step = 0 + 1 ∧ Spec.Wired u.train.nodes 0 exLinearSlots exLinearKey
      (Spec.descent (fun t _ => 1 / ((t : ℝ) + 2)) (fun _ _ => 1) 0 0 [[(exLinearBatch x t).loss]]) 0 :=
  C123_sgd (C122_linear 0 1) (cfg := exTrainCfg) rfl (fun _ _ _ => rfl) (fun _ _ _ => rfl) exMemStart rfl (fun _ h => (by cases h)) rfl _
    (exMem_careful x t x') _ (exMem_work x t x') exLinear_wired (exSession_takesAll _ (by simp) _ _ _ _)

end Thinc
