import Verif.Model.SeqLayers
import Verif.Model.Serialize
import Verif.Model.TorchWrapper
import Verif.Model.Initialize
/-!
# The exceptions of cases that the theorems on with_array2d (C80), loading (C11), wrapped models (C97) and initialization (C79) leave open
-/
namespace Thinc

/-- C80: a layer in `with_array2d` that gives another number of rows than it got makes the reshaping of the cells fail. -/
theorem C80_rows_changed {L : Layer} {train : Bool} {P : ParamVals} {A B : Mat ℝ} {steps : ℕ} {s l i : List ℕ} {cb : Callback} (pad : ℕ)
    (h : L train P (.arr A) = .ok (.arr B, cb)) (hr : B.rows ≠ A.rows) :
    withArray2dL L pad train P (.padded A steps s l i) = .error .valueError := by
  simp only [withArray2dL, withArray2dPaddedL, Val.paddedParts, h, Val.asArr, reshapeCells, if_neg hr, bind, Except.bind]

/-- C11: a message with a reference to a node that is not there raises IndexError, and the reference is not set. -/
theorem C11_ref_out_of_range {V A S : Type} (nodes : List Addr) (a : Addr) (s : LoadState V A S) (name : String) (i : Int)
    (h : i < -(nodes.length : Int) ∨ (nodes.length : Int) ≤ i) : loadRef nodes a s (name, some i) = (s, .error .indexError) := by
  have : pyGet nodes i = .error .indexError := by
    unfold pyGet
    rcases h with h | h
    · have h1 : i < 0 := by omega
      have h2 : i + nodes.length < 0 := by omega
      simp only [if_pos h1, if_pos h2]
    · have h1 : ¬ i < 0 := by omega
      simp only [if_neg h1]
      rw [List.getElem?_eq_none (by omega)]
  simp only [loadRef, this]

/-- C79: a dense layer whose output width is neither set nor given by sample data cannot be initialized: ValueError. -/
theorem C79_no_width (E : NetEnv) (id : ℕ) (s : NetState) (h : s.nO id = some none) : denseInit E id none none s = .error .valueError := by
  simp only [denseInit, NetState.inferI, NetState.inferO, NetState.alloc, h, dimValue, bind, Except.bind]

/-- C79: nor can one without an input width. -/
theorem C79_no_input_width (E : NetEnv) (id k : ℕ) (s : NetState) (h : s.nO id = some (some k)) (hI : s.nI id = some none) :
    denseInit E id none none s = .error .valueError := by
  simp only [denseInit, NetState.inferI, NetState.inferO, NetState.alloc, h, hI, dimValue, bind, Except.bind]

/-- C97: a gradient of a wrapped model without positional arguments, for an input that is one array, raises IndexError. -/
theorem C97_no_gradient_argument (kwargs : List (Obj × Obj)) (converted : Obj)
    (h : ∀ a k, converted ≠ .argsKwargs a k) (hd : ∀ d, converted ≠ .dict d) (ht : ∀ t, converted ≠ .tup t) (hl : ∀ t, converted ≠ .list t) :
    Torch.unwrapArgs converted (.argsKwargs [] kwargs) = .error .indexError := by
  unfold Torch.unwrapArgs
  split
  · exact absurd rfl (h _ _)
  · exact absurd rfl (hd _)
  · exact absurd rfl (ht _)
  · exact absurd rfl (hl _)
  · rfl

example : withArray2dL (fun _ _ _ => .ok (.arr ⟨3, 1, fun _ => 0⟩, fun d G => .ok (d, G))) 0 true (fun _ => ⟨0, 0, fun _ => 0⟩)
    (.padded ⟨2, 1, fun _ => 0⟩ 1 [2] [1, 1] [0, 1]) = .error .valueError := C80_rows_changed (B := ⟨3, 1, fun _ => 0⟩) 0 rfl (by decide)
example {V A S : Type} (s : LoadState V A S) : loadRef [0, 1] 0 s ("a", some (-3)) = (s, .error .indexError) :=
  C11_ref_out_of_range _ _ _ _ _ (.inl (by decide))

end Thinc
