import Verif.Props.Dropout
import Verif.Props.Gather
import Verif.Props.Hash
import Verif.Props.LayerNorm
import Verif.Props.Maxout
import Verif.Props.MemSafe
import Verif.Props.NodeState
import Verif.Props.Padded
import Verif.Props.Plateau
import Verif.Props.PoolEnds
import Verif.Props.PoolMax
import Verif.Props.Pooling
import Verif.Props.PositionEncode
import Verif.Props.Radam
import Verif.Props.Ragged
import Verif.Props.Seq2col
import Verif.Props.Initializers
import Verif.Props.Distance
import Verif.Props.AddAliasing
import Verif.Props.Backends
import Verif.Props.Cauchy
/-!
# The hypotheses of the theorems hold of concrete cases (3): kernels, losses, schedules
-/
namespace Thinc
open Spec

/-- Four rows of width two, the numbers 0 to 7. -/
def witX : Mat ℚ := ⟨4, 2, fun k => k⟩
/-- Two rows of width two. -/
def witD : Mat ℚ := ⟨2, 2, fun k => 10 * k⟩

/-! ### Pooling: sequences of the lengths 1 and 3 -/

example := C37_reduce_sum_partial witX [1, 3] (by decide) (by decide)
example := C37_backprop_reduce_sum witD [1, 3] rfl
example := C37_backprop_reduce_mean witD [1, 3] rfl
example := C37_adjoint_sum witX witD [1, 3] (by decide) (by decide) rfl rfl
example := C37_generic_forward (fun _ => 7) witX [1, 3] (by decide)
example := C37_generic_backward (fun _ => 7) witD [1, 3] rfl
example := C38_generic_forward (fun _ => 7) (fun _ => 7) witX [1, 3] (by decide) (by decide)
example := C38_generic_backward witD ⟨2, 2, fun k => if k < 2 then 0 else 2⟩ [1, 3] (by decide) rfl rfl (by decide)
example := (C38_backprop_reduce_max_partial witD ⟨2, 2, fun k => if k < 2 then 0 else 2⟩ [1, 3] (by decide) rfl rfl rfl (by decide)).1 (by decide)
example := (C38_backprop_reduce_max_partial witD ⟨2, 2, fun _ => 2⟩ [1, 3] (by decide) rfl rfl rfl (by decide)).2 (by decide)
example := C38_backprop_bad_length witD ⟨2, 2, fun _ => 2⟩ [1, 0] (by decide)
example := C39_reduce_first witX [1, 3] (by decide) (by decide) rfl
example := C39_reduce_last witX [1, 3] (by decide) (by decide) rfl
example := C39_backprop_first witX witD [1, 3] (by decide) (by decide) rfl rfl
example := C39_backprop_last witX witD [1, 3] (by decide) (by decide) rfl rfl
example := C131_backprop_reduce_mean_partial witD [-1, 3] (by decide)

/-! ### Windows, maxout, tables -/

example := C40_seq2col witX 2 (some [1, 3]) [1, 3] rfl rfl
example := C40_seq2col witX 1 none [4] rfl rfl
example := C40_backprop_seq2col (⟨4, 6, fun k => k⟩ : Mat ℚ) 1 2 (some [1, 3]) [1, 3] rfl rfl rfl
example := C40_adjoint witX ⟨4, 6, fun k => k⟩ 1 (some [1, 3]) rfl rfl rfl
example := C40_generic witX ⟨4, 6, fun k => k⟩ 2 rfl
example := C41_maxout (fun _ => (7 : ℚ)) (fun _ => 7) ⟨2, 2, 3, fun k => k % 5⟩ (by decide) (by decide)
example := (C41_backprop_maxout_partial witD ⟨2, 2, fun k => k % 3⟩ 3 (by decide) (by decide) rfl rfl (by decide)).1 (by decide)
example := (C41_backprop_maxout_partial witD ⟨2, 2, fun k => k⟩ 3 (by decide) (by decide) rfl rfl (by decide)).2 (by decide)
example := C41_backprop_empty_raises (fun _ => (7 : ℚ)) (fun _ => 7) ⟨0, 2, 3, fun _ => 0⟩ rfl ⟨0, 2, fun _ => 0⟩ rfl
example := C41_generic (⟨2, 2, 3, fun k => k % 5⟩ : Cube ℚ) (by decide) witD ⟨2, 2, fun k => k % 3⟩ 3 rfl rfl (by decide)
example := C42_gather_empty_raises witX ⟨0, 4, fun _ => 0⟩ (.inr (.inr (.inl rfl)))
example := C42_scatter_columns true 4 2 ⟨2, 4, fun k => (k % 4 : ℕ)⟩ witD rfl rfl (by decide)

/-! ### Padding -/

example := C29_round_trip [(⟨[2], [[1, 2], [3, 4]]⟩ : Arr Int), ⟨[2], []⟩, ⟨[2], [[5, 6]]⟩] 2 (by decide)
example := C32_int_out_of_range (⟨⟨[1], [[1], [2], [3]]⟩, [1, 2], [1]⟩ : Ragged Int) 2 (.inr (by decide))

/-! ### Nodes -/

example := C04_set_param_other (Node.mk' 1 "linear" [("W", some 3), ("b", some 4)] [] : Node ℕ Unit) "W" "b" (some 7) (by decide)
example := C03_dim_never_silently_changed (Node.mk' 1 "linear" [] [("nO", none)] : Node ℕ Unit)
  (Node.mk' 1 "linear" [] [("nO", some 3)]) "nO" 3 false rfl [.setDim "nO" 5 true] (by decide)

/-! ### Schedules -/

example := C27_repeated_query 2 (⟨none, none, 0, 0⟩ : PlateauState ℚ) _ 1 5 rfl
example (inner : Schedule (Option (ℤ × ℚ)) ℚ) := C27_out_of_order 2 (1 / 2 : ℚ) inner ⟨some 5, some 3, 0, 0⟩ 4 2 1 (by decide)

/-! ### Randomness, RAdam, LayerNorm, encodings -/

example := C59_mask 0.3 0.1 (by norm_num) (by norm_num)
example := C59_unbiased 0.3 (by norm_num) (by norm_num)
example := C59_identity 0 true true (fun _ _ _ => 0.4) (fun _ => ⟨0, 0, fun _ => 0⟩) (.arr ⟨1, 2, fun k => k⟩) (.inl rfl)
example := C67_keys_in_range [5, -3, 0] 11 100 (by decide)
example := C57_mean_zero (m := 3) (by norm_num) ![1, 2, 6]
example := C57_variance (m := 3) (by norm_num) ![1, 2, 6]
example := C109_well_defined (β1 := 0.9) (β2 := 0.999) (by norm_num) (by norm_num) (t := 7) (by norm_num)
example := C109_warmup (β2 := 0.999) (by norm_num) (s := 3) (t := 7) (by norm_num) (by norm_num)
example := C109_phases (β2 := 0.999) (by norm_num)
example := C91_relative 6 3 10000 (by norm_num)
example := C91_backends (fun w => w.foldl (· ^^^ ·) 0) 2 [1, 2, 3] (by simp) (by norm_num)
example (y : Mat ℝ) (h : positionEncode (fun _ => 7) 5 4 10000 none = .ok y) := C91_bounded _ _ _ _ y h 3 2 (by decide) (by decide)
example (y : Mat ℝ) (h : positionEncode (fun _ => 7) 5 4 10000 none = .ok y) := C91_distinct _ _ _ _ y (by decide) h 3 3 (by decide) (by decide) fun _ _ => rfl
example : ∃ y, positionEncode (fun _ => 7) 5 4 10000 none = .ok y := ⟨_, rfl⟩

/-! ### Losses -/

example := C48_normalized_scale (n := 2) (m := 1) (by norm_num) (fun _ _ => 1) fun _ _ => 3
example := C48_shape_mismatch true ⟨2, 3, fun _ => 0⟩ ⟨2, 4, fun _ => 0⟩ (.inr (by decide))
example := C49_shape_mismatch true false ⟨2, 3, fun _ => 0⟩ ⟨1, 3, fun _ => 0⟩ (.inl (by decide))

/-! ### Backends -/

example := C106_by_name (fun c : ℕ × String => c.2) [(0, "numpy"), (1, "cupy"), (2, "numpy")] (n := "numpy") (by decide)
example := C78_cauchy_needs_pair 0 true (fun _ => ⟨0, 0, fun _ => 0⟩) [.arr ⟨1, 2, fun _ => 0⟩] (by decide)

end Thinc
