import Verif.Props.Resize
import Verif.Props.WithLayers
import Verif.Props.CrossentropyGrad
import Verif.Props.Containers
import Verif.Props.Categorical
import Verif.Props.Batching
/-!
# The hypotheses of the theorems hold of concrete cases (1)
-/
namespace Thinc
open Spec

/-! ### C63 -/

/-- A Linear layer with two outputs and three inputs. -/
def witLinear : Node RowArr Unit :=
  Node.mk' 1 "linear" [("W", some ⟨[3], [[1, 2, 3], [4, 5, 6]]⟩), ("b", some ⟨[], [[7], [8]]⟩)] [("nO", some 2), ("nI", some 3)]

def witInitW (n m : ℕ) : RowArr := ⟨[m], List.replicate n (List.replicate m 0)⟩
def witInitb (n : ℕ) : RowArr := ⟨[], List.replicate n [0]⟩

theorem witInitW_shape (n m : ℕ) : (witInitW n m).HasShape n [m] := by
  refine ⟨by simp [witInitW], rfl, ?_⟩
  simp [witInitW, RowArr.Regular]
theorem witInitb_shape (n : ℕ) : (witInitb n).HasShape n [] := by
  refine ⟨by simp [witInitb], rfl, ?_⟩
  simp [witInitb, RowArr.Regular]

example := C63_linear_partial witInitW_shape witInitb_shape 2 witLinear rfl rfl rfl rfl (old := 2) (nI := 3) (new := 5) (by decide) rfl rfl
  (W := ⟨[3], [[1, 2, 3], [4, 5, 6]]⟩) (b := ⟨[], [[7], [8]]⟩) rfl ⟨rfl, rfl, by simp [RowArr.Regular]⟩ rfl rfl
  ⟨rfl, rfl, by simp [RowArr.Regular]⟩ rfl []
example (init : Node RowArr Unit → Except PyErr (Node RowArr Unit)) := C63_same_size init 2 witLinear 2 [] rfl rfl rfl rfl
example (init : Node RowArr Unit → Except PyErr (Node RowArr Unit)) :=
  C63_unset init 2 (Node.mk' 1 "linear" [("W", none)] [("nO", none), ("nI", some 3)] : Node RowArr Unit) 4 [] rfl rfl rfl rfl

/-! ### C34, C70 -/

example :=
  C34_with_array exDouble 1 1 (by decide) (by decide) [[[1], [2]], [], [[3]]] [[[2], [4]], [], [[6]]]
    (List.zipWith (List.zipWith fun _ r => List.map (2 * ·) r) [[[1], [2]], [], [[3]]]) (by decide) (by decide)
    (by
      intro dys h
      match dys with
      | [[_, _], [], [_]] => rfl)
    _ rfl (by
      intro dys h
      match dys with
      | [[_, _], [], [_]] => rfl)
example := C34_with_padded_array (⟨2, 2, [1], [[[1], [2]], [[3], [4]]]⟩ : Arr3 Int) rfl (by decide)
example := C70_with_flatten_v2 (fun (xs : List Nat) => .ok (xs.map (· * 10), fun ds => .ok ds)) [[1, 2], [], [3]] [[10, 20], [], [30]] rfl
  (fun ds => .ok ds) rfl
example := C70_v1_forward_partial (α := Int) (β := Nat) (fun xs => .ok (⟨[1], xs.map fun (n : Nat) => [(n : Int)]⟩, fun d => .ok d)) [[1, 2], [], [3]]
  (by decide) 1 [[[1], [2]], [], [[3]]] rfl (fun d => .ok d) rfl

/-! ### C99, C100 -/

example := C99_forward_partial (α := Int) (fun _ _ => .ok (⟨[6, 1], [0, 2, 4, 6, 8, 10]⟩, fun d => .ok d)) 2 3 2 1 (by decide)
  ⟨[2, 3, 2], [0, 1, 2, 3, 4, 5, 6, 7, 8, 9, 10, 11]⟩ rfl rfl true
example := C99_backprop_width (α := Int) (fun _ _ => .ok (⟨[6, 1], [0, 2, 4, 6, 8, 10]⟩, fun d => .ok d)) 2 3 2 1 (by decide) (by decide)
  (by decide) ⟨[2, 3, 2], [0, 1, 2, 3, 4, 5, 6, 7, 8, 9, 10, 11]⟩ _ rfl true _ rfl ⟨[2, 3, 1], [1, 1, 1, 1, 1, 1]⟩ rfl rfl
example (layer : Container.Inner (Container.NdArray Int) (Container.NdArray Int)) := C99_zero_width layer 2 3 1 ⟨[2, 3, 0], []⟩ rfl true
example (layer : Container.Inner (Container.NdArray Int) (Container.NdArray Int)) := C99_too_few_axes layer 1 ⟨[2, 3], [1, 2, 3, 4, 5, 6]⟩ (by decide) true

/-! ### C50 -/

example := C50_default_classes [0, 2, 1, 2] 2 0 (by decide) (by decide)
example := C50_label_out_of_range [0, 1] 5 [2] 3 0.2 (Or.inr ⟨by norm_num, by norm_num, by norm_num⟩) (by decide) (.inl (by decide))
example := C50_negative_label 3 2 0.2 (Or.inr ⟨by norm_num, by norm_num, by norm_num⟩) (by decide) (by decide)

/-! ### C35 -/

example (g : Batches (List Nat)) (h : minibatch 6 (.const 2) [10, 20, 30, 40, 50] false 3 = some (.ok g)) :=
  C35_len 2 (by decide) [10, 20, 30, 40, 50] false 3 6 (by decide) g h
example : ∃ g, minibatch 6 (.const 2) [10, 20, 30, 40, 50] false 3 = some (.ok g) :=
  (C35_minibatch_partial (.const 2) (fun _ => 2) (fun _ => rfl) (fun _ => by decide) [10, 20, 30, 40, 50] false 3 6 (by decide)).imp
    fun _ h => h.1
example := C35_zero_size_diverges 0 (by decide) 10 [20] false 1 100

end Thinc
