import Verif.Model.Containers
/-!
# What a user expects of `with_reshape` and `with_cpu`

Specification vocabulary for C99 and C100.
-/
namespace Thinc.Spec
open Thinc.Container

variable {α : Type}

/-- An array has as many entries as its shape says. -/
def WellShaped (a : NdArray α) : Prop := a.data.length = a.shape.prod

/-- `v'` is `v` with all arrays, in tuples and lists of any depth, moved to a device. -/
inductive Moved (device : Device) : Val α → Val α → Prop
  | arr (d : Device) (x : α) : Moved device (.arr d x) (.arr device x)
  | tup (xs ys : List (Val α)) (hn : xs.length = ys.length)
      (h : ∀ i (hx : i < xs.length) (hy : i < ys.length), Moved device xs[i] ys[i]) : Moved device (.tup xs) (.tup ys)
  | list (xs ys : List (Val α)) (hn : xs.length = ys.length)
      (h : ∀ i (hx : i < xs.length) (hy : i < ys.length), Moved device xs[i] ys[i]) : Moved device (.list xs) (.list ys)

/-- Only arrays, in tuples and lists of any depth. -/
inductive ArraysOnly : Val α → Prop
  | arr (d : Device) (x : α) : ArraysOnly (.arr d x)
  | tup (xs : List (Val α)) (h : ∀ x ∈ xs, ArraysOnly x) : ArraysOnly (.tup xs)
  | list (xs : List (Val α)) (h : ∀ x ∈ xs, ArraysOnly x) : ArraysOnly (.list xs)

end Thinc.Spec
