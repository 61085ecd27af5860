import Verif.Model.ArrShape
import Verif.Spec.ArrConv
import Mathlib.Data.List.Forall2
/-!
# Vocabulary of C141
-/
namespace Thinc.ArrConv.Spec

/-- A dimension that is given (not negative) is that of the shape. -/
def Given (d : Int) (n : Nat) : Prop := 0 ≤ d → (n : Int) = d

/-- The shape `s` is one that `dims` ask for, for an array of `size` elements: every dimension that is given (not negative) is that of `s`,
and there is place for exactly the elements. -/
def Fits (dims : List Int) (size : Nat) (s : List Nat) : Prop :=
  List.Forall₂ Given dims s ∧ s.prod = size

/-- The dimensions that are left to be inferred. -/
def unknown (dims : List Int) : Nat := (dims.filter (· < 0)).length

/-- The place of an element in C order (the last index runs fastest). -/
def place : List Nat → List Nat → Nat
  | n :: s, i :: idx => i * s.prod + place s idx
  | _, _ => 0

/-- The number at an index. -/
def numberAt (a : Arr) (idx : List Nat) : Option Nat := (numbers a)[place a.shape idx]?

end Thinc.ArrConv.Spec
