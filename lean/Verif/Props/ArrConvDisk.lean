import Verif.Props.ArrConv
import Verif.Spec.Disk
/-!
# C140: the conversions of `to_bytes` and `from_bytes` meet the hypothesis of C124
-/
namespace Thinc.ArrConv
open Spec

/-- The arrays of numpy of a little-endian machine. -/
def LittleArr := { a : Arr // a.lib = .numpy ∧ a.dtype.order = .little }

theorem reorder_little (M : Machine) (new : Nat) {a : Arr} (ho : a.dtype.order = .little) : a.reorder M new (some .little) = a := by
  have e : a.dtype.newByteOrder M .little = a.dtype := by
    unfold DType.newByteOrder
    split
    · rfl
    · simp only [← ho]
  simp only [Arr.reorder, e, astype_self new a a.dtype rfl]

/-- `to_numpy(array, byte_order="<")` and `asarray(array)` of NumpyOps on such arrays, thinc/model.py:559 and 637. -/
def littleIO (M : Machine) (n₁ n₂ : Nat) : ArrayIO LittleArr LittleArr where
  toNumpyLe v := (toNumpy M n₁ (.array v.1) (some .little)).toOption.elim v fun r =>
    if h : r.lib = .numpy ∧ r.dtype.order = .little then ⟨r, h⟩ else v
  asarray v := (numpyAsarray M n₂ (.array v.1) none).toOption.elim v fun r =>
    if h : r.lib = .numpy ∧ r.dtype.order = .little then ⟨r, h⟩ else v

/-- C140: on a little-endian machine the conversions succeed on every array of numpy in its order, and give it back: the hypothesis
`SameArrays` under which C124 proves that a model saved to a file is loaded back. -/
theorem C140_disk (M : Machine) (n₁ n₂ : Nat) :
    (∀ v : LittleArr, toNumpy M n₁ (.array v.1) (some .little) = .ok ((littleIO M n₁ n₂).toNumpyLe v).1 ∧
      numpyAsarray M n₂ (.array v.1) none = .ok ((littleIO M n₁ n₂).asarray v).1) ∧ Thinc.Spec.SameArrays (littleIO M n₁ n₂) := by
  have h1 (v : LittleArr) : toNumpy M n₁ (.array v.1) (some .little) = .ok v.1 := by
    simp only [toNumpy, v.2.1, reorder_little M n₁ v.2.2]
  have h2 (v : LittleArr) : numpyAsarray M n₂ (.array v.1) none = .ok v.1 := by
    simp only [numpyAsarray, v.2.1]
    rfl
  have e1 (v : LittleArr) : (littleIO M n₁ n₂).toNumpyLe v = v := by
    simp only [littleIO, h1, Except.toOption, Option.elim]
    exact dif_pos v.2
  have e2 (v : LittleArr) : (littleIO M n₁ n₂).asarray v = v := by
    simp only [littleIO, h2, Except.toOption, Option.elim]
    exact dif_pos v.2
  exact ⟨fun v => ⟨by rw [e1]; exact h1 v, by rw [e2]; exact h2 v⟩, fun v => by rw [e1, e2]⟩

example : LittleArr := ⟨exInts, rfl, rfl⟩

end Thinc.ArrConv
