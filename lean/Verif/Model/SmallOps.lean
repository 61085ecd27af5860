import Verif.Model.Arrays
import Mathlib.Analysis.SpecialFunctions.Log.Basic
/-!
# `Ops.insert_into` and `Ops.logloss` (thinc/backends/ops.py lines 1215-1219 and 1386-1391)
-/
namespace Thinc

/-- thinc/backends/ops.py:1386-1391 `Ops.insert_into`, for a shape `(d0, d1) + tail`.  Simplification: an array whose other dimensions are
not `tail` raises ValueError (NumPy would broadcast dimensions of length one). -/
def insertInto {α : Type} [Zero α] (d0 d1 : Nat) (tail : List Nat) (Xs : List (Arr α)) : Except PyErr (Arr3 α) :=
  match Xs with
  | [] => .error .indexError
  | _ :: _ =>
    let output : Arr3 α := Arr3.zeros d0 d1 tail
    match forM' Xs.zipIdx output.data (fun out p =>
        if (out[p.2]?).isNone then .error .indexError else if p.1.tail ≠ tail then .error .valueError else padAssign out p) with
    | .ok d => .ok { output with data := d }
    | .error e => .error e

/-- thinc/backends/ops.py:1215-1219 `Ops.logloss`, one entry. -/
noncomputable def logloss (yTrue yPred : ℝ) : ℝ :=
  let logYp := Real.log (yPred + 1e-8)
  let loss := yTrue * logYp + (1 - yTrue) * Real.log ((1 - yPred) + 1e-8);
  -loss

end Thinc
