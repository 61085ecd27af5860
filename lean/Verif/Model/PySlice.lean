import Verif.Model.Py
/-!
# Python indexing and slicing of sequences

CPython's `PySlice_AdjustIndices` and NumPy's basic indexing along the first axis.
-/
namespace Thinc
variable {α : Type}

/-- `xs[i]` for an integer index: negative indices count from the end; IndexError outside. -/
def pyIndex (xs : List α) (i : Int) : Except PyErr α :=
  let j := if i < 0 then i + xs.length else i
  if j < 0 then .error .indexError
  else match xs[j.toNat]? with
    | some x => .ok x
    | none => .error .indexError

/-- A `slice` object (`None` = `none`). -/
structure PySlice where
  start : Option Int
  stop : Option Int
  step : Option Int
  deriving DecidableEq, Repr

/-- One clamped bound of `slice.indices(n)` for a positive step. -/
def clampPos (n : Nat) (default : Nat) : Option Int → Nat
  | none => default
  | some i => if i < 0 then (i + n).toNat else min i.toNat n

/-- One clamped bound of `slice.indices(n)` for a negative step (`-1` stands for "before the
first item"). -/
def clampNeg (n : Nat) (default : Int) : Option Int → Int
  | none => default
  | some i => if i < 0 then max (i + n) (-1) else min i (n - 1)

/-- The positions that a slice selects from a sequence of length `n`
(`range(*slice.indices(n))`); a zero step raises ValueError. -/
def PySlice.positions (s : PySlice) (n : Nat) : Except PyErr (List Nat) :=
  let step := s.step.getD 1
  if step = 0 then .error .valueError
  else if step > 0 then
    let a := clampPos n 0 s.start
    let b := clampPos n n s.stop
    .ok ((List.range n).filter (fun k => a ≤ k ∧ k < b ∧ (k - a) % step.toNat = 0))
  else
    let a := clampNeg n (n - 1) s.start
    let b := clampNeg n (-1) s.stop
    .ok (((List.range n).filter
      (fun (k : Nat) => (k : Int) ≤ a ∧ b < (k : Int) ∧ (a - k) % (-step) = 0)).reverse)

/-- `xs[slice]`. -/
def pySlice (xs : List α) (s : PySlice) : Except PyErr (List α) :=
  match s.positions xs.length with
  | .ok ps => .ok (ps.filterMap (fun k => xs[k]?))
  | .error e => .error e

/-- `xs[a:b]` with explicit integer bounds and no step. -/
def pyRange (xs : List α) (a b : Int) : List α :=
  (xs.take (clampPos xs.length xs.length (some b))).drop (clampPos xs.length 0 (some a))

end Thinc
