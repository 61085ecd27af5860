/-!
# Python basics used by all models

Exceptions as values and insertion-ordered dictionaries.
-/
namespace Thinc

/-- The Python exception classes that the modelled functions raise.
(Only the class is modelled, not the message.) -/
inductive PyErr where
  | valueError
  | keyError
  | indexError
  | typeError
  | assertionError
  | attributeError
  | notImplementedError
  | unboundLocalError
  | recursionError
  | stopIteration
  | zeroDivisionError
  /-- not an exception: compiled code reads or writes outside a buffer (undefined behaviour) -/
  | outOfBounds
  | userError (tag : Nat)
  deriving DecidableEq, Repr

deriving instance DecidableEq for Except

/-- Run a Python `for` loop whose body may raise: stops at the first exception. -/
def forM' {σ ε β : Type} (xs : List β) (s : σ) (f : σ → β → Except ε σ) : Except ε σ :=
  match xs with
  | [] => .ok s
  | x :: xs => match f s x with
    | .ok s' => forM' xs s' f
    | .error e => .error e

/-- A Python `dict`: association list in insertion order.  `set` overwrites in place or
appends, exactly as CPython (>= 3.7) orders keys. -/
abbrev PyDict (κ α : Type) := List (κ × α)

namespace PyDict
variable {κ α : Type} [DecidableEq κ]

/-- `d.get(k)` / `d[k]` (`none` = key missing). -/
def get? (d : PyDict κ α) (k : κ) : Option α :=
  match d with
  | [] => none
  | (k', v) :: d => if k' = k then some v else get? d k

/-- `k in d`. -/
def contains (d : PyDict κ α) (k : κ) : Bool := (get? d k).isSome

/-- `d[k] = v`. -/
def set (d : PyDict κ α) (k : κ) (v : α) : PyDict κ α :=
  match d with
  | [] => [(k, v)]
  | (k', v') :: d => if k' = k then (k', v) :: d else (k', v') :: set d k v

/-- `d.keys()`. -/
def keys (d : PyDict κ α) : List κ := d.map Prod.fst

end PyDict
end Thinc

namespace Thinc

/-- A Python `for` loop over a mutable state whose body may raise.  Unlike `forM'` the state at
the point of the exception is kept: mutations made before it are visible afterwards. -/
def loopE {σ ε β : Type} (f : σ → β → σ × Except ε Unit) : List β → σ → σ × Except ε Unit
  | [], s => (s, .ok ())
  | x :: xs, s => match f s x with
    | (s', .ok ()) => loopE f xs s'
    | (s', .error e) => (s', .error e)

end Thinc
