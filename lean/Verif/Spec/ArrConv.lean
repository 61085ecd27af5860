import Verif.Model.ArrConv
/-!
# Vocabulary of C140
-/
namespace Thinc.ArrConv.Spec

/-- An array as it can be: all elements have as many bytes as the type says, and there are as many as the shape says. -/
def WellFormed (a : Arr) : Prop :=
  (∀ c ∈ a.cells, c.length = a.dtype.size ∧ ∀ b ∈ c, b < 256) ∧ a.cells.length = a.shape.prod

/-- The numbers of an array (as bit patterns of their format), whatever the order of their bytes. -/
def numbers (a : Arr) : List Nat := a.cells.map (decode a.dtype.order)

/-- The bytes of an array: `a.tobytes()`. -/
def tobytes (a : Arr) : List Nat := a.cells.flatten

/-- A sane machine: a number that is converted to its own format (and fits it) is the same number, and every number fits the format it was
converted to. -/
structure Sane (M : Machine) : Prop where
  same : ∀ f n, n < 256 ^ f.2 → M.conv f f n = n
  fits : ∀ f g n, M.conv f g n < 256 ^ g.2

/-- `r` has the shape of `a` and its numbers, converted to the format of `r`. -/
def SameNumbers (M : Machine) (a r : Arr) : Prop :=
  r.shape = a.shape ∧ numbers r = (numbers a).map (M.conv a.dtype.format r.dtype.format)

/-- What `asarray(data, dtype=dtype)` promises for data with the numbers of `a`. -/
structure Converted (M : Machine) (lib : Lib) (dtype : Option DType) (a r : Arr) : Prop where
  wf : WellFormed r
  isLib : r.lib = lib
  isType : ∀ d, dtype = some d → r.dtype = d
  sameFormat : dtype = none → r.dtype.format = a.dtype.format
  sameNumbers : SameNumbers M a r

/-- Data that `NumpyOps.asarray` and `CupyOps.asarray` both take, and the array with its numbers: arrays of both libraries, tensors on
the CPU without gradients, sequences of numbers (which become arrays of numpy). -/
inductive Takes : Data → Arr → Prop
  | array (a : Arr) : Takes (.array a) a
  | tensor (a : Arr) : a.lib = .numpy → Takes (.tensor false false a) a
  | nested (a : Arr) : a.lib = .numpy → Takes (.nested a) a

end Thinc.ArrConv.Spec
