import Verif.Model.CMem
import Verif.Model.Gather
/-!
# remap_ids, premap_ids and strings2arrays

The layers that turn keys into rows of a table.  Integers are exact (no overflow of the array types).
-/
namespace Thinc

/-- What `remap_ids` takes: a sequence of keys, or an integer array with one or two axes. -/
inductive IdInput (κ : Type) where
  | keys (xs : List κ)
  | ints1 (ks : List Int)
  | ints2 (A : Mat Int)

/-- What the callback of `remap_ids` returns: an empty list, or an array of the given shape with any contents
(uninitialised memory). -/
inductive IdGrad where
  | emptyList
  | array (shape : List Nat) (vals : Nat → Int)

/-- `ops.reshape2i(ops.asarray2i(values), -1, 1)` -/
def idColumn (values : List Int) : Mat Int := ⟨values.length, 1, fun i => values.getD i 0⟩

variable {κ : Type} [DecidableEq κ]

/-- `[table.get(x, default) for x in inputs]` -/
def tableLookup (table : PyDict κ Int) (default : Int) (xs : List κ) : List Int :=
  xs.map fun x => (table.get? x).getD default

/-- thinc/layers/remap_ids.py:31-44 `forward` of `remap_ids.v1` on a sequence of hashable keys. -/
def remapV1 (table : PyDict κ Int) (default : Int) (inputs : List κ) : Mat Int × (Mat Int → IdGrad) :=
  (idColumn (tableLookup table default inputs), fun _ => .emptyList)

/-- One column of an integer array, `inputs[:, column]`. -/
def intColumn (A : Mat Int) (column : Int) : Except PyErr (List Int) := do
  let c ← npIndex A.cols column
  return (List.range A.rows).map fun i => A.at i c

/-- The keys of an array with two axes without `column`: its rows are not hashable. -/
def rowKeys (A : Mat Int) : Except PyErr (List κ) := if A.rows = 0 then .ok [] else .error .typeError

/-- thinc/layers/remap_ids.py:78-87: the keys of the inputs.  `ofInt` makes a key of an integer of an array. -/
def remapKeys (ofInt : Int → κ) (column : Option Int) : IdInput κ → Except PyErr (List κ)
  | .keys xs => .ok xs
  | .ints1 ks => match column with
    | some _ => .error .indexError
    | none => .ok (ks.map ofInt)
  | .ints2 A => match column with
    | some c => do return (← intColumn A c).map ofInt
    | none => rowKeys A

/-- thinc/layers/remap_ids.py:91-95 `backprop`: `mem` is the contents of `xp.empty`. -/
def remapBack (mem : Nat → Int) : IdInput κ → Mat Int → IdGrad
  | .keys _, _ => .emptyList
  | _, dY => .array [dY.rows, dY.cols] mem

/-- thinc/layers/remap_ids.py:70-97 `forward_v2`. -/
def remapV2 (ofInt : Int → κ) (table : Option (PyDict κ Int)) (default : Int) (column : Option Int) (mem : Nat → Int)
    (inputs : IdInput κ) : Except PyErr (Mat Int × (Mat Int → IdGrad)) :=
  match table with
  | none => .error .valueError
  | some table => do
    let idx ← remapKeys ofInt column inputs
    return (idColumn (tableLookup table default idx), remapBack mem inputs)

/-- thinc/layers/premap_ids.pyx:18-33 `lookup`: `mapping` is the PreshMap made of the table, a finite map (`None` for a
missing key). -/
def premapLookup (mapping : PyDict Int Int) (default : Int) (keys : List Int) : List Int :=
  keys.map fun k => match mapping.get? k with
    | none => default
    | some v => v

/-- thinc/layers/premap_ids.pyx:46-53: the items of the table are inserted one after the other. -/
def premapTable (table : PyDict Int Int) : PyDict Int Int := table.foldl (fun m e => m.set e.1 e.2) []

/-- thinc/layers/premap_ids.pyx:68-75: the keys.  (`lookup` takes a vector: an array with two axes without `column` raises
ValueError.) -/
def premapKeys (column : Option Int) : IdInput Int → Except PyErr (List Int)
  | .keys _ => .error .attributeError
  | .ints1 ks => match column with
    | some _ => .error .indexError
    | none => .ok ks
  | .ints2 A => match column with
    | some c => intColumn A c
    | none => .error .valueError

/-- thinc/layers/premap_ids.pyx:79-83 `backprop`. -/
def premapBack : IdInput Int → IdGrad
  | .keys _ => .emptyList
  | .ints1 ks => .array [ks.length] fun _ => 0
  | .ints2 A => .array [A.rows, A.cols] fun _ => 0

/-- thinc/layers/premap_ids.pyx:37-85 `premap_ids` and `forward`.  (The table has integer keys and values.) -/
def premap (table : PyDict Int Int) (default : Int) (column : Option Int) (inputs : IdInput Int) :
    Except PyErr (Mat Int × (Mat Int → IdGrad)) := do
  let idx ← premapKeys column inputs
  return (idColumn (premapLookup (premapTable table) default idx), fun _ => premapBack inputs)

/-- thinc/layers/strings2arrays.py:20-30 `forward`: `hash` is murmurhash's `hash_unicode`, a signed 32-bit number, which
`c_uint64` takes modulo 2^64.  The callback returns an empty list. -/
def strings2arrays (hash : κ → BitVec 32) (Xs : List (List κ)) : List (Mat Int) × (List (Mat Int) → IdGrad) :=
  (Xs.map fun X => idColumn (X.map fun w => (hash w).toInt % 2 ^ 64), fun _ => .emptyList)

end Thinc
