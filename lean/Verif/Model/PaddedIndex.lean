import Verif.Model.Ragged
/-!
# Indexing a Padded batch

Source: thinc/types.py:1134-1160.
-/
namespace Thinc
variable {α : Type}

/-- The argument of `Padded.__getitem__`. -/
inductive PaddedIndex where
  | int (i : Int)
  | slice (s : PySlice)
  | list (is : List Int)

/-- `data[:, sel]` for a selection along the second axis that keeps the number of columns `m`. -/
def selectColumns (x : Arr3 α) (m : Nat) (sel : List (List α) → List (List α)) : Arr3 α :=
  ⟨x.d0, m, x.tail, x.data.map sel⟩

/-- `pySlice` as a total selection (used after the step has been checked). -/
def sliceOr {β : Type} (s : PySlice) (xs : List β) : List β :=
  match pySlice xs s with
  | .ok ys => ys
  | .error _ => []

/-- thinc/types.py:1135-1142: the `int` branch; note that `lengths` is passed twice, also in the
place of `size_at_t`. -/
def Padded.getInt (p : Padded α) (i : Int) : Padded α :=
  ⟨selectColumns p.data (pyRange (List.replicate p.data.d1 ()) i (i + 1)).length
      (fun row => pyRange row i (i + 1)),
    pyRange p.lengths i (i + 1), pyRange p.lengths i (i + 1), pyRange p.indices i (i + 1)⟩

/-- thinc/types.py:1143-1149: the `slice` branch; `lengths` again in the place of `size_at_t`. -/
def Padded.getSlice (p : Padded α) (s : PySlice) : Except PyErr (Padded α) :=
  if s.step.getD 1 = 0 then .error .valueError
  else .ok ⟨selectColumns p.data (sliceOr s (List.replicate p.data.d1 ())).length (sliceOr s),
    sliceOr s p.lengths, sliceOr s p.lengths, sliceOr s p.indices⟩

/-- Insert into an ascending list. -/
def insertAsc (a : Int) : List Int → List Int
  | [] => [a]
  | b :: l => if a ≤ b then a :: b :: l else b :: insertAsc a l

/-- `list(sorted(index))`. -/
def sortedInts (l : List Int) : List Int := l.foldr insertAsc []

/-- thinc/types.py:1150-1160: the index-array branch: `data[sorted_index]` selects along the first
axis of `data`, which is time. -/
def Padded.getList (p : Padded α) (is : List Int) : Except PyErr (Padded α) := do
  let sorted := sortedInts is
  let d ← mapRaise (fun i => pyIndex p.data.data i) sorted
  let sz ← mapRaise (fun i => pyIndex p.sizeAtT i) sorted
  let ls ← mapRaise (fun i => pyIndex p.lengths i) sorted
  let ix ← mapRaise (fun i => pyIndex p.indices i) is
  return ⟨⟨d.length, p.data.d1, p.data.tail, d⟩, sz, ls, ix⟩

/-- thinc/types.py:1134-1160 `Padded.__getitem__`. -/
def Padded.getItem (p : Padded α) : PaddedIndex → Except PyErr (Padded α)
  | .int i => .ok (p.getInt i)
  | .slice s => p.getSlice s
  | .list is => p.getList is

end Thinc
