import Verif.Model.Getitem
/-!
# What an index selects

Python's and NumPy's description of indexing, as relations.
-/
namespace Thinc.Spec

/-- The position `p` of an axis of size `n` is meant by the integer `i`; negative integers count from the end. -/
def IsPos (n : ℕ) (i : ℤ) (p : ℕ) : Prop := p < n ∧ ((p : ℤ) = i ∨ (p : ℤ) = i + n)

/-- The step of a slice. -/
def sliceStep (s : PySlice) : ℤ := s.step.getD 1

/-- A bound of a slice: negative numbers count from the end, and bounds are cut off at the ends of the axis. -/
def sliceBound (n : ℕ) (t : ℤ) (default : ℤ) : Option ℤ → ℤ
  | none => default
  | some i =>
    if 0 < t then max 0 (min (if i < 0 then i + n else i) n)
    else max (-1) (min (if i < 0 then i + n else i) (n - 1))

/-- The first position of a slice. -/
def sliceStart (n : ℕ) (s : PySlice) : ℤ :=
  sliceBound n (sliceStep s) (if 0 < sliceStep s then 0 else n - 1) s.start

/-- Where a slice stops. -/
def sliceStop (n : ℕ) (s : PySlice) : ℤ :=
  sliceBound n (sliceStep s) (if 0 < sliceStep s then n else -1) s.stop

/-- The slice is the positions `start`, `start + step`, `start + 2 * step` ... before `stop`. -/
def IsSlice (n : ℕ) (s : PySlice) (ps : List ℕ) : Prop :=
  sliceStep s ≠ 0 ∧ ∀ (k p : ℕ), ps[k]? = some p ↔
    (p : ℤ) = sliceStart n s + k * sliceStep s ∧ (if 0 < sliceStep s then (p : ℤ) < sliceStop n s else sliceStop n s < p)

/-- An index for one axis of size `n`: the axes it leaves in the result and the positions it selects. -/
inductive AxisSel (n : ℕ) : AxisIndex → List ℕ → List ℕ → Prop
  | int {i : ℤ} {p : ℕ} : IsPos n i p → AxisSel n (.int i) [] [p]
  | slice {s : PySlice} {ps : List ℕ} : IsSlice n s ps → AxisSel n (.slice s) [ps.length] ps
  | list {is : List ℤ} {ps : List ℕ} : List.Forall₂ (IsPos n) is ps → AxisSel n (.list is) [ps.length] ps

/-- The shape of the result of indexing an array of `r` rows and `c` columns, and the row and column of every entry
of the result. -/
inductive Selects (r c : ℕ) : NpIndex → List ℕ → List (ℕ × ℕ) → Prop
  | rows {a : AxisIndex} {d ps : List ℕ} : AxisSel r a d ps →
      Selects r c (.axis a) (d ++ [c]) (ps ×ˢ List.range c)
  | whole : Selects r c (.tuple []) [r, c] (List.range r ×ˢ List.range c)
  | single {a : AxisIndex} {d ps : List ℕ} : AxisSel r a d ps →
      Selects r c (.tuple [a]) (d ++ [c]) (ps ×ˢ List.range c)
  | both {a b : AxisIndex} {d e ps qs : List ℕ} : AxisSel r a d ps → AxisSel c b e qs →
      ¬ (∃ is js, a = .list is ∧ b = .list js) → Selects r c (.tuple [a, b]) (d ++ e) (ps ×ˢ qs)
  | pairs {is js : List ℤ} {ps qs : List ℕ} : List.Forall₂ (IsPos r) is ps → List.Forall₂ (IsPos c) js qs →
      is.length = js.length → Selects r c (.tuple [.list is, .list js]) [is.length] (ps.zip qs)
  | rowWith {i : ℤ} {js : List ℤ} {p : ℕ} {qs : List ℕ} : IsPos r i p → List.Forall₂ (IsPos c) js qs →
      Selects r c (.tuple [.list [i], .list js]) [js.length] (qs.map fun q => (p, q))
  | withColumn {is : List ℤ} {j : ℤ} {ps : List ℕ} {q : ℕ} : List.Forall₂ (IsPos r) is ps → IsPos c j q →
      Selects r c (.tuple [.list is, .list [j]]) [is.length] (ps.map fun p => (p, q))

/-- The entry in row `i` and column `j` of an array with `c` columns. -/
def ndEntry (c : ℕ) {α : Type} [Zero α] (X : NdArr α) (i j : ℕ) : α := X.data.getD (i * c + j) 0

/-- The entry of a matrix at a row and a column. -/
def pick {r c : ℕ} {α : Type} [Zero α] (x : Fin r → Fin c → α) (e : ℕ × ℕ) : α :=
  if h : e.1 < r ∧ e.2 < c then x ⟨e.1, h.1⟩ ⟨e.2, h.2⟩ else 0

/-- The array has the given numbers. -/
def IsNd {r c : ℕ} {α : Type} [Zero α] (X : NdArr α) (x : Fin r → Fin c → α) : Prop :=
  X.shape = [r, c] ∧ X.data.length = r * c ∧ ∀ (i : Fin r) (j : Fin c), ndEntry c X i j = x i j

end Thinc.Spec
