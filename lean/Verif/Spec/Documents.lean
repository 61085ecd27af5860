import Verif.Spec.Layer
import Verif.Model.Layer

/-!
# Specification: documents in a batch (C119)

A batch of documents can be a list of arrays, a `Ragged`, or an array with one row per document.  A layer treats the documents of a
batch one by one if what it gives for a document is a function of the document alone.
-/

namespace Thinc

namespace Spec

/-- A document: a row of numbers for every token. -/
abbrev Doc := List (List ℝ)

/-- The rows of an array. -/
def rowsList (A : Mat ℝ) : List (List ℝ) := (List.range A.rows).map fun i => (List.range A.cols).map fun j => A.at i j

/-- How a batch of documents is given: as a list of arrays, as a `Ragged`, or (after pooling) as an array with one row per document. -/
inductive DocForm where
  | list
  | ragged
  | rows

/-- `v` is a batch with the documents `ds`, whose rows have `m` numbers. -/
def IsDocs : DocForm → ℕ → Val → List Doc → Prop
  | .list, m, v, ds => ∃ As : List (Mat ℝ), v = .list (As.map .arr) ∧ (∀ A ∈ As, A.cols = m) ∧ As.map rowsList = ds
  | .ragged, m, v, ds => ∃ A : Mat ℝ, v = .ragged A (ds.map List.length) ∧ A.cols = m ∧ rowsList A = ds.flatten
  | .rows, m, v, ds => ∃ A : Mat ℝ, v = .arr A ∧ A.cols = m ∧ ds = (rowsList A).map fun r => [r]

/-- What the layer gives for a document is a function of the document.  That is: there is one function `F` such that, whatever the
batch is, the layer gives the batch of the results of `F`.  The batch must have at least one token; with `full` no document may be
empty.  Unless the layer pools, every token gets one row of output. -/
def PerDocument (L : Layer) (train : Bool) (P : ParamVals) (a : DocForm) (m : ℕ) (b : DocForm) (k : ℕ) (full : Bool) : Prop :=
  ∃ F : Doc → Doc, (∀ d, d ≠ [] → F d ≠ []) ∧ (b ≠ .rows → ∀ d, (F d).length = d.length) ∧ ∀ v ds, IsDocs a m v ds → (∃ d ∈ ds, d ≠ []) → (full = true → ∀ d ∈ ds, d ≠ []) →
    ∃ Y callback, L train P v = .ok (Y, callback) ∧ IsDocs b k Y (ds.map F)

/-- The rows around row `i`, `w` on each side; `none` for those outside the array. -/
def around (w : ℕ) (rs : List (List ℝ)) (i : ℕ) : List (Option (List ℝ)) :=
  (List.range (2 * w + 1)).map fun j => if i + j < w then none else rs[i + j - w]?

/-- Every row of the output is a function of the row of the input with the same number and of the `w` rows before and after it. -/
def Sees (w : ℕ) (L : Layer) (train : Bool) (P : ParamVals) (m k : ℕ) : Prop :=
  ∃ φ : List (Option (List ℝ)) → List ℝ, ∀ A : Mat ℝ, 0 < A.rows → A.cols = m →
    ∃ B callback, L train P (.arr A) = .ok (.arr B, callback) ∧ B.cols = k ∧
      rowsList B = (List.range A.rows).map fun i => φ (around w (rowsList A) i)

end Spec

end Thinc
