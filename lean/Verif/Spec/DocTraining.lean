import Verif.Spec.Documents
import Verif.Model.Loss
import Verif.Spec.Layer

/-! # C120: training on documents, and how they are cut into batches (specification) -/

namespace Thinc
open Spec

namespace Spec

/-- A batch of documents (as a list of arrays or a `Ragged`) with what is to be learnt for each document.  At least one document has
tokens; with `full` all have. -/
structure DocBatch (a : DocForm) (m : ℕ) (full : Bool) (Target : Type) where
  input : Val
  examples : List (Doc × Target)
  isDocs : IsDocs a m input (examples.map Prod.fst)
  nonempty : ∃ e ∈ examples, e.1 ≠ []
  whole : full = true → ∀ e ∈ examples, e.1 ≠ []

/-- The same documents with the same targets, in another order and cut into other batches. -/
def SameDocs {a : DocForm} {m : ℕ} {full : Bool} {Target : Type} (ps qs : List (DocBatch a m full Target)) : Prop :=
  (ps.flatMap DocBatch.examples).Perm (qs.flatMap DocBatch.examples)

/-- Documents of the given lengths, all their rows one after the other. -/
def Kind.docs : DocForm → (ls : List ℕ) → (m : ℕ) → Kind (Fin ls.sum → Fin m → ℝ)
  | .list, ls, m => Kind.seqs ls m
  | _, ls, m => Kind.ragged ls m

/-- With a vector for each document, as the rows of an array. -/
structure DocVectors (a : DocForm) (m : ℕ) (full : Bool) (o : ℕ) extends DocBatch a m full (Fin o → ℝ) where
  T : Mat ℝ
  hT : IsMat T fun i : Fin examples.length => (examples.get i).2

/-- The label is one of `o` labels, or it is the value for missing labels (and still no larger than they are). -/
def IsLabel (o : ℕ) (missing : Missing) (y : ℤ) : Prop := (0 ≤ y ∧ y < o) ∨ (missing = .int y ∧ -(o : ℤ) ≤ y ∧ y < o)

/-- With a label for each document. -/
structure DocLabels (a : DocForm) (m : ℕ) (full : Bool) (o : ℕ) (missing : Missing) extends DocBatch a m full ℤ where
  valid : ∀ e ∈ examples, IsLabel o missing e.2
  truths : Truths
  labels : truths = .intList (examples.map Prod.snd) ∨ truths = .intArray (examples.map Prod.snd)

/-- With a tag for each token. -/
structure DocTags (m : ℕ) (full : Bool) (o : ℕ) (missing : Missing) extends DocBatch .list m full (List ℤ) where
  valid : ∀ e ∈ examples, ∀ y ∈ e.2, IsLabel o missing y
  truths : List Truths
  tags : List.Forall₂ (fun t (e : Doc × List ℤ) => (t = .intList e.2 ∨ t = .intArray e.2) ∧ e.2.length = e.1.length) truths examples

end Spec

end Thinc
