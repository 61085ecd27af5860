import Verif.Model.WithLayers
import Verif.Spec.Padded
/-!
# Which sequences a container holds, and what it means for a layer to compute a function of them

A sequence is a list of rows; `w` is the width of the rows.
-/
namespace Thinc
namespace Spec
variable {α : Type}

/-- The three container types. -/
inductive BatchKind where
  | list
  | ragged
  | padded

/-- The list of arrays with these sequences. -/
def asList (w : Nat) (seqs : List (List (List α))) : List (Arr α) := seqs.map (fun s => ⟨[w], s⟩)

/-- A ragged batch holding these sequences. -/
def HoldsRagged (w : Nat) (r : Ragged α) (seqs : List (List (List α))) : Prop :=
  r.data = ⟨[w], seqs.flatten⟩ ∧ r.lengths = seqs.map List.length ∧ r.dataTail = [w]

/-- A consistent padded batch holding these sequences. -/
def HoldsPadded (w : Nat) (P : Padded α) (seqs : List (List (List α))) : Prop :=
  ValidPadded P ∧ P.data.tail = [w] ∧ Represents P seqs

/-- The batch is of the given container type and holds these sequences, in this order. -/
def Holds (k : BatchKind) (w : Nat) (b : SeqBatch α) (seqs : List (List (List α))) : Prop :=
  match k, b with
  | .list, .list Xs => Xs = asList w seqs
  | .ragged, .ragged r => HoldsRagged w r seqs
  | .padded, .padded P => HoldsPadded w P seqs
  | _, _ => False

/-- The lengths of the sequences. -/
def lens (seqs : List (List (List α))) : List Nat := seqs.map List.length

/-- On every input that holds `xs`, the layer returns an output that holds `ys`, and a callback that
takes every gradient holding some `dys` (with the lengths of the output, and in the same layout as
the output, as far as `compat` asks) to a gradient that holds `G dys`. -/
def Computes {A B : Type} (holdsIn : A → List (List (List α)) → Prop)
    (holdsOut : B → List (List (List α)) → Prop) (compat : B → B → Prop) (L : Fwd A B)
    (xs ys : List (List (List α))) (G : List (List (List α)) → List (List (List α))) : Prop :=
  ∀ x, holdsIn x xs → ∃ y back, L x = .ok (y, back) ∧ holdsOut y ys ∧
    ∀ dys dy, lens dys = lens ys → holdsOut dy dys → compat y dy →
      ∃ dx, back dy = .ok dx ∧ holdsIn dx (G dys)

/-- No condition on the layout of the gradient. -/
def anyLayout {B : Type} (_ _ : B) : Prop := True

/-- Two padded batches with the same columns. -/
def SameLayout (P Q : Padded α) : Prop :=
  P.indices = Q.indices ∧ P.lengths = Q.lengths ∧ P.data.d0 = Q.data.d0 ∧ P.data.d1 = Q.data.d1

/-- The same for batches. -/
def SameLayoutBatch (b c : SeqBatch α) : Prop :=
  match b, c with
  | .padded P, .padded Q => SameLayout P Q
  | _, _ => True

end Spec
end Thinc
