import Verif.Model.ArrMem
/-!
# C122: a layer on arrays in memory does what the layer on values does
-/
namespace Thinc.Spec.Shared
open Thinc.Shared

/-- Both raise the same, or both give results that are related. -/
def Agree {α β : Type} (R : α → β → Prop) : Except PyErr α → Except PyErr β → Prop
  | .ok a, .ok b => R a b
  | .error e, .error e' => e = e'
  | _, _ => False

/-- Nothing that existed in `m` has changed in `m'`. -/
def Grows (m m' : ArrMem) : Prop := m.next ≤ m'.next ∧ m'.params = m.params ∧ ∀ a, a < m.next → m'.cell a = m.cell a

/-- `m'` is later than `m`, and the parameters and the arrays in `K` have not changed. -/
def Later (K : Nat → Prop) (m m' : ArrMem) : Prop := m.next ≤ m'.next ∧ m'.params = m.params ∧ ∀ a, K a → m'.cell a = m.cell a

/-- The arrays of the value exist. -/
def In (m : ArrMem) (v : RVal) : Prop := ∀ r ∈ v.refs, r.addr < m.next

/-- The arrays of the value are those of `w` or views of them, or they did not exist in `m`. -/
def Among (m : ArrMem) (w v : RVal) : Prop := ∀ r ∈ v.refs, (∃ q ∈ w.refs, q.addr = r.addr) ∨ m.next ≤ r.addr

/-- If the value is an array, a `Ragged` or a `Padded`: its array did not exist in `m`, and it is not a view. -/
def Own (m : ArrMem) (v : RVal) : Prop := ∀ r ∈ v.top, m.next ≤ r.addr ∧ r.path = []

/-- The callback `c`, given by a forward pass that has left the memory `m`, does what `cb` does: it gives what `cb` gives, adds the same to
the parameter gradients, and changes no array that exists.  This at any later time, as long as the parameters and the arrays in `K`
contain the same.  With `own`, the gradient it returns is a new array. -/
def Backward (K : Nat → Prop) (own : Bool) (m : ArrMem) (c : MCallback) (cb : Callback) : Prop :=
  ∀ m' dY G, Later K m m' → In m' dY →
    Agree (fun D d => Grows m' D.2.1 ∧ In D.2.1 D.1 ∧ D.1.read D.2.1 = d.1 ∧ D.2.2 = d.2 ∧ Among m' dY D.1 ∧ (own = true → Own m' D.1))
      (c dY m' G) (cb (dY.read m') G)

/-- The layer `M` on arrays in memory, called with `X`, does what `L` does on values.
 * It raises what `L` raises, or returns what `L` returns; no array that exists changes.
 * The output is in new arrays, or in those of the input.
 * There is a set `K` of arrays, arrays of the input or new ones, such that the callback is right as long as these do not change.

With `ownOut` the output, if it is an array, a `Ragged` or a `Padded`, is a new array that is not in `K`: it may be overwritten.  With
`ownGrad` the callback returns its gradient in a new array. -/
def FaithfulAt (ownOut ownGrad : Bool) (M : MLayer) (L : Layer) (train : Bool) (X : RVal) (m : ArrMem) : Prop :=
  Agree (fun out y => Grows m out.2.2 ∧ In out.2.2 out.1 ∧ out.1.read out.2.2 = y.1 ∧ Among m X out.1 ∧
      ∃ K : Nat → Prop, (∀ a, K a → (∃ q ∈ X.refs, q.addr = a) ∨ m.next ≤ a) ∧ (∀ a, K a → a < out.2.2.next) ∧
        (ownOut = true → Own m out.1 ∧ ∀ r ∈ out.1.top, ¬ K r.addr) ∧ Backward K ownGrad out.2.2 out.2.1 y.2)
    (M train X m) (L train m.params (X.read m))

/-- This for any input, at any time. -/
def Faithful (ownOut ownGrad : Bool) (M : MLayer) (L : Layer) : Prop := ∀ train X m, In m X → FaithfulAt ownOut ownGrad M L train X m

end Thinc.Spec.Shared
