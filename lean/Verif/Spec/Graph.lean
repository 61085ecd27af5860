import Mathlib.Logic.Relation
import Verif.Model.Heap
/-!
# Specification vocabulary for layer graphs

Independent of any traversal: reachability, path length, depth-first search as an inductive
relation, acyclicity.
-/
namespace Thinc.Spec
open Thinc
variable {V A : Type}

/-- `b` is one of the `.layers` of node `a`. -/
def Child (h : Heap V A) (a b : Addr) : Prop := ∃ n, h[a]? = some n ∧ b ∈ n.layers

/-- `b` can be reached from `a` by following `.layers` any number of times. -/
def Reachable (h : Heap V A) (a b : Addr) : Prop := Relation.ReflTransGen (Child h) a b

/-- `b` is a strict descendant of `a` (at least one step). -/
def Descendant (h : Heap V A) (a b : Addr) : Prop := Relation.TransGen (Child h) a b

/-- No node is its own descendant. -/
def Acyclic (h : Heap V A) : Prop := ∀ a, ¬ Descendant h a a

/-- There is a path of exactly `n` steps from `a` to `b`. -/
inductive PathLen (h : Heap V A) (a : Addr) : Nat → Addr → Prop where
  | zero : PathLen h a 0 a
  | succ {n b c} : PathLen h a n b → Child h b c → PathLen h a (n + 1) c

/-- The list of children of a node. -/
def IsChildren (h : Heap V A) (a : Addr) (cs : List Addr) : Prop :=
  (∃ n, h[a]? = some n ∧ cs = n.layers) ∨ (h[a]? = none ∧ cs = [])

/-- Textbook depth-first search of a list of nodes, as a big-step relation.
`Dfs h seen todo pre post seen'`: starting with the nodes `seen` already discovered, visiting
`todo` from left to right discovers the nodes `pre` in preorder, finishes them in the order
`post`, and ends with `seen'` discovered. -/
inductive Dfs (h : Heap V A) :
    List Addr → List Addr → List Addr → List Addr → List Addr → Prop where
  | nil {seen} : Dfs h seen [] [] [] seen
  | skip {seen c todo pre post seen'} : c ∈ seen → Dfs h seen todo pre post seen' →
      Dfs h seen (c :: todo) pre post seen'
  | visit {seen c cs todo pre₁ post₁ seen₁ pre₂ post₂ seen₂} : c ∉ seen → IsChildren h c cs →
      Dfs h (c :: seen) cs pre₁ post₁ seen₁ → Dfs h seen₁ todo pre₂ post₂ seen₂ →
      Dfs h seen (c :: todo) (c :: pre₁ ++ pre₂) (post₁ ++ c :: post₂) seen₂

end Thinc.Spec
