import Verif.Model.Recursive
import Mathlib.Data.List.Infix
/-!
# Nested objects: what is where

Specification vocabulary for C65.  Only the type `Obj` of the model is used here (and `Obj.items`, which is
`list(ArgsKwargs.items())`).
-/
namespace Thinc.Spec

/-- An object without its members: its type, its length and its keys. -/
inductive Shell where
  | other (id : ℕ) (hashable : Bool)
  | int (n : Int)
  | str (s : String)
  | list (length : ℕ)
  | tup (length : ℕ)
  | dict (keys : List Obj)
  | argsKwargs (nArgs : ℕ) (keys : List Obj)

def shell : Obj → Shell
  | .other id h => .other id h
  | .int n => .int n
  | .str s => .str s
  | .list xs => .list xs.length
  | .tup xs => .tup xs.length
  | .dict kvs => .dict (kvs.map Prod.fst)
  | .argsKwargs args kwargs => .argsKwargs args.length (kwargs.map Prod.fst)

/-- The members of a container: for a dict its values, for `ArgsKwargs` all arguments. -/
def members : Obj → List Obj
  | .list xs => xs
  | .tup xs => xs
  | .dict kvs => kvs.map Prod.snd
  | .argsKwargs args kwargs => args ++ kwargs.map Prod.snd
  | _ => []

/-- The object at a path: take member number `i₁`, of that member number `i₂`, and so on. -/
def objAt : Obj → List ℕ → Option Obj
  | o, [] => some o
  | o, i :: p => match (members o)[i]? with
    | none => none
    | some c => objAt c p

/-- There is a matching object at `p`, and it is not inside another matching object. -/
def Outermost (isMatch : Obj → Bool) (o : Obj) (p : List ℕ) : Prop :=
  (∃ x, objAt o p = some x ∧ isMatch x = true) ∧ ∀ q, q <+: p → q ≠ p → ∀ x, objAt o q = some x → isMatch x = false

/-- `s` is `o` or occurs somewhere in `o`. -/
inductive Occurs : Obj → Obj → Prop
  | here {o : Obj} : Occurs o o
  | member {s c o : Obj} : c ∈ members o → Occurs s c → Occurs s o

/-- `hash` works for the keys of dicts, they are different and do not match; keys of `ArgsKwargs` are strings.  The objects
that `ArgsKwargs.items` makes up (the list, its pairs, the argument numbers) do not match. -/
def KeysFine (isMatch : Obj → Bool) (o : Obj) : Prop :=
  (∀ kvs, Occurs (.dict kvs) o → (kvs.map Prod.fst).Nodup ∧
    ∀ k ∈ kvs.map Prod.fst, k.hashable = true ∧ ∀ s, Occurs s k → isMatch s = false) ∧
  ∀ args kwargs, Occurs (.argsKwargs args kwargs) o → (kwargs.map Prod.fst).Nodup ∧
    (∀ k ∈ kwargs.map Prod.fst, (∃ s, k = .str s) ∧ isMatch k = false) ∧
    isMatch (.list (Obj.items args kwargs)) = false ∧ (∀ item ∈ Obj.items args kwargs, isMatch item = false) ∧
    ∀ i < args.length, isMatch (.int i) = false

end Thinc.Spec
