import Verif.Model.Py
/-!
# Model of `convert_recursive` and `iterate_recursive` (thinc/util.py:342-385) and `ArgsKwargs` (thinc/types.py:1256-1295)

Nested Python objects are trees: the functions only read their arguments, so sharing cannot be observed.  `other` are
all objects that are no int, str, list, tuple, dict or `ArgsKwargs`: arrays, tensors, None, floats and so on.  Two dict
keys are equal if they are the same tree (so keys such as 1 and 1.0, which Python identifies, are not modelled).
`convert_item` may have effects and raise: it is a function into any monad.  `is_match` is a pure function.
-/
namespace Thinc

/-- A Python object. -/
inductive Obj where
  | other (id : Nat) (hashable : Bool)
  | int (n : Int)
  | str (s : String)
  | list (xs : List Obj)
  | tup (xs : List Obj)
  | dict (kvs : List (Obj × Obj))
  /-- thinc/types.py:1256-1263 `ArgsKwargs(args, kwargs)` -/
  | argsKwargs (args : List Obj) (kwargs : List (Obj × Obj))

namespace Obj

noncomputable instance : DecidableEq Obj := fun _ _ => Classical.propDecidable _

mutual
/-- `hash(obj)` does not raise: lists, dicts and `ArgsKwargs` (a dataclass with `eq` and without `frozen`) are unhashable,
tuples are hashable if their members are. -/
def hashable : Obj → Bool
  | other _ h => h
  | int _ => true
  | str _ => true
  | tup xs => hashableAll xs
  | list _ => false
  | dict _ => false
  | argsKwargs _ _ => false
def hashableAll : List Obj → Bool
  | [] => true
  | x :: xs => hashable x && hashableAll xs
end

/-- `list(iter(obj))`; opaque objects are taken to be not iterable. -/
def iter : Obj → Except PyErr (List Obj)
  | list xs => .ok xs
  | tup xs => .ok xs
  | dict kvs => .ok (kvs.map Prod.fst)
  | str s => .ok (s.toList.map fun c => str (String.singleton c))
  | _ => .error .typeError

/-- `d[key] = value`. -/
noncomputable def setItem (d : List (Obj × Obj)) (key value : Obj) : Except PyErr (List (Obj × Obj)) :=
  if key.hashable then .ok (PyDict.set d key value) else .error .typeError

/-- thinc/types.py:1292-1295 `ArgsKwargs.items`: the positional part, starting to count at `i`. -/
def argItems (i : Nat) : List Obj → List Obj
  | [] => []
  | a :: as => tup [int i, a] :: argItems (i + 1) as

/-- thinc/types.py:1292-1295 `list(ArgsKwargs.items())`. -/
def items (args : List Obj) (kwargs : List (Obj × Obj)) : List Obj :=
  argItems 0 args ++ kwargs.map fun kv => tup [kv.1, kv.2]

/-- thinc/types.py:1275-1279 one iteration of the loop in `ArgsKwargs.from_items`. -/
noncomputable def fromItem (s : List Obj × List (Obj × Obj)) (item : Obj) : Except PyErr (List Obj × List (Obj × Obj)) :=
  match item.iter with
  | .error e => .error e
  | .ok [int _, value] => .ok (s.1 ++ [value], s.2)
  | .ok [key, value] =>
    match setItem s.2 key value with
    | .error e => .error e
    | .ok kwargs => .ok (s.1, kwargs)
  | .ok _ => .error .valueError

/-- thinc/types.py:1265-1280 `ArgsKwargs.from_items`. -/
noncomputable def fromItems (items : Obj) : Except PyErr Obj :=
  match items.iter with
  | .error e => .error e
  | .ok xs =>
    match forM' xs ([], []) fromItem with
    | .error e => .error e
    | .ok (args, kwargs) => .ok (argsKwargs args kwargs)

end Obj

section
variable {m : Type → Type} [Monad m] [MonadExcept PyErr m]

/-- Raise the exception of a pure computation. -/
def liftE {α : Type} : Except PyErr α → m α
  | .ok a => pure a
  | .error e => throw e

open Obj

mutual
/-- thinc/util.py:342-368 `convert_recursive`.  In the case of `ArgsKwargs` the recursive call on `list(obj.items())` is
unfolded by two levels (the list and its pairs), because that list is no part of `obj`; see
`convertRecursive_argsKwargs` for the equation as it is in the code. -/
noncomputable def convertRecursive (isMatch : Obj → Bool) (convertItem : Obj → m Obj) : Obj → m Obj
  | other id h => if isMatch (other id h) then convertItem (other id h) else pure (other id h)
  | int n => if isMatch (int n) then convertItem (int n) else pure (int n)
  | str s => if isMatch (str s) then convertItem (str s) else pure (str s)
  | argsKwargs args kwargs =>
    if isMatch (argsKwargs args kwargs) then convertItem (argsKwargs args kwargs)
    else if isMatch (list (items args kwargs)) then do
      liftE (fromItems (← convertItem (list (items args kwargs))))
    else do
      let positional ← convertArgs isMatch convertItem 0 args
      let keywords ← convertKwargs isMatch convertItem kwargs
      liftE (fromItems (list (positional ++ keywords)))
  | dict kvs =>
    if isMatch (dict kvs) then convertItem (dict kvs)
    else do return dict (← convertDict isMatch convertItem kvs [])
  | list xs =>
    if isMatch (list xs) then convertItem (list xs)
    else do return list (← convertList isMatch convertItem xs)
  | tup xs =>
    if isMatch (tup xs) then convertItem (tup xs)
    else do return tup (← convertList isMatch convertItem xs)
/-- thinc/util.py:363-366: the members of a list or tuple. -/
noncomputable def convertList (isMatch : Obj → Bool) (convertItem : Obj → m Obj) : List Obj → m (List Obj)
  | [] => pure []
  | x :: xs => do
    let y ← convertRecursive isMatch convertItem x
    let ys ← convertList isMatch convertItem xs
    return y :: ys
/-- thinc/util.py:357-362: the loop over `obj.items()` of a dict. -/
noncomputable def convertDict (isMatch : Obj → Bool) (convertItem : Obj → m Obj) :
    List (Obj × Obj) → List (Obj × Obj) → m (List (Obj × Obj))
  | [], converted => pure converted
  | (key, value) :: kvs, converted => do
    let key ← convertRecursive isMatch convertItem key
    let value ← convertRecursive isMatch convertItem value
    let converted ← liftE (setItem converted key value)
    convertDict isMatch convertItem kvs converted
/-- thinc/util.py:353-355 and 365-366: the pairs `(i, value)` of `list(obj.items())`. -/
noncomputable def convertArgs (isMatch : Obj → Bool) (convertItem : Obj → m Obj) (i : Nat) : List Obj → m (List Obj)
  | [] => pure []
  | a :: as => do
    let y ←
      if isMatch (tup [int i, a]) then convertItem (tup [int i, a])
      else do
        let k ← if isMatch (int i) then convertItem (int i) else pure (int i)
        let v ← convertRecursive isMatch convertItem a
        pure (tup [k, v])
    let ys ← convertArgs isMatch convertItem (i + 1) as
    return y :: ys
/-- thinc/util.py:353-355 and 365-366: the pairs `(key, value)` of `list(obj.items())`. -/
noncomputable def convertKwargs (isMatch : Obj → Bool) (convertItem : Obj → m Obj) : List (Obj × Obj) → m (List Obj)
  | [] => pure []
  | (key, value) :: kvs => do
    let y ←
      if isMatch (tup [key, value]) then convertItem (tup [key, value])
      else do
        let k ← convertRecursive isMatch convertItem key
        let v ← convertRecursive isMatch convertItem value
        pure (tup [k, v])
    let ys ← convertKwargs isMatch convertItem kvs
    return y :: ys
end

mutual
/-- thinc/util.py:371-385 `iterate_recursive`: everything the generator yields.  `ArgsKwargs` is unfolded as in
`convertRecursive`; see `iterateRecursive_argsKwargs`. -/
def iterateRecursive (isMatch : Obj → Bool) : Obj → List Obj
  | other id h => if isMatch (other id h) then [other id h] else []
  | int n => if isMatch (int n) then [int n] else []
  | str s => if isMatch (str s) then [str s] else []
  | argsKwargs args kwargs =>
    if isMatch (argsKwargs args kwargs) then [argsKwargs args kwargs]
    else if isMatch (list (items args kwargs)) then [list (items args kwargs)]
    else iterateArgs isMatch 0 args ++ iterateKwargs isMatch kwargs
  | dict kvs => if isMatch (dict kvs) then [dict kvs] else iterateDict isMatch kvs
  | list xs => if isMatch (list xs) then [list xs] else iterateList isMatch xs
  | tup xs => if isMatch (tup xs) then [tup xs] else iterateList isMatch xs
/-- thinc/util.py:383-385. -/
def iterateList (isMatch : Obj → Bool) : List Obj → List Obj
  | [] => []
  | x :: xs => iterateRecursive isMatch x ++ iterateList isMatch xs
/-- thinc/util.py:379-382. -/
def iterateDict (isMatch : Obj → Bool) : List (Obj × Obj) → List Obj
  | [] => []
  | (key, value) :: kvs => iterateRecursive isMatch key ++ iterateRecursive isMatch value ++ iterateDict isMatch kvs
/-- thinc/util.py:377-378 and 383-385: the pairs `(i, value)` of `list(obj.items())`. -/
def iterateArgs (isMatch : Obj → Bool) (i : Nat) : List Obj → List Obj
  | [] => []
  | a :: as =>
    (if isMatch (tup [int i, a]) then [tup [int i, a]]
      else (if isMatch (int i) then [int i] else []) ++ iterateRecursive isMatch a) ++ iterateArgs isMatch (i + 1) as
/-- thinc/util.py:377-378 and 383-385: the pairs `(key, value)` of `list(obj.items())`. -/
def iterateKwargs (isMatch : Obj → Bool) : List (Obj × Obj) → List Obj
  | [] => []
  | (key, value) :: kvs =>
    (if isMatch (tup [key, value]) then [tup [key, value]]
      else iterateRecursive isMatch key ++ iterateRecursive isMatch value) ++ iterateKwargs isMatch kvs
end

end
end Thinc
