import Verif.Model.WideInit
/-!
# Data validation

`initialize` with the setting `DATA_VALIDATION`: the examples are compared with the annotations of the forward function.
pydantic's part is modelled for the annotations that occur in thinc.
-/
namespace Thinc

/-- What pydantic sees of a value: an array with its number of dimensions and dtype, a list, a tuple, an instance of a
class, or a function. -/
inductive Datum where
  | arr (ndim : Nat) (dtype : String)
  | list (items : List Datum)
  | tup (items : List Datum)
  | obj (cls : Nat)
  | fn

/-- An annotation: `Any` and type variables without bound, an array type (see `validateArray`), `List[…]`, `Tuple[…]`,
`Union[…]`, a class, `Callable`. -/
inductive Ann where
  | any
  | array (ndim : Option Nat) (dtype : Option String)
  | list (item : Ann)
  | tuple (items : List Ann)
  | union (members : List Ann)
  | cls (cls : Nat)
  | callable

/-- thinc/types.py:1313: `dtype_mapping.get(dtype, [])` -/
def dtypeNames (dtype : String) : List String :=
  if dtype = "f" then ["float32"] else if dtype = "i" then ["int32", "int64", "uint32", "uint64"] else []

/-- thinc/types.py:1310-1311: `ndim is not None and obj.ndim != ndim` is an error. -/
def ndimOk (ndim : Option Nat) (n : Nat) : Bool :=
  match ndim with
  | none => true
  | some m => n == m

/-- thinc/types.py:1312-1318 -/
def dtypeOk (dtype : Option String) (d : String) : Bool :=
  match dtype with
  | none => true
  | some k => (dtypeNames k).contains d

/-- thinc/types.py:1305-1321 `validate_array`; both errors are caught by pydantic. -/
def validateArray (ndim : Option Nat) (dtype : Option String) : Datum → Bool
  | .arr n d => ndimOk ndim n && dtypeOk dtype d
  | _ => false

mutual
/-- pydantic (version 1): whether a value is accepted for an annotation.  Lists and tuples are accepted for `List[…]` and for
`Tuple[…]`, the latter with the right number of items.  (Conversions, as from a tuple to a dataclass, are not modelled.) -/
def Ann.accepts : Ann → Datum → Bool
  | .any, _ => true
  | .array ndim dtype, v => validateArray ndim dtype v
  | .list a, .list vs => vs.all fun v => a.accepts v
  | .list a, .tup vs => vs.all fun v => a.accepts v
  | .list _, _ => false
  | .tuple as, .list vs => acceptsAll as vs
  | .tuple as, .tup vs => acceptsAll as vs
  | .tuple _, _ => false
  | .union as, v => acceptsAny as v
  | .cls k, .obj c => k == c
  | .cls _, _ => false
  | .callable, .fn => true
  | .callable, _ => false

/-- The items of a tuple. -/
def acceptsAll : List Ann → List Datum → Bool
  | [], [] => true
  | a :: as, v :: vs => a.accepts v && acceptsAll as vs
  | _, _ => false

/-- The members of a union. -/
def acceptsAny : List Ann → Datum → Bool
  | [], _ => false
  | a :: as, v => a.accepts v || acceptsAny as v
end

/-- The signature of a forward function: the number of its parameters, the annotation of the second one, and the annotation
of the result; `none` is `inspect.Signature.empty`. -/
structure Signature where
  params : Nat
  annX : Option Ann
  annY : Option Ann

/-- thinc/util.py:576-577 and 581-582: `if isinstance(X, list) and len(X) > 5: X = X[:5]` -/
def Datum.cut : Datum → Datum
  | .list vs => if vs.length > 5 then .list (vs.take 5) else .list vs
  | v => v

/-- thinc/util.py:575-579 -/
def validX (ann : Option Ann) (X : Option Datum) : Bool :=
  match X, ann with
  | some x, some a => a.accepts x.cut
  | _, _ => true

/-- thinc/util.py:580-584: the annotation is one of a pair of the output and a callback. -/
def validY (ann : Option Ann) (Y : Option Datum) : Bool :=
  match Y, ann with
  | some y, some a => a.accepts (.tup [y.cut, .fn])
  | _, _ => true

/-- thinc/util.py:557-592 `validate_fwd_input_output`; a DataValidationError is a ValueError. -/
def validateFwd (sig : Signature) (X Y : Option Datum) : Except PyErr Unit :=
  if sig.params ≠ 3 then .error .valueError
  else if validX sig.annX X && validY sig.annY Y then .ok ()
  else .error .valueError

mutual
/-- The types of the values in `Val`: float arrays are float32 and integer arrays int64; `Ragged` is class 0 and `Padded`
class 1. -/
def Val.datum : Val → Datum
  | .arr _ => .arr 2 "float32"
  | .intMat _ => .arr 2 "int64"
  | .ints _ => .arr 1 "int64"
  | .ragged _ _ => .obj 0
  | .padded _ _ _ _ _ => .obj 1
  | .list vs => .list (datums vs)
  | .tup vs => .tup (datums vs)

/-- The same for several values. -/
def datums : List Val → List Datum
  | [] => []
  | v :: vs => v.datum :: datums vs
end

/-- thinc/model.py:312-319 `Model.initialize` with data validation; `c.init` is `initialize` without it. -/
def Comp.checked (sig : Signature) (c : Comp) : Comp :=
  { c with
    init := fun X Y s => do
      validateFwd sig (X.map Val.datum) (Y.map Val.datum)
      c.init X Y s }

end Thinc
