import Verif.Model.Py
/-!
# The mypy plugin (thinc/mypy.py)

Types of values are an abstract type `T` with mypy's `is_subtype` as a parameter.
-/
namespace Thinc.Plugin

/-- A type as the plugin looks at it, for an argument of a call: an `Instance` (the full name of its class and its type
arguments), or anything else. -/
inductive ArgType (T : Type) where
  | instance (fullname : String) (args : List T)
  | other

/-- A type argument of the declared result: a type variable with its full name, or anything else. -/
inductive RetArg where
  | var (fullname : String)
  | other

/-- The callee of a call, thinc/mypy.py:112-126: the expression is not a name, or its node is not a function or a decorator,
or the type of that is not a `CallableType`; or a callable whose declared result is not an `Instance`; or one whose result is. -/
inductive Callee where
  | unknown
  | resultOther
  | result (fullname : String) (args : List RetArg)

/-- What the plugin is given about a call: `FunctionContext`.  `checker`: the first two assertions, thinc/mypy.py:107-108;
`isCall`: `ctx.context` is a `CallExpr`, thinc/mypy.py:111.  The types of the arguments are grouped by formal parameter. -/
structure Ctx (T : Type) where
  checker : Bool
  isCall : Bool
  callee : Callee
  argTypes : List (List (ArgType T))

/-- The type given to the call: the one mypy would give it anyway, or `Model[i, o]`. -/
inductive Res (T : Type) where
  | default
  | model (i o : T)

/-- thinc/mypy.py:248-249: the codes of the two errors. -/
inductive Code where
  | input
  | output
  deriving DecidableEq

/-- An error: the number of the argument at which it is reported, and its code.  (The texts are not modelled.) -/
abbrev Err := Nat × Code

/-- thinc/mypy.py:13 -/
def modelName : String := "thinc.model.Model"
/-- thinc/mypy.py:14 -/
def chainedName : String := "thinc.types.XY_YZ_OutT"
/-- thinc/mypy.py:15 -/
def sameName : String := "thinc.types.XY_XY_OutT"

variable {T : Type}

/-- thinc/mypy.py:146-148: the input and output types of one argument. -/
def argModel : ArgType T → Except PyErr (T × T)
  | .instance name args =>
    if name ≠ modelName then .error .assertionError
    else match args with
      | [i, o] => .ok (i, o)
      | _ => .error .assertionError
  | .other => .error .assertionError

/-- thinc/mypy.py:143-149: the loop over the arguments. -/
def argModels : List (ArgType T) → Except PyErr (List (T × T))
  | [] => .ok []
  | t :: ts => do
    let m ← argModel t
    let ms ← argModels ts
    return m :: ms

/-- thinc/mypy.py:152-153: `list(zip(args[:-1], args[1:]))` -/
def neighbours {α : Type} (l : List α) : List (α × α) := l.dropLast.zip l.tail

/-- thinc/mypy.py:195-213 `check_chained`: the errors it reports. -/
def checkChained (sub : T → T → Bool) (a b : Nat) (s t : T × T) : List Err :=
  if sub s.2 t.1 then [] else [(a, .output), (b, .input)]

/-- thinc/mypy.py:224-234: the first half of `check_intoin_outtoout` -/
def checkSameIn [DecidableEq T] (a b : Nat) (s t : T × T) : List Err :=
  if s.1 ≠ t.1 then [(a, .input), (b, .input)] else []

/-- thinc/mypy.py:235-245: the second half -/
def checkSameOut [DecidableEq T] (a b : Nat) (s t : T × T) : List Err :=
  if s.2 ≠ t.2 then [(a, .output), (b, .output)] else []

/-- thinc/mypy.py:216-245 `check_intoin_outtoout` -/
def checkSame [DecidableEq T] (a b : Nat) (s t : T × T) : List Err := checkSameIn a b s t ++ checkSameOut a b s t

/-- thinc/mypy.py:161-168 and 177-184: the loops over the pairs; the arguments are numbered. -/
def checkPairs (check : Nat → Nat → T × T → T × T → List Err) (ts : List (T × T)) : List Err :=
  ((neighbours (List.range ts.length)).zip (neighbours ts)).flatMap fun p => check p.1.1 p.1.2 p.2.1 p.2.2

/-- thinc/mypy.py:171-173: `[arg_types[0].args[0], arg_types[-1].args[1]]` -/
def chainedType (ts : List (T × T)) : Except PyErr (Res T) :=
  match ts.head?, ts.getLast? with
  | some a, some b => .ok (.model a.1 b.2)
  | _, _ => .error .indexError

/-- thinc/mypy.py:187-189: `[arg_types[0].args[0], arg_types[0].args[1]]` -/
def sameType (ts : List (T × T)) : Except PyErr (Res T) :=
  match ts.head? with
  | some a => .ok (.model a.1 a.2)
  | none => .error .indexError

/-- thinc/mypy.py:142-189: the part after the type variable of the result is known. -/
def combine [DecidableEq T] (sub : T → T → Bool) (var : String) (args : List (ArgType T)) : List Err × Except PyErr (Res T) :=
  match argModels args with
  | .error e => ([], .error e)
  | .ok ts =>
    if var = chainedName then (checkPairs (checkChained sub) ts, chainedType ts)
    else (checkPairs checkSame ts, sameType ts)

/-- thinc/mypy.py:38-192 `get_reducers_type`: the errors reported, and the type or the exception. -/
def getReducersType [DecidableEq T] (sub : T → T → Bool) (ctx : Ctx T) : List Err × Except PyErr (Res T) :=
  if !ctx.checker || !ctx.isCall then ([], .error .assertionError)
  else match ctx.callee with
    | .unknown => ([], .error .assertionError)
    | .resultOther => ([], .error .assertionError)
    | .result name args =>
      if name ≠ modelName then ([], .error .assertionError)
      else match args with
        | [_, .var v] =>
          if v = "" then ([], .error .assertionError)
          else if v ≠ sameName ∧ v ≠ chainedName then ([], .ok .default)
          else combine sub v ctx.argTypes.flatten
        | _ => ([], .error .assertionError)

/-- thinc/mypy.py:30-35: `except AssertionError` -/
def onAssertion (r : Except PyErr (Res T)) : Except PyErr (Res T) :=
  match r with
  | .error .assertionError => .ok .default
  | r => r

/-- thinc/mypy.py:30-35 `function_hook` -/
def functionHook [DecidableEq T] (sub : T → T → Bool) (ctx : Ctx T) : List Err × Except PyErr (Res T) :=
  ((getReducersType sub ctx).1, onAssertion (getReducersType sub ctx).2)

end Thinc.Plugin
