import Verif.Model.Plugin
/-! # Specification: models that fit together, and what a type means -/
namespace Thinc.Plugin.Spec
variable {T V : Type}

/-- Every model's output type is a subtype of the next model's input type. -/
def Fits (sub : T → T → Bool) (ts : List (T × T)) : Prop :=
  ∀ (k : Nat) (a b : T × T), ts[k]? = some a → ts[k + 1]? = some b → sub a.2 b.1 = true

/-- All models have the same input type and the same output type. -/
def AllSame (ts : List (T × T)) : Prop := ∀ a ∈ ts, ∀ b ∈ ts, a = b

/-- The call is one of a function declared to return `Model[…, var]`, by its name, with models of these types as arguments. -/
structure CallOf (var : String) (ts : List (T × T)) (ctx : Ctx T) : Prop where
  checker : ctx.checker = true
  isCall : ctx.isCall = true
  callee : ∃ a, ctx.callee = .result "thinc.model.Model" [a, .var var]
  args : ctx.argTypes.flatten = ts.map fun t => .instance "thinc.model.Model" [t.1, t.2]

/-- A model as it is written down: a layer of a declared type, whose `predict` may fail; models in a chain; or models whose
outputs for the same input are combined. -/
inductive Expr (T V : Type) where
  | layer (i o : T) (f : V → Option V)
  | chain (es : List (Expr T V))
  | same (op : List V → Option V) (es : List (Expr T V))

mutual
/-- `predict` -/
def run : Expr T V → V → Option V
  | .layer _ _ f, x => f x
  | .chain es, x => runChain es x
  | .same op es, x => (runAll es x).bind op

/-- One after the other. -/
def runChain : List (Expr T V) → V → Option V
  | [], x => some x
  | e :: es, x => (run e x).bind (runChain es)

/-- Each on the same input. -/
def runAll : List (Expr T V) → V → Option (List V)
  | [], _ => some []
  | e :: es, x => (run e x).bind fun y => (runAll es x).bind fun ys => some (y :: ys)
end

/-- The plugin checks the model, reports no error at any of its calls, and gives it the type `Model[i, o]`. -/
inductive Checked [DecidableEq T] (sub : T → T → Bool) : Expr T V → T × T → Prop
  | layer (i o : T) (f : V → Option V) : Checked sub (.layer i o f) (i, o)
  | chain (ps : List (Expr T V × (T × T))) (ctx : Ctx T) (i o : T) : (∀ p ∈ ps, Checked sub p.1 p.2) →
      CallOf "thinc.types.XY_YZ_OutT" (ps.map Prod.snd) ctx → functionHook sub ctx = ([], .ok (.model i o)) →
      Checked sub (.chain (ps.map Prod.fst)) (i, o)
  | same (op : List V → Option V) (ps : List (Expr T V × (T × T))) (ctx : Ctx T) (i o : T) : (∀ p ∈ ps, Checked sub p.1 p.2) →
      CallOf "thinc.types.XY_XY_OutT" (ps.map Prod.snd) ctx → functionHook sub ctx = ([], .ok (.model i o)) →
      Checked sub (.same op (ps.map Prod.fst)) (i, o)

/-- Every layer does what its declared type says: a value of the input type gives a value of the output type.  Values of one
type can be combined, and give a value of that type. -/
inductive Honest (den : T → V → Prop) : Expr T V → Prop
  | layer (i o : T) (f : V → Option V) : (∀ x, den i x → ∃ y, f x = some y ∧ den o y) → Honest den (.layer i o f)
  | chain (es : List (Expr T V)) : (∀ e ∈ es, Honest den e) → Honest den (.chain es)
  | same (op : List V → Option V) (es : List (Expr T V)) : (∀ e ∈ es, Honest den e) →
      (∀ t ys, ys ≠ [] → (∀ y ∈ ys, den t y) → ∃ z, op ys = some z ∧ den t z) → Honest den (.same op es)

end Thinc.Plugin.Spec
