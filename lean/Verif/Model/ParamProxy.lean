import Verif.Model.NodeState
/-!
# Parameters behind a proxy (thinc/backends/_param_server.py, thinc/model.py lines 218-270)

`Verif.Model.NodeState` has the case without a proxy.
-/
namespace Thinc
variable {V A S : Type}

/-- The object given as `proxy` (_param_server.py:16-27): its methods are arbitrary functions of its state. -/
structure Proxy (S V : Type) where
  getParam : S → Nat → String → S × V
  setParam : S → Nat → String → V → S
  setGrad : S → Nat → String → V → S
  incGrad : S → Nat → String → V → S

/-- thinc/model.py:230-238 `get_param` with _param_server.py:38-39 `has_param` and 44-48 `get_param`: the local dictionary
decides whether the parameter exists, the proxy has the value. -/
def Node.getParamProxy (px : Proxy S V) (s : S) (n : Node V A) (name : String) : S × Node V A × Except PyErr V :=
  if n.hasParams.contains name then
    if n.params.contains (n.id, name) then
      ((px.getParam s n.id name).1,
        { n with params := n.params.set (n.id, name) (px.getParam s n.id name).2 }, .ok (px.getParam s n.id name).2)
    else (s, n, .error .keyError)
  else (s, n, .error .keyError)

/-- thinc/model.py:244-250 `set_param` with _param_server.py:54-57 `set_param`. -/
def Node.setParamProxy (px : Proxy S V) (s : S) (n : Node V A) (name : String) : Option V → S × Node V A
  | none => (s, { n with hasParams := n.hasParams.set name none })
  | some v => (px.setParam s n.id name v, n.setParam name (some v))

/-- thinc/model.py:260-262 `set_grad` with _param_server.py:59-63 `set_grad`. -/
def Node.setGradProxy (px : Proxy S V) (s : S) (n : Node V A) (name : String) (v : V) : S × Node V A :=
  (px.setGrad s n.id name v, n)

/-- thinc/model.py:268-270 `inc_grad` with _param_server.py:65-68 `inc_grad`. -/
def Node.incGradProxy (px : Proxy S V) (s : S) (n : Node V A) (name : String) (v : V) : S × Node V A :=
  (px.incGrad s n.id name v, n)

/-- A call of one of the methods for parameters and gradients, thinc/model.py:218-270. -/
inductive ParamCall (V : Type)
  | hasParam (name : String)
  | getParam (name : String)
  | setParam (name : String) (value : Option V)
  | hasGrad (name : String)
  | getGrad (name : String)
  | setGrad (name : String) (value : V)
  | incGrad (name : String) (value : V)

/-- What a call returns. -/
inductive ParamReply (V : Type)
  | done
  | flag (b : Option Bool)
  | value (v : Except PyErr V)

/-- One call on a model whose `ParamServer` has a proxy. -/
def Node.callProxy (px : Proxy S V) (s : S) (n : Node V A) : ParamCall V → (S × Node V A) × ParamReply V
  | .hasParam name => ((s, n), .flag (n.hasParam name))
  | .getParam name => (((n.getParamProxy px s name).1, (n.getParamProxy px s name).2.1),
      .value (n.getParamProxy px s name).2.2)
  | .setParam name value => (n.setParamProxy px s name value, .done)
  | .hasGrad name => ((s, n), .flag (some (n.hasGrad name)))
  | .getGrad name => ((s, n), .value (n.getGrad name))
  | .setGrad name value => (n.setGradProxy px s name value, .done)
  | .incGrad name value => (n.incGradProxy px s name value, .done)

/-- The calls one after the other. -/
def Node.callsProxy (px : Proxy S V) (s : S) (n : Node V A) : List (ParamCall V) → (S × Node V A) × List (ParamReply V)
  | [] => ((s, n), [])
  | c :: cs =>
    ((Node.callsProxy px (n.callProxy px s c).1.1 (n.callProxy px s c).1.2 cs).1,
      (n.callProxy px s c).2 :: (Node.callsProxy px (n.callProxy px s c).1.1 (n.callProxy px s c).1.2 cs).2)

end Thinc
