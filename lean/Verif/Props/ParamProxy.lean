import Verif.Model.ParamProxy
import Verif.Lemmas.NodeState
/-!
# C88: a model whose parameters live behind a proxy
-/
namespace Thinc.ParamProxy
open Thinc
variable {V A S : Type}

/-- Specification: the state of a model with a proxy is the state of the proxy and, for every name, whether the parameter is
unknown (`none`), registered but not set (`some false`) or set (`some true`), and whether it was ever given a value. -/
structure Remote (S : Type) where
  proxy : S
  known : String → Option Bool
  given : String → Bool

/-- Specification of one call: parameters are read from the proxy, everything written goes to the proxy and nowhere else, and the
model has no gradients of its own. -/
def Remote.call (px : Proxy S V) (id : Nat) (r : Remote S) : ParamCall V → Remote S × ParamReply V
  | .hasParam name => (r, .flag (match r.known name with | none => some false | some true => some true | some false => none))
  | .getParam name =>
    if (r.known name).isSome = true ∧ r.given name = true then
      ({ r with proxy := (px.getParam r.proxy id name).1 }, .value (.ok (px.getParam r.proxy id name).2))
    else (r, .value (.error .keyError))
  | .setParam name none => ({ r with known := fun q => if q = name then some false else r.known q }, .done)
  | .setParam name (some v) =>
    ({ proxy := px.setParam r.proxy id name v
       known := fun q => if q = name then some true else r.known q
       given := fun q => if q = name then true else r.given q }, .done)
  | .hasGrad _ => (r, .flag (some false))
  | .getGrad _ => (r, .value (.error .keyError))
  | .setGrad name v => ({ r with proxy := px.setGrad r.proxy id name v }, .done)
  | .incGrad name v => ({ r with proxy := px.incGrad r.proxy id name v }, .done)

/-- The calls one after the other. -/
def Remote.calls (px : Proxy S V) (id : Nat) (r : Remote S) : List (ParamCall V) → Remote S × List (ParamReply V)
  | [] => (r, [])
  | c :: cs => ((Remote.calls px id (r.call px id c).1 cs).1, (r.call px id c).2 :: (Remote.calls px id (r.call px id c).1 cs).2)

/-- The state of a model. -/
structure Rep (s : S) (n : Node V A) (r : Remote S) : Prop where
  proxy : r.proxy = s
  known : ∀ q, r.known q = (n.hasParams.get? q).map Option.isSome
  given : ∀ q, r.given q = n.params.contains (n.id, q)
  grads : n.grads = []

theorem rep_call (px : Proxy S V) {s : S} {n : Node V A} {r : Remote S} (h : Rep s n r) (c : ParamCall V) :
    (n.callProxy px s c).2 = (r.call px n.id c).2 ∧ (n.callProxy px s c).1.2.id = n.id ∧
      Rep (n.callProxy px s c).1.1 (n.callProxy px s c).1.2 (r.call px n.id c).1 := by
  obtain ⟨rfl, hk, hg, hgr⟩ := h
  cases c with
  | hasParam name =>
    refine ⟨?_, rfl, ⟨rfl, hk, hg, hgr⟩⟩
    simp only [Node.callProxy, Remote.call, Node.hasParam, hk]
    cases n.hasParams.get? name with
    | none => rfl
    | some o => cases o <;> rfl
  | getParam name =>
    have e : ((r.known name).isSome = true ∧ r.given name = true) ↔
        (n.hasParams.contains name = true ∧ n.params.contains (n.id, name) = true) := by
      rw [hk, hg, PyDict.contains, PyDict.contains, Option.isSome_map]
    simp only [Node.callProxy, Remote.call, Node.getParamProxy]
    by_cases h1 : n.hasParams.contains name = true <;> by_cases h2 : n.params.contains (n.id, name) = true
    · rw [if_pos (e.2 ⟨h1, h2⟩), if_pos h1, if_pos h2]
      refine ⟨rfl, rfl, ⟨rfl, hk, ?_, hgr⟩⟩
      intro q
      rw [hg]
      simp only [PyDict.contains, PyDict.get?_set]
      split
      · rename_i hq
        rw [← hq]
        exact h2
      · rfl
    · rw [if_neg (fun h => h2 (e.1 h).2), if_pos h1, if_neg h2]
      exact ⟨rfl, rfl, ⟨rfl, hk, hg, hgr⟩⟩
    · rw [if_neg (fun h => h1 (e.1 h).1), if_neg h1]
      exact ⟨rfl, rfl, ⟨rfl, hk, hg, hgr⟩⟩
    · rw [if_neg (fun h => h1 (e.1 h).1), if_neg h1]
      exact ⟨rfl, rfl, ⟨rfl, hk, hg, hgr⟩⟩
  | setParam name value =>
    cases value with
    | none =>
      refine ⟨rfl, rfl, ⟨rfl, ?_, hg, hgr⟩⟩
      intro q
      simp only [Remote.call, Node.callProxy, Node.setParamProxy, PyDict.get?_set, hk]
      by_cases hq : q = name
      · simp [hq]
      · simp [hq, Ne.symm hq]
    | some v =>
      refine ⟨rfl, rfl, ⟨rfl, ?_, ?_, hgr⟩⟩
      · intro q
        simp only [Remote.call, Node.callProxy, Node.setParamProxy, Node.setParam, PyDict.get?_set, hk]
        by_cases hq : q = name
        · simp [hq]
        · simp [hq, Ne.symm hq]
      · intro q
        simp only [Remote.call, Node.callProxy, Node.setParamProxy, Node.setParam, PyDict.contains, PyDict.get?_set, hg,
          Prod.mk.injEq, true_and]
        by_cases hq : q = name
        · simp [hq]
        · simp [hq, Ne.symm hq]
  | hasGrad name =>
    refine ⟨?_, rfl, ⟨rfl, hk, hg, hgr⟩⟩
    simp [Node.callProxy, Remote.call, Node.hasGrad, hgr, PyDict.contains]
  | getGrad name =>
    refine ⟨?_, rfl, ⟨rfl, hk, hg, hgr⟩⟩
    simp [Node.callProxy, Remote.call, Node.getGrad, hgr]
  | setGrad name v => exact ⟨rfl, rfl, ⟨rfl, hk, hg, hgr⟩⟩
  | incGrad name v => exact ⟨rfl, rfl, ⟨rfl, hk, hg, hgr⟩⟩

/-- **C88**: for every proxy and every sequence of calls on a model that has no gradients yet, the replies and the state of the
proxy are those of the specification `Remote.call`: a parameter that was given a value is read from the proxy each time, every
parameter and every gradient is written to the proxy once and in order, and the model itself never has a gradient.  A parameter
that was never set through this model cannot be read, even if the proxy has it. -/
theorem C88_proxy (px : Proxy S V) (s : S) (n : Node V A) (hg : n.grads = []) (cs : List (ParamCall V)) :
    let r : Remote S := ⟨s, fun q => (n.hasParams.get? q).map Option.isSome, fun q => n.params.contains (n.id, q)⟩
    (n.callsProxy px s cs).2 = (r.calls px n.id cs).2 ∧ (n.callsProxy px s cs).1.1 = (r.calls px n.id cs).1.proxy ∧
      (n.callsProxy px s cs).1.2.grads = [] := by
  have key : ∀ (cs : List (ParamCall V)) (s : S) (n : Node V A) (r : Remote S), Rep s n r →
      (n.callsProxy px s cs).2 = (r.calls px n.id cs).2 ∧ (n.callsProxy px s cs).1.1 = (r.calls px n.id cs).1.proxy ∧
        (n.callsProxy px s cs).1.2.grads = [] := by
    intro cs
    induction cs with
    | nil => intro s n r h; exact ⟨rfl, h.proxy.symm, h.grads⟩
    | cons c cs ih =>
      intro s n r h
      obtain ⟨h1, h2, h3⟩ := rep_call px h c
      obtain ⟨i1, i2, i3⟩ := ih _ _ _ h3
      rw [h2] at i1 i2
      refine ⟨?_, i2, i3⟩
      rw [Node.callsProxy, Remote.calls]
      dsimp only
      rw [h1, i1]
  exact key cs s n _ ⟨rfl, fun _ => rfl, fun _ => rfl, hg⟩

/-- **C88**: in particular, what one model writes another model with the same proxy and id reads: after `set_param` through one
of them, `get_param` of a parameter that both have set returns the new value, if the proxy is a dictionary. -/
theorem C88_shared_parameter (n m : Node V A) (hid : n.id = m.id) (name : String) (v : V)
    (hm : m.hasParams.contains name = true) (hp : m.params.contains (m.id, name) = true)
    (s : PyDict (Nat × String) V) (dflt : V) :
    let px : Proxy (PyDict (Nat × String) V) V :=
      ⟨fun s i q => (s, (s.get? (i, q)).getD dflt), fun s i q v => s.set (i, q) v, fun s _ _ _ => s, fun s _ _ _ => s⟩
    (m.getParamProxy px (n.setParamProxy px s name (some v)).1 name).2.2 = .ok v := by
  simp only [Node.getParamProxy, hm, hp, if_true, Node.setParamProxy, hid, PyDict.get?_set_self, Option.getD_some]

/-- A case: a parameter is set, changed behind the model's back, read, and a gradient is added. -/
example :
    let px : Proxy (List Nat) Nat := ⟨fun s _ _ => (s, s.sum), fun s _ _ v => s ++ [v], fun s _ _ v => s ++ [v], fun s _ _ v => s ++ [v]⟩
    let n : Node Nat Nat := { name := "n", id := 3, layers := [] }
    (n.callsProxy px [5] [.getParam "W", .setParam "W" (some 1), .incGrad "W" 2, .hasGrad "W", .getParam "W"]).1.1 = [5, 1, 2] ∧
    (n.callsProxy px [5] [.getParam "W", .setParam "W" (some 1), .incGrad "W" 2, .hasGrad "W", .getParam "W"]).2 =
      [.value (.error .keyError), .done, .done, .flag (some false), .value (.ok 8)] := by
  constructor <;>
  simp [Node.callsProxy, Node.callProxy, Node.getParamProxy, Node.setParamProxy, Node.setParam, Node.incGradProxy, Node.hasGrad,
    PyDict.contains, PyDict.get?, PyDict.set]

end Thinc.ParamProxy
