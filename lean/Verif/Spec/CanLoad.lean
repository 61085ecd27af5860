import Verif.Model.Serialize
/-!
# C12: what `can_from_dict` checks
-/
namespace Thinc.Spec
variable {V A S B Sh : Type}

/-- What the message says about one node does not contradict the node: the dimensions (their values, if the node has them set), the
parameters (their shapes, if set on both sides), the number of shims; and if `strict`, also the name and the attributes that the node has
and that can be serialized. -/
structure MessageFitsNode (ops : SerOps V A S B Sh) (strict : Bool) (n : Node V A) (info : NodeInfo) (attrs : PyDict String B)
    (params : PyDict String (Option V)) (shims : List B) : Prop where
  name : strict = true → info.name = n.name
  shims : shims.length = n.shims.length
  dims : ∀ d value, (d, value) ∈ info.dims → n.hasDim d ≠ some false ∧ ∀ v, n.getDim d = .ok v → value = some v
  params : ∀ k value, (k, value) ∈ params → n.hasParam k ≠ some false ∧
    ∀ v p, n.hasParam k = some true → value = some v → n.getParam k = .ok p → ops.shape p = ops.shape v
  attrs : strict = true → ∀ k b, (k, b) ∈ attrs → ∀ v b', n.attrs.get? k = some v → ops.ser v = .ok b' → b' = b

/-- The message has as many nodes as the model, and they fit one by one, in the order of `walk`. -/
def MessageFits (ops : SerOps V A S B Sh) (s : LoadState V A S) (self : Addr) (msg : Msg V B) (strict : Bool) : Prop :=
  ∃ infos, msg.nodes = some infos ∧ infos.length = (walkBfs s.nodes self).length ∧
    ∀ (i : Nat) (a : Addr) (n : Node V A) (info : NodeInfo), (walkBfs s.nodes self)[i]? = some a → s.nodes[a]? = some n → infos[i]? = some info →
      MessageFitsNode ops strict n info (msg.attrs.getD i []) (msg.params.getD i []) (msg.shims.getD i [])

end Thinc.Spec
