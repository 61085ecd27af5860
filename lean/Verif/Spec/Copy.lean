import Verif.Model.NodeState
/-!
# Specification vocabulary for copies of a node
-/
namespace Thinc.Spec
open Thinc
variable {V A : Type}

/-- All that is copied of a node, apart from layers and shims. -/
structure SameContents (n c : Node V A) : Prop where
  name : c.name = n.name
  dims : c.dims = n.dims
  attrs : c.attrs = n.attrs
  refs : c.refs = []
  paramNames : c.paramNames = n.paramNames
  params : ∀ k, c.maybeGetParam k = n.maybeGetParam k
  grads : ∀ k, k ∈ n.paramNames → c.maybeGetGrad k = n.maybeGetGrad k

end Thinc.Spec
