import Verif.Model.Serialize
import Verif.Model.UseParams
/-!
# Saving a model with other parameters

What users do to save the averaged parameters in the middle of training:

```
with model.use_params(optimizer.averages):
    msg = model.to_dict()
```
-/
namespace Thinc
variable {V A S B Sh : Type}

/-- The body of the `with` statement: `to_dict`, thinc/model.py:571-626.  It does not change the model. -/
def saveBody (ops : SerOps V A S B Sh) (shims : List S) (self : Addr) (h : Heap V A) : Heap V A × Except PyErr (Msg V B) :=
  (h, toDict ops ⟨h, shims⟩ self)

/-- `with self.use_params(params): msg = self.to_dict()`, thinc/model.py:351-372 and 571-626. -/
def saveWith (ops : SerOps V A S B Sh) (params : PyDict (Nat × String) V) (depth : Nat) (shims : List S) (self : Addr) (h : Heap V A) :
    Heap V A × Except PyErr (Msg V B) :=
  useParams params depth self (saveBody ops shims self) h

end Thinc
