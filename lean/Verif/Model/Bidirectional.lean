import Verif.Model.Layer
/-!
# bidirectional
-/
namespace Thinc

/-- thinc/layers/bidirectional.py:45-46 `_reverse`: `data[::1]` is the data in the same order. -/
def bidiReverse : Val → Except PyErr Val
  | .padded A steps s l i => .ok (.padded A steps s l i)
  | _ => .error .attributeError

/-- thinc/layers/bidirectional.py:49-55 `_concatenate` (along the last axis) -/
def bidiConcatenate : Val → Val → Except PyErr Val
  | .padded A steps s l i, .padded B _ _ _ _ => do return .padded (← hstack2 A B) steps s l i
  | _, _ => .error .attributeError

/-- thinc/layers/bidirectional.py:58-66 `_split`: both slices are `[..., :half]`. -/
def bidiSplit : Val → Except PyErr (Val × Val)
  | .padded A steps s l i =>
    let half := A.cols / 2
    .ok (.padded (A.colBlock 0 half) steps s l i, .padded (A.colBlock 0 half) steps s l i)
  | _ => .error .attributeError

/-- thinc/layers/bidirectional.py:69-70 `_sum` -/
def bidiSum : Val → Val → Except PyErr Val
  | .padded A steps s l i, .padded B _ _ _ _ => do return .padded (← npBinary (· + ·) A B) steps s l i
  | _, _ => .error .attributeError

/-- thinc/layers/bidirectional.py:22-35 `forward` -/
def bidirectional (l2r r2l : Layer) : Layer := fun train P X => do
  let Xrev ← bidiReverse X
  let (l2rZ, bpL2r) ← l2r train P X
  let (r2lZ, bpR2l) ← r2l train P Xrev
  let Z ← bidiConcatenate l2rZ r2lZ
  let backprop : Callback := fun dZ G => do
    let (dL2r, dR2l) ← bidiSplit dZ
    let (dXl2r, G) ← bpL2r dL2r G
    let (dXr2l, G) ← bpR2l dR2l G
    return (← bidiSum dXl2r dXr2l, G)
  return (Z, backprop)

end Thinc
