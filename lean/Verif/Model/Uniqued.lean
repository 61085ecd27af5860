import Verif.Model.Embed
import Mathlib.Data.List.Dedup
/-!
# uniqued and ints_getitem
-/
namespace Thinc

/-- `numpy.unique(keys, return_index=True, return_inverse=True, return_counts=True)`: the sorted different keys,
for each its first position in `keys` and the number of times it occurs, and for every position of `keys` the
position of its key among the sorted ones (in numpy's order: keys, indices, inverse, counts). -/
def npUnique (keys : List Int) : List Int × List Nat × List Nat × List Nat :=
  let uniq := keys.dedup.mergeSort (fun a b => decide (a ≤ b))
  (uniq, uniq.map keys.idxOf, keys.map uniq.idxOf, uniq.map fun k => keys.count k)

/-- A two-dimensional numerical array as floats. -/
def Val.toFloats : Val → Except PyErr (Mat ℝ)
  | .arr A => .ok A
  | .intMat A => .ok (Mat.ofFn A.rows A.cols fun i j => (A.at i j : ℝ))
  | _ => .error .typeError

/-- thinc/layers/uniqued.py:30-54 `forward` for a two-dimensional integer array.  (Other inputs are a TypeError
here.  The final `reshape` keeps the shape of two-dimensional outputs.)  `fast` chooses the code path of
`scatter_add`. -/
noncomputable def uniqued (layer : Layer) (column : Int) (fast : Bool) : Layer := fun isTrain P X =>
  match X with
  | .intMat A =>
    if A.rows * A.cols < 2 then layer isTrain P X
    else do
      let col ← npIndex A.cols column
      let keys := A.column col
      let ind := (npUnique keys).2.1.map Int.ofNat
      let inv := (npUnique keys).2.2.1.map Int.ofNat
      let counts := (npUnique keys).2.2.2
      let counts := Mat.ofFn counts.length 1 fun i _ => (counts.getD i 0 : ℝ)
      let XUniq ← A.takeRows ind
      let (YUniq, bpYUniq) ← layer isTrain P (.intMat XUniq)
      let YUniq ← YUniq.asArr
      let Y ← YUniq.takeRows inv
      let backprop : Callback := fun dY G => do
        let dYUniq ← scatterAdd fast (Mat.zeros YUniq.rows YUniq.cols) inv (← dY.asArr)
        let (dUniques, G) ← bpYUniq (.arr dYUniq) G
        let quotients ← npBinary (· / ·) (← dUniques.toFloats) counts
        return (.arr (← quotients.takeRows inv), G)
      return (.arr Y, backprop)
  | _ => .error .typeError

/-- thinc/layers/array_getitem.py:38-51 `forward` with the index `(slice(0, None), column)` on a two-dimensional
integer array.  (The gradient has to be a one-dimensional integer array with one number per row; broadcasting is not
modelled.  An input without rows is returned as it is.) -/
def intsGetitemColumn (column : Int) : Layer := fun _ _ X =>
  match X with
  | .intMat A => do
    let backprop : Callback := fun dY G => do
      let col ← npIndex A.cols column
      let d ← dY.asInts
      if d.length ≠ A.rows then .error .valueError
      else return (.intMat (Mat.ofFn A.rows A.cols fun i j => if j = col then d.getD i 0 else 0), G)
    if A.rows = 0 then return (X, backprop)
    else
      let col ← npIndex A.cols column
      return (.ints (A.column col), backprop)
  | _ => .error .typeError

/-- thinc/layers/embed.py:15-45 `Embed` with a column -/
noncomputable def embedColumn (column : Int) (E : Nat) (dropout : Option ℝ) (coinflips : Nat → Nat → ℝ) (fast : Bool) : Layer :=
  chain [intsGetitemColumn column, embed E dropout coinflips fast]

end Thinc
