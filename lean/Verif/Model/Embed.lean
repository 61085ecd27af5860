import Verif.Model.Dropout
import Verif.Model.Gather
import Verif.Model.Hash
/-!
# Embed and HashEmbed
-/
namespace Thinc

/-- A 1-d array of integers. -/
def Val.asInts : Val → Except PyErr (List Int)
  | .ints ks => .ok ks
  | _ => .error .typeError

/-- `if drop_mask is not None: output *= drop_mask` -/
noncomputable def applyMask (output : Mat ℝ) : Option (Mat ℝ) → Except PyErr (Mat ℝ)
  | none => .ok output
  | some mask => npUpdate (· * ·) output mask

/-- thinc/layers/embed.py:48-71 `forward`.  `E` is the number of the parameter, `dropout` the attribute
`dropout_rate`, `coinflips` are the random draws, and `fast` chooses the code path of `scatter_add`.
(`d_output *= drop_mask` changes the caller's array too: not visible here.) -/
noncomputable def embed (E : Nat) (dropout : Option ℝ) (coinflips : Nat → Nat → ℝ) (fast : Bool) : Layer := fun isTrain P X => do
  let ids ← X.asInts
  let vectors := P E
  let nO := vectors.cols
  let output ← vectors.takeRows ids
  let dropMask : Option (Mat ℝ) := if isTrain then some (getDropoutMask 1 nO dropout coinflips) else none
  let output ← applyMask output dropMask
  let backprop : Callback := fun dOutput G => do
    let dOutput ← applyMask (← dOutput.asArr) dropMask
    let dVectors ← scatterAdd fast (Mat.zeros vectors.rows vectors.cols) ids dOutput
    let G ← incGrad G E dVectors
    return (.ints (ids.map fun _ => 0), G)
  return (.arr output, backprop)

/-- thinc/layers/hashembed.py:59-91 `forward`.  With an empty list of ids the callback uses variables that
have not been set.  (`keys.T` is converted to int32; rows beyond 2^31 are not modelled.) -/
noncomputable def hashEmbed (E : Nat) (seed : BitVec 32) (dropout : Option ℝ) (coinflips : Nat → Nat → ℝ) (fast : Bool) : Layer :=
  fun isTrain P X => do
  let ids ← X.asInts
  let vectors := P E
  let nV := vectors.rows
  let nO := vectors.cols
  if ids.length = 0 then
    return (.arr (Mat.zeros 0 nO), fun _ _ => .error .unboundLocalError)
  else
    let keys := (hashIds ids seed).modInt nV
    let output ← gatherAdd vectors keys
    let dropMask : Option (Mat ℝ) := if isTrain then some (getDropoutMask 1 nO dropout coinflips) else none
    let output ← applyMask output dropMask
    let backprop : Callback := fun dVectors G => do
      let dVectors ← applyMask (← dVectors.asArr) dropMask
      let dE ← scatterColumns fast vectors.rows vectors.cols keys dVectors
      let G ← incGrad G E dE
      return (.ints (ids.map fun _ => 0), G)
    return (.arr output, backprop)

end Thinc
