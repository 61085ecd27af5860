import Verif.Model.Layer
/-!
# Dropout
-/
namespace Thinc
open Classical

/-- thinc/backends/ops.py:485-497 `Ops.get_dropout_mask`.  `coinflips` are the numbers that
`xp.random.uniform` draws; `None` is `none`. -/
noncomputable def getDropoutMask (rows cols : Nat) (drop : Option ℝ) (coinflips : Nat → Nat → ℝ) : Mat ℝ :=
  match drop with
  | none => Mat.ofFn rows cols (fun _ _ => 1)
  | some drop =>
    if drop ≤ 0 then Mat.ofFn rows cols (fun _ _ => 1)
    else if drop ≥ 1.0 then Mat.ofFn rows cols (fun _ _ => 0)
    else Mat.ofFn rows cols (fun i j => (if coinflips i j ≥ drop then 1 else 0) / (1.0 - drop))

/-- thinc/layers/dropout.py:38-47 `_dropout_array` -/
noncomputable def dropoutArray (rate : ℝ) (coinflips : Nat → Nat → ℝ) (X : Mat ℝ) : Except PyErr (Val × Callback) := do
  let mask := getDropoutMask X.rows X.cols (some rate) coinflips
  let backprop : Callback := fun dY G => do return (.arr (← npBinary (· * ·) (← dY.asArr) mask), G)
  return (.arr (← npBinary (· * ·) X mask), backprop)

/-- thinc/layers/dropout.py:50-60 `_dropout_padded` -/
noncomputable def dropoutPadded (rate : ℝ) (coinflips : Nat → Nat → ℝ) (X : Mat ℝ) (steps : Nat) (s l i : List Nat) :
    Except PyErr (Val × Callback) := do
  let mask := getDropoutMask X.rows X.cols (some rate) coinflips
  let Y ← npBinary (· * ·) X mask
  let backprop : Callback := fun dYp G =>
    match dYp with
    | .padded D steps s l i => do return (.padded (← npBinary (· * ·) D mask) steps s l i, G)
    | _ => .error .attributeError
  return (.padded Y steps s l i, backprop)

/-- thinc/layers/dropout.py:63-74 `_dropout_ragged` -/
noncomputable def dropoutRagged (rate : ℝ) (coinflips : Nat → Nat → ℝ) (X : Mat ℝ) (lengths : List Nat) :
    Except PyErr (Val × Callback) := do
  let mask := getDropoutMask X.rows X.cols (some rate) coinflips
  let Y ← npBinary (· * ·) X mask
  let backprop : Callback := fun dYr G =>
    match dYr with
    | .ragged D lengths => do return (.ragged (← npBinary (· * ·) D mask) lengths, G)
    | _ => .error .attributeError
  return (.ragged Y lengths, backprop)

/-- The masks of a list of arrays; every array has its own draws. -/
noncomputable def listMasks (rate : ℝ) : (Nat → Nat → Nat → ℝ) → List (Mat ℝ) → List (Mat ℝ)
  | _, [] => []
  | draws, X :: Xs => getDropoutMask X.rows X.cols (some rate) (draws 0) :: listMasks rate (fun k => draws (k + 1)) Xs

/-- `[X * mask for X, mask in zip(Xs, masks)]` -/
def mulAll : List (Mat ℝ) → List (Mat ℝ) → Except PyErr (List (Mat ℝ))
  | X :: Xs, M :: Ms => do
    let Y ← npBinary (· * ·) X M
    return Y :: (← mulAll Xs Ms)
  | _, _ => .ok []

/-- thinc/layers/dropout.py:77-87 `_dropout_lists` -/
noncomputable def dropoutLists (rate : ℝ) (draws : Nat → Nat → Nat → ℝ) (Xs : List Val) : Except PyErr (Val × Callback) := do
  let Xs ← Xs.mapM Val.asArr
  let masks := listMasks rate draws Xs
  let Ys ← mulAll Xs masks
  let backprop : Callback := fun dYs G => do
    let dYs ← (← dYs.items).mapM Val.asArr
    return (.list ((← mulAll dYs masks).map .arr), G)
  return (.list (Ys.map .arr), backprop)

/-- thinc/layers/dropout.py:19-35 `forward`.  `draws k` are the random numbers for the `k`-th mask.
(Integer arrays, which the code would turn into float arrays, are not modelled: TypeError here.) -/
noncomputable def dropout (rate : ℝ) (isEnabled : Bool) (draws : Nat → Nat → Nat → ℝ) : Layer := fun isTrain _ X =>
  let isEnabled := isEnabled && isTrain
  if rate = 0 ∨ isEnabled = false then .ok (X, fun dY G => .ok (dY, G))
  else match X with
  | .ragged A lengths => dropoutRagged rate (draws 0) A lengths
  | .padded A steps s l i => dropoutPadded rate (draws 0) A steps s l i
  | .list Xs => dropoutLists rate draws Xs
  | .tup Xs => dropoutLists rate draws Xs
  | .arr A => dropoutArray rate (draws 0) A
  | .ints _ => .error .typeError
  | .intMat _ => .error .typeError

end Thinc
