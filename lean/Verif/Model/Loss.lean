import Verif.Model.Softmax
/-!
# One-hot encoding and losses

Matrices are `Mat ℝ`; floats are real numbers.  Strings are lists of characters.
-/
namespace Thinc
open Real Classical

/-- A Python string. -/
abbrev PyStr := List Char

/-- NumPy's in-place elementwise operation `A f= B`: along each axis `B` must have the size of `A` or be
broadcast from size 1. -/
noncomputable def npUpdate (f : ℝ → ℝ → ℝ) (A B : Mat ℝ) : Except PyErr (Mat ℝ) :=
  if (B.rows = A.rows ∨ B.rows = 1) ∧ (B.cols = A.cols ∨ B.cols = 1) then
    .ok (Mat.ofFn A.rows A.cols (fun i j => f (A.at i j)
      (B.at (if B.rows = 1 then 0 else i) (if B.cols = 1 then 0 else j))))
  else .error .valueError

/-- `numpy.ones((rows, cols))`. -/
noncomputable def Mat.ones (rows cols : Nat) : Mat ℝ := Mat.ofFn rows cols (fun _ _ => 1)

/-- The sum of all entries, `A.sum()`. -/
noncomputable def Mat.total (A : Mat ℝ) : ℝ := ∑ i ∈ Finset.range A.rows, ∑ j ∈ Finset.range A.cols, A.at i j

/-- An index into an axis of size `n`: negative numbers count from the end. -/
def npAxisIndex (n : Nat) (v : Int) : Except PyErr Nat :=
  if 0 ≤ v then (if v < n then .ok v.toNat else .error .indexError)
  else (if -v ≤ n then .ok (n - (-v).toNat) else .error .indexError)

/-- `numpy.max(Y)`. -/
def npMaxInt : List Int → Except PyErr Int
  | [] => .error .valueError
  | y :: ys => .ok (ys.foldl max y)

/-- thinc/util.py:259-260: the number of classes, one more than the largest label by default. -/
def classCount (Y : List Int) : Option Int → Except PyErr Int
  | none => match npMaxInt Y with
    | .ok m => .ok (m + 1)
    | .error e => .error e
  | some n => .ok n

/-- thinc/util.py:267-277: the share of each class that is not the label. -/
noncomputable def nongoldProb (n : Int) (smoothing : ℝ) : Except PyErr ℝ :=
  if smoothing = 0 then
    if n = 0 then .error .valueError else .ok 0
  else if ¬ n > 1 then .error .valueError
  else .ok (smoothing / ((n : ℝ) - 1))

/-- thinc/util.py:253-290 `to_categorical`, for a one-dimensional `Y`. -/
noncomputable def toCategorical (Y : List Int) (nClasses : Option Int) (smoothing : ℝ) : Except PyErr (Mat ℝ) := do
  let n ← classCount Y nClasses
  if smoothing < 0 then .error .valueError
  else do
    let nongold ← nongoldProb n smoothing
    let maxSmooth := ((n : ℝ) - 1) / n
    if n > 1 ∧ smoothing ≥ maxSmooth then .error .valueError
    -- `xp.full((n_classes, n_classes), ...)`
    else if n < 0 then .error .valueError
    else do
      let distr := fun i j : Nat => if i = j then 1 - smoothing else nongold
      let rows ← Y.mapM (npAxisIndex n.toNat)
      return Mat.ofFn Y.length n.toNat (fun i j => distr (rows.getD i 0) j)

/-- The `missing_value` setting. -/
inductive Missing where
  | none
  | int (v : Int)
  | str (s : PyStr)

/-- The kinds of truths: a list of ints, a list of strings, an array of ints, an array of floats. -/
inductive Truths where
  | intList (ts : List Int)
  | strList (ts : List PyStr)
  | intArray (ts : List Int)
  | floats (t : Mat ℝ)

/-- `len(truths)`. -/
def Truths.len : Truths → Nat
  | .intList ts => ts.length
  | .strList ts => ts.length
  | .intArray ts => ts.length
  | .floats t => t.rows

/-- thinc/loss.py:49-71 the settings of `CategoricalCrossentropy`. -/
structure CCE where
  normalize : Bool
  names : Option (List PyStr)
  missing : Missing
  negPrefix : Option PyStr
  smoothing : ℝ

/-- thinc/loss.py:68-71 `self._name_to_i`: of a repeated name the last position counts. -/
def nameToI (names : List PyStr) (s : PyStr) : Option Nat :=
  names.zipIdx.foldl (fun acc p => if p.1 = s then some p.2 else acc) none

/-- `self._name_to_i[name]`. -/
def lookupName (names : List PyStr) (s : PyStr) : Except PyErr Nat :=
  match nameToI names s with
  | some i => .ok i
  | none => .error .keyError

/-- thinc/loss.py:97-109 the loop body for one string: the name it stands for, whether it is missing, and
the class it negates.  (The loop stores these in row `i` of `truths`, `missing` and `negatives_mask`.) -/
noncomputable def convertStr (c : CCE) (names : List PyStr) (value : PyStr) : Except PyErr (PyStr × Bool × Option Nat) :=
  if c.missing = .str value then
    match names with
    | [] => .error .indexError
    | n :: _ => .ok (n, true, none)
  else
    match c.negPrefix with
    | some p =>
      if value ≠ [] ∧ p ≠ [] ∧ p.isPrefixOf value then do
        let rest := value.drop p.length
        let k ← lookupName names rest
        return (rest, false, some k)
      else .ok (value, false, none)
    | none => .ok (value, false, none)

/-- thinc/loss.py:411-415 `_make_mask`. -/
noncomputable def makeMask (guesses : Mat ℝ) (missing : List Nat) : Except PyErr (Mat ℝ) :=
  if ∀ i ∈ missing, i < guesses.rows then
    .ok (Mat.ofFn guesses.rows guesses.cols (fun i _ => if i ∈ missing then 0 else 1))
  else .error .indexError

/-- `mask[b] = 0` for a boolean array `b` with one entry per row. -/
noncomputable def maskRows (guesses : Mat ℝ) (n : Nat) (b : Nat → Prop) : Except PyErr (Mat ℝ) :=
  if n = guesses.rows then .ok (Mat.ofFn guesses.rows guesses.cols (fun i _ => if b i then 0 else 1))
  else .error .indexError

/-- The positions in a list at which a condition holds (`missing`). -/
def positions {α : Type} (p : α → Bool) (xs : List α) : List Nat :=
  (List.range xs.length).filter (fun i => (xs[i]?).any p)

/-- Row `i` as a list. -/
def Mat.rowList {K : Type} (t : Mat K) (i : Nat) : List K := (List.range t.cols).map (t.at i)

/-- thinc/loss.py:418-432 `_make_mask_by_value`.  A string as missing value is equal to no entry.  `argmax`
fails when there are rows but no columns. -/
noncomputable def makeMaskByValue (truths : Truths) (guesses : Mat ℝ) (missing : Missing) : Except PyErr (Mat ℝ) :=
  match missing, truths with
  | .int v, .intArray ts => maskRows guesses ts.length (fun i => ts[i]? = some v)
  | .int v, .floats t =>
    if t.cols = 0 ∧ t.rows ≠ 0 then .error .valueError
    else maskRows guesses t.rows (fun i => (listArgmax (t.rowList i) : Int) = v)
  | _, _ => .ok (Mat.ones guesses.rows guesses.cols)

/-- `value == missing_value` for an int value. -/
def Missing.isInt : Missing → Int → Bool
  | .int m, v => v == m
  | _, _ => false

/-- thinc/loss.py:79-114: the labels (`none`: the truths are a matrix already), the mask of missing rows and
the class each row negates. -/
noncomputable def readTruths (c : CCE) (truths : Truths) (guesses : Mat ℝ) :
    Except PyErr (Option (List Int) × Mat ℝ × (Nat → Option Nat)) :=
  match truths with
  | .intList ts => do
    let mask ← makeMask guesses (positions c.missing.isInt ts)
    return (some ts, mask, fun _ => none)
  | .strList ts =>
    if ts = [] then do
      let mask ← makeMask guesses []
      return (some [], mask, fun _ => none)
    else match c.names with
      | none => .error .valueError
      | some names => do
        let rows ← ts.mapM (convertStr c names)
        let labels ← rows.mapM (fun r => lookupName names r.1)
        let mask ← makeMask guesses (positions (fun r => r.2.1) rows)
        return (some (labels.map Int.ofNat), mask, fun i => (rows[i]?).bind (fun r => r.2.2))
  | .intArray ts => do
    let mask ← makeMaskByValue truths guesses c.missing
    return (some ts, mask, fun _ => none)
  | .floats _ => do
    let mask ← makeMaskByValue truths guesses c.missing
    return (none, mask, fun _ => none)

/-- thinc/loss.py:76-78, 107-109: `negatives_mask`, `None` without names. -/
noncomputable def negativesMask (c : CCE) (n : Nat) (negs : Nat → Option Nat) : Option (Mat ℝ) :=
  match c.names with
  | none => none
  | some names =>
    if names = [] then none
    else some (Mat.ofFn n names.length (fun i k => match negs i with
      | none => 1
      | some j => if k = j then -1 else 0))

/-- thinc/loss.py:115-128: the target as a matrix. -/
noncomputable def targetMatrix (c : CCE) (labels : Option (List Int)) (truths : Truths) (guesses : Mat ℝ) :
    Except PyErr (Mat ℝ) :=
  match labels, truths with
  | some ys, _ => toCategorical ys (some guesses.cols) c.smoothing
  | none, .floats t => if c.smoothing ≠ 0 then .error .valueError else .ok t
  | none, _ => .error .typeError

/-- thinc/loss.py:129-135: the negated values, applied to the target and to the mask. -/
noncomputable def applyNegatives (target mask : Mat ℝ) : Option (Mat ℝ) → Except PyErr (Mat ℝ × Mat ℝ)
  | none => .ok (target, mask)
  | some neg => do
    let target ← npUpdate (· * ·) target neg
    let target := target.map (fun x => if x = -1 then 0 else x)
    let neg := neg.map (fun x => if x = -1 then 1 else x)
    let mask ← npUpdate (· * ·) mask neg
    return (target, mask)

/-- thinc/loss.py:73-136 `CategoricalCrossentropy.convert_truths`.  Lists hold only ints or only strings. -/
noncomputable def CCE.convertTruths (c : CCE) (truths : Truths) (guesses : Mat ℝ) : Except PyErr (Mat ℝ × Mat ℝ) := do
  let (labels, mask, negs) ← readTruths c truths guesses
  let target ← targetMatrix c labels truths guesses
  applyNegatives target mask (negativesMask c truths.len negs)

/-- `xp.any(p(A))`. -/
def Mat.anyEntry (A : Mat ℝ) (p : ℝ → Prop) : Prop := ∃ i < A.rows, ∃ j < A.cols, p (A.at i j)

/-- thinc/loss.py:144-160 `CategoricalCrossentropy.get_grad`. -/
noncomputable def CCE.getGrad (c : CCE) (guesses : Mat ℝ) (truths : Truths) : Except PyErr (Mat ℝ) := do
  let (target, mask) ← c.convertTruths truths guesses
  if guesses.rows ≠ target.rows ∨ guesses.cols ≠ target.cols then .error .valueError
  else if guesses.anyEntry (· > 1) ∨ guesses.anyEntry (· < 0) then .error .valueError
  else if target.anyEntry (· > 1) ∨ target.anyEntry (· < 0) then .error .valueError
  else do
    let difference := Mat.ofFn guesses.rows guesses.cols (fun i j => guesses.at i j - target.at i j)
    let difference ← npUpdate (· * ·) difference mask
    return if c.normalize then difference.map (· / (guesses.rows : ℝ)) else difference

/-- thinc/loss.py:166-168 `_get_loss_from_grad`. -/
noncomputable def lossFromGrad (d : Mat ℝ) : ℝ := (d.map (· ^ 2)).total

/-- thinc/loss.py:162-164 `CategoricalCrossentropy.get_loss`. -/
noncomputable def CCE.getLoss (c : CCE) (guesses : Mat ℝ) (truths : Truths) : Except PyErr ℝ := do
  return lossFromGrad (← c.getGrad guesses truths)

/-- thinc/loss.py:138-142 `CategoricalCrossentropy.__call__`. -/
noncomputable def CCE.call (c : CCE) (guesses : Mat ℝ) (truths : Truths) : Except PyErr (Mat ℝ × ℝ) := do
  let d ← c.getGrad guesses truths
  return (d, lossFromGrad d)

/-! ### Sequences -/

/-- thinc/loss.py:217-234 the settings of `SequenceCategoricalCrossentropy`. -/
structure SeqCCE where
  cc : CCE
  normalize : Bool

/-- thinc/loss.py:217-234 `SequenceCategoricalCrossentropy.__init__`. -/
noncomputable def SeqCCE.init (normalize : Bool) (names : Option (List PyStr)) (missing : Missing)
    (negPrefix : Option PyStr) (smoothing : ℝ) : SeqCCE :=
  ⟨⟨false, names, missing, negPrefix, smoothing⟩, normalize⟩

/-- thinc/loss.py:243-256 `SequenceCategoricalCrossentropy.get_grad`. -/
noncomputable def SeqCCE.getGrad (s : SeqCCE) (guesses : List (Mat ℝ)) (truths : List Truths) :
    Except PyErr (List (Mat ℝ)) :=
  if guesses.length ≠ truths.length then .error .valueError
  else
    let n := guesses.length
    (guesses.zip truths).mapM (fun p => do
      let d ← s.cc.getGrad p.1 p.2
      return if s.normalize then d.map (· / (n : ℝ)) else d)

/-- thinc/loss.py:263-267 `SequenceCategoricalCrossentropy._get_loss_from_grad`. -/
noncomputable def seqLossFromGrad (grads : List (Mat ℝ)) : ℝ := grads.foldl (fun loss g => loss + lossFromGrad g) 0

/-- thinc/loss.py:258-261 `SequenceCategoricalCrossentropy.get_loss`. -/
noncomputable def SeqCCE.getLoss (s : SeqCCE) (guesses : List (Mat ℝ)) (truths : List Truths) : Except PyErr ℝ := do
  return seqLossFromGrad (← s.getGrad guesses truths)

/-- thinc/loss.py:236-241 `SequenceCategoricalCrossentropy.__call__`. -/
noncomputable def SeqCCE.call (s : SeqCCE) (guesses : List (Mat ℝ)) (truths : List Truths) :
    Except PyErr (List (Mat ℝ) × ℝ) := do
  let grads ← s.getGrad guesses truths
  return (grads, seqLossFromGrad grads)

/-! ### L2 distance -/

/-- thinc/loss.py:314-321 `L2Distance.get_grad`. -/
noncomputable def l2Grad (normalize : Bool) (guesses truths : Mat ℝ) : Except PyErr (Mat ℝ) :=
  if guesses.rows ≠ truths.rows ∨ guesses.cols ≠ truths.cols then .error .valueError
  else
    let difference := Mat.ofFn guesses.rows guesses.cols (fun i j => guesses.at i j - truths.at i j)
    .ok (if normalize then difference.map (· / (guesses.rows : ℝ)) else difference)

/-- thinc/loss.py:323-329 `L2Distance.get_loss`. -/
noncomputable def l2Loss (normalize : Bool) (guesses truths : Mat ℝ) : Except PyErr ℝ :=
  if guesses.rows ≠ truths.rows ∨ guesses.cols ≠ truths.cols then .error .valueError
  else do
    let d ← l2Grad normalize guesses truths
    return (d.map (· ^ 2)).total

/-! ### Cosine distance -/

/-- `xp.linalg.norm(A, axis=1)`, for row `i`. -/
noncomputable def Mat.rowNorm (A : Mat ℝ) (i : Nat) : ℝ := √(∑ j ∈ Finset.range A.cols, A.at i j ^ 2)

/-- thinc/loss.py:345-358 `CosineDistance.get_similarity`: one number per row. -/
noncomputable def cosineSimilarity (guesses truths : Mat ℝ) : Except PyErr (Nat → ℝ) :=
  if guesses.rows ≠ truths.rows ∨ guesses.cols ≠ truths.cols then .error .valueError
  else
    let yh := guesses.map (· + 1e-8)
    let y := truths.map (· + 1e-8)
    let mulNorms := fun i => yh.rowNorm i * y.rowNorm i
    .ok (fun i => (∑ j ∈ Finset.range yh.cols, yh.at i j * y.at i j) / mulNorms i)

/-- `xp.abs(truths).sum(axis=1) == 0`. -/
def Mat.zeroRow (A : Mat ℝ) (i : Nat) : Prop := ∑ j ∈ Finset.range A.cols, |A.at i j| = 0

/-- thinc/loss.py:360-384 `CosineDistance.get_grad`. -/
noncomputable def cosineGrad (normalize ignoreZeros : Bool) (guesses truths : Mat ℝ) : Except PyErr (Mat ℝ) :=
  if guesses.rows ≠ truths.rows ∨ guesses.cols ≠ truths.cols then .error .valueError
  else
    let yh := guesses.map (· + 1e-8)
    let y := truths.map (· + 1e-8)
    let mulNorms := fun i => yh.rowNorm i * y.rowNorm i
    let cosine := fun i => (∑ j ∈ Finset.range yh.cols, yh.at i j * y.at i j) / mulNorms i
    let d := fun i j => y.at i j / mulNorms i - cosine i * (yh.at i j / yh.rowNorm i ^ 2)
    let d := fun i j => if ignoreZeros ∧ truths.zeroRow i then 0 else d i j
    let d := fun i j => if normalize then d i j / (guesses.rows : ℝ) else d i j
    .ok (Mat.ofFn guesses.rows guesses.cols (fun i j => -(d i j)))

/-- thinc/loss.py:386-401 `CosineDistance.get_loss`. -/
noncomputable def cosineLoss (normalize ignoreZeros : Bool) (guesses truths : Mat ℝ) : Except PyErr ℝ := do
  let cosine ← cosineSimilarity guesses truths
  let losses := fun i => |cosine i - 1|
  let losses := fun i => if ignoreZeros ∧ truths.zeroRow i then 0 else losses i
  let losses := fun i => if normalize then losses i / (guesses.rows : ℝ) else losses i
  return ∑ i ∈ Finset.range guesses.rows, losses i

end Thinc
