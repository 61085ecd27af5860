import Verif.Model.Containers
import Verif.Model.Layer
/-!
# Initializers

thinc/initializers.py.  Entries are real numbers: rounding to 32 bit (`ops.asarray_f`, `astype("float32")`) is not modelled.
numpy's random generator is an arbitrary state machine that draws numbers for the uniform distribution on [0, 1) and for the
standard normal distribution.
-/
namespace Thinc.Initializers
open Container

/-- numpy's global random generator: the next draw and the next state. -/
structure Rng (σ : Type) where
  uniform : σ → ℝ × σ
  normal : σ → ℝ × σ

variable {σ : Type}

/-- Several draws one after the other. -/
def drawMany (next : σ → ℝ × σ) : Nat → σ → List ℝ × σ
  | 0, s => ([], s)
  | n + 1, s => ((next s).1 :: (drawMany next n (next s).2).1, (drawMany next n (next s).2).2)

/-- `numpy.random.uniform(lo, hi, shape)` -/
noncomputable def npUniform (rng : Rng σ) (lo hi : ℝ) (shape : List Nat) (s : σ) : NdArray ℝ × σ :=
  (⟨shape, (drawMany rng.uniform shape.prod s).1.map fun u => lo + (hi - lo) * u⟩, (drawMany rng.uniform shape.prod s).2)

/-- `numpy.random.normal(loc, scale, shape)`: `ValueError` for a negative scale. -/
noncomputable def npNormal (rng : Rng σ) (loc scale : ℝ) (shape : List Nat) (s : σ) : Except PyErr (NdArray ℝ × σ) :=
  open Classical in
  if scale < 0 then .error .valueError
  else .ok (⟨shape, (drawMany rng.normal shape.prod s).1.map fun z => loc + scale * z⟩, (drawMany rng.normal shape.prod s).2)

/-- `shape[i]` -/
def axisOf (shape : List Nat) (i : Nat) : Except PyErr Nat :=
  match shape[i]? with
  | some n => .ok n
  | none => .error .indexError

/-- `numpy.sqrt(c / n)` for a Python int `n`. -/
noncomputable def sqrtOver (c : ℝ) (n : Nat) : Except PyErr ℝ :=
  if n = 0 then .error .zeroDivisionError else .ok (Real.sqrt (c / n))

/-- thinc/initializers.py:18-20 `lecun_normal_init` -/
noncomputable def lecunNormalInit (rng : Rng σ) (shape : List Nat) (s : σ) : Except PyErr (NdArray ℝ × σ) := do
  let scale ← sqrtOver 1 (← axisOf shape 1)
  npNormal rng 0 scale shape s

/-- thinc/initializers.py:28-30 `he_normal_init` -/
noncomputable def heNormalInit (rng : Rng σ) (shape : List Nat) (s : σ) : Except PyErr (NdArray ℝ × σ) := do
  let scale ← sqrtOver 2 (← axisOf shape 1)
  npNormal rng 0 scale shape s

/-- thinc/initializers.py:38-40 `glorot_normal_init` -/
noncomputable def glorotNormalInit (rng : Rng σ) (shape : List Nat) (s : σ) : Except PyErr (NdArray ℝ × σ) := do
  let d1 ← axisOf shape 1
  let d0 ← axisOf shape 0
  let scale ← sqrtOver 2 (d1 + d0)
  npNormal rng 0 scale shape s

/-- thinc/initializers.py:48-50 `he_uniform_init` -/
noncomputable def heUniformInit (rng : Rng σ) (shape : List Nat) (s : σ) : Except PyErr (NdArray ℝ × σ) := do
  let scale ← sqrtOver 6 (← axisOf shape 1)
  .ok (npUniform rng (-scale) scale shape s)

/-- thinc/initializers.py:58-60 `lecun_uniform_init` -/
noncomputable def lecunUniformInit (rng : Rng σ) (shape : List Nat) (s : σ) : Except PyErr (NdArray ℝ × σ) := do
  let scale ← sqrtOver 3 (← axisOf shape 1)
  .ok (npUniform rng (-scale) scale shape s)

/-- thinc/initializers.py:68-70 `glorot_uniform_init` -/
noncomputable def glorotUniformInit (rng : Rng σ) (shape : List Nat) (s : σ) : Except PyErr (NdArray ℝ × σ) := do
  let d0 ← axisOf shape 0
  let d1 ← axisOf shape 1
  let scale ← sqrtOver 6 (d0 + d1)
  .ok (npUniform rng (-scale) scale shape s)

/-- thinc/initializers.py:78-79 `zero_init`; `alloc_f` gives zeros. -/
noncomputable def zeroInit (shape : List Nat) (s : σ) : NdArray ℝ × σ := (⟨shape, List.replicate shape.prod 0⟩, s)

/-- thinc/initializers.py:87-91 `uniform_init` -/
noncomputable def uniformInit (rng : Rng σ) (lo hi : ℝ) (shape : List Nat) (s : σ) : NdArray ℝ × σ := npUniform rng lo hi shape s

/-- thinc/initializers.py:101-105 `normal_init`: `mean` is passed as the scale; the flat array is given the shape. -/
noncomputable def normalInit (rng : Rng σ) (mean : ℝ) (shape : List Nat) (s : σ) : Except PyErr (NdArray ℝ × σ) := do
  let r ← npNormal rng 0 mean [shape.prod] s
  let a ← r.1.reshape (shape.map Int.ofNat)
  .ok (a, r.2)

/-- An array used as a matrix: `W` itself, or `W.reshape(nO * nP, nI)` for the weights of `Maxout`
(thinc/layers/maxout.py:51-54).  An array with another number of entries raises when it is used (in `reshape`, `gemm` or the
addition of the bias). -/
def asMatrix (a : NdArray ℝ) (rows cols : Nat) : Except PyErr (Mat ℝ) :=
  if a.data.length = rows * cols then .ok ⟨rows, cols, fun i => a.data.getD i 0⟩ else .error .valueError

/-- thinc/layers/linear.py:60-61: the parameters that `init` sets once the dims are known, here with `zero_init` for the bias.
The same lines are in relu.py, swish.py and the other dense layers. -/
noncomputable def denseParams (initW : List Nat → σ → Except PyErr (NdArray ℝ × σ)) (nO nI : Nat) (s : σ) :
    Except PyErr ((Mat ℝ × Mat ℝ) × σ) := do
  let W ← initW [nO, nI] s
  let b := zeroInit [nO] W.2
  let Wm ← asMatrix W.1 nO nI
  let bm ← asMatrix b.1 1 nO
  .ok ((Wm, bm), b.2)

/-- thinc/layers/maxout.py:80-82: the parameters of `Maxout`, as they are used in thinc/layers/maxout.py:51-53. -/
noncomputable def maxoutParams (initW : List Nat → σ → Except PyErr (NdArray ℝ × σ)) (nO nP nI : Nat) (s : σ) :
    Except PyErr ((Mat ℝ × Mat ℝ) × σ) := do
  let W ← initW [nO, nP, nI] s
  let b := zeroInit [nO, nP] W.2
  let Wm ← asMatrix W.1 (nO * nP) nI
  let bm ← asMatrix b.1 1 (nO * nP)
  .ok ((Wm, bm), b.2)

end Thinc.Initializers
