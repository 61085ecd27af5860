import Mathlib.Analysis.SpecialFunctions.Trigonometric.Deriv
import Mathlib.Algebra.BigOperators.Group.Finset.Basic
/-!
# The textbook LSTM

Vectors are functions of the number of the entry; only the entries below the width matter.
-/
namespace Thinc.Spec

/-- The weights of one cell: for each gate (0 forget, 1 input, 2 output, 3 candidate) and unit the weights of the inputs and of the
hidden units, and two biases. -/
structure CellWeights where
  Wx : ℕ → ℕ → ℕ → ℝ
  bx : ℕ → ℕ → ℝ
  Wh : ℕ → ℕ → ℕ → ℝ
  bh : ℕ → ℕ → ℝ

/-- The logistic function. -/
noncomputable def logit (x : ℝ) : ℝ := 1 / (1 + Real.exp (-x))

/-- The activation of a gate. -/
noncomputable def gate (w : CellWeights) (nI nO : ℕ) (h x : ℕ → ℝ) (g o : ℕ) : ℝ :=
  ∑ k ∈ Finset.range nI, w.Wx g o k * x k + w.bx g o + (∑ k ∈ Finset.range nO, w.Wh g o k * h k + w.bh g o)

/-- One step: from the hidden and cell state to the next ones.
`c' = f * c + i * tanh(a)` and `h' = o * tanh(c')`. -/
noncomputable def lstmCell (w : CellWeights) (nI nO : ℕ) (s : (ℕ → ℝ) × (ℕ → ℝ)) (x : ℕ → ℝ) : (ℕ → ℝ) × (ℕ → ℝ) :=
  let c := fun u => logit (gate w nI nO s.1 x 0 u) * s.2 u + logit (gate w nI nO s.1 x 1 u) * Real.tanh (gate w nI nO s.1 x 3 u)
  (fun u => logit (gate w nI nO s.1 x 2 u) * Real.tanh (c u), c)

/-- The states after reading a sequence. -/
noncomputable def lstmRead (w : CellWeights) (nI nO : ℕ) (s : (ℕ → ℝ) × (ℕ → ℝ)) (xs : List (ℕ → ℝ)) : (ℕ → ℝ) × (ℕ → ℝ) :=
  xs.foldl (lstmCell w nI nO) s

/-- The output at position `t`: the hidden state after reading the sequence from the left up to and including `t`, or, in the
other direction, from the right down to and including `t`. -/
noncomputable def lstmOutput (rev : Bool) (w : CellWeights) (nI nO : ℕ) (s : (ℕ → ℝ) × (ℕ → ℝ)) (xs : List (ℕ → ℝ)) (t : ℕ) : ℕ → ℝ :=
  (lstmRead w nI nO s (if rev then (xs.drop t).reverse else xs.take (t + 1))).1

/-- One layer: at every position the outputs of the directions side by side. -/
noncomputable def lstmLayer (w : ℕ → CellWeights) (s : ℕ → (ℕ → ℝ) × (ℕ → ℝ)) (nI nO : ℕ) (xs : List (ℕ → ℝ)) : List (ℕ → ℝ) :=
  (List.range xs.length).map fun t k => lstmOutput (k / nO ≠ 0) (w (k / nO)) nI nO (s (k / nO)) xs t (k % nO)

/-- The width of the input of layer `i`. -/
def layerWidth (nI nO dirs i : ℕ) : ℕ := if i = 0 then nI else dirs * nO

/-- The first `depth` layers, one after the other. -/
noncomputable def lstmStack (w : ℕ → ℕ → CellWeights) (s : ℕ → ℕ → (ℕ → ℝ) × (ℕ → ℝ)) (nI nO dirs : ℕ) (xs : List (ℕ → ℝ)) :
    ℕ → List (ℕ → ℝ)
  | 0 => xs
  | i + 1 => lstmLayer (w i) (s i) (layerWidth nI nO dirs i) nO (lstmStack w s nI nO dirs xs i)

/-- The number of parameters of one direction of a layer. -/
def cellSize (nI nO : ℕ) : ℕ := 4 * nO * nI + 4 * nO + (4 * nO * nO + 4 * nO)

/-- Where the parameters of direction `d` of layer `i` start. -/
def cellStart (nI nO dirs : ℕ) : ℕ → ℕ → ℕ
  | 0, d => d * cellSize nI nO
  | i + 1, d => cellStart nI nO dirs i dirs + d * cellSize (dirs * nO) nO

/-- The weights of a cell in the flat array of parameters: for the four gates the matrices of input weights, then the biases,
then the matrices of hidden weights, then the biases again. -/
def cellWeights (params : ℕ → ℝ) (start nI nO : ℕ) : CellWeights where
  Wx g o k := params (start + ((g * nO + o) * nI + k))
  bx g o := params (start + 4 * nO * nI + (g * nO + o))
  Wh g o k := params (start + 4 * nO * nI + 4 * nO + ((g * nO + o) * nO + k))
  bh g o := params (start + 4 * nO * nI + 4 * nO + 4 * nO * nO + (g * nO + o))

/-- The initial states of direction `d` of layer `i`, stored with the shape (depth, dirs, nO). -/
def initStates (h c : ℕ → ℝ) (dirs nO i d : ℕ) : (ℕ → ℝ) × (ℕ → ℝ) :=
  (fun o => h ((i * dirs + d) * nO + o), fun o => c ((i * dirs + d) * nO + o))

/-- The weights of all cells. -/
def stackWeights (params : ℕ → ℝ) (nI nO dirs i d : ℕ) : CellWeights :=
  cellWeights params (cellStart nI nO dirs i d) (layerWidth nI nO dirs i) nO

/-- The row of sequence `b` at time `t` in a packed batch with `sizes[t]` active sequences at time `t`. -/
def packedRow (sizes : List ℕ) (t b : ℕ) : ℕ := (sizes.take t).sum + b

/-- The length of sequence `b`: the number of time steps at which it is active. -/
def packedLength (sizes : List ℕ) (b : ℕ) : ℕ := sizes.countP fun n => b < n

/-- The inputs of sequence `b`. -/
def packedSeq (sizes : List ℕ) (X : ℕ → ℕ → ℝ) (b : ℕ) : List (ℕ → ℝ) :=
  (List.range (packedLength sizes b)).map fun t => X (packedRow sizes t b)

/-- The outputs of the whole network for one sequence, as lists. -/
noncomputable def lstmSeq (params h c : ℕ → ℝ) (nI nO dirs depth : ℕ) (xs : List (List ℝ)) : List (List ℝ) :=
  (lstmStack (stackWeights params nI nO dirs) (initStates h c dirs nO) nI nO dirs (xs.map fun r k => r.getD k 0) depth).map
    fun f => (List.range (dirs * nO)).map f

end Thinc.Spec
