import Verif.Spec.Lstm
/-!
# What the backward pass of an LSTM should compute
-/
namespace Thinc.Spec

/-- The outputs of the network for one sequence, weighted by `dys` and added up.  Its partial derivatives are what the backward pass
should return for the gradient `dys` of the outputs. -/
noncomputable def seqLoss (params h c : ℕ → ℝ) (nI nO dirs depth : ℕ) (dys : ℕ → ℕ → ℝ) (xs : List (ℕ → ℝ)) : ℝ :=
  ∑ t ∈ Finset.range xs.length, ∑ k ∈ Finset.range (dirs * nO),
    dys t k * (lstmStack (stackWeights params nI nO dirs) (initStates h c dirs nO) nI nO dirs xs depth).getD t 0 k

/-- The sequence with entry `i` at position `t` replaced. -/
def setInput (xs : List (ℕ → ℝ)) (t i : ℕ) (u : ℝ) : List (ℕ → ℝ) := xs.set t (Function.update (xs.getD t 0) i u)

/-- The parameters of a cell, with the second bias added to the first one and replaced by zeros. -/
def mergedCell (params : ℕ → ℝ) (start nI nO : ℕ) : List ℝ :=
  ((List.range (4 * nO * nI)).map fun j => params (start + j)) ++
  ((List.range (4 * nO)).map fun j => params (start + 4 * nO * nI + j) + params (start + 4 * nO * nI + 4 * nO + 4 * nO * nO + j)) ++
  ((List.range (4 * nO * nO)).map fun j => params (start + 4 * nO * nI + 4 * nO + j)) ++ List.replicate (4 * nO) 0

/-- The same for all cells. -/
def mergedParams (params : ℕ → ℝ) (nI nO dirs depth : ℕ) : List ℝ :=
  (List.range depth).flatMap fun i => (List.range dirs).flatMap fun d =>
    mergedCell params (cellStart nI nO dirs i d) (layerWidth nI nO dirs i) nO

end Thinc.Spec
