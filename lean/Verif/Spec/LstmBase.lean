import Verif.Spec.Lstm
/-!
# The textbook LSTM with another function for the gates

The same network as in `Verif.Spec.Lstm`, with `σ` in the place of the logistic function.
-/
namespace Thinc.Spec

/-- The logistic function of the argument clipped to [-20, 20]. -/
noncomputable def clippedLogit (x : ℝ) : ℝ := logit (min (max x (-20)) 20)

/-- One step. -/
noncomputable def lstmCellWith (σ : ℝ → ℝ) (w : CellWeights) (nI nO : ℕ) (s : (ℕ → ℝ) × (ℕ → ℝ)) (x : ℕ → ℝ) : (ℕ → ℝ) × (ℕ → ℝ) :=
  let c := fun u => σ (gate w nI nO s.1 x 0 u) * s.2 u + σ (gate w nI nO s.1 x 1 u) * Real.tanh (gate w nI nO s.1 x 3 u)
  (fun u => σ (gate w nI nO s.1 x 2 u) * Real.tanh (c u), c)

/-- The states after reading a sequence. -/
noncomputable def lstmReadWith (σ : ℝ → ℝ) (w : CellWeights) (nI nO : ℕ) (s : (ℕ → ℝ) × (ℕ → ℝ)) (xs : List (ℕ → ℝ)) :
    (ℕ → ℝ) × (ℕ → ℝ) := xs.foldl (lstmCellWith σ w nI nO) s

/-- The output at position `t`. -/
noncomputable def lstmOutputWith (σ : ℝ → ℝ) (rev : Bool) (w : CellWeights) (nI nO : ℕ) (s : (ℕ → ℝ) × (ℕ → ℝ)) (xs : List (ℕ → ℝ)) (t : ℕ) :
    ℕ → ℝ := (lstmReadWith σ w nI nO s (if rev then (xs.drop t).reverse else xs.take (t + 1))).1

/-- One layer. -/
noncomputable def lstmLayerWith (σ : ℝ → ℝ) (w : ℕ → CellWeights) (s : ℕ → (ℕ → ℝ) × (ℕ → ℝ)) (nI nO : ℕ) (xs : List (ℕ → ℝ)) :
    List (ℕ → ℝ) :=
  (List.range xs.length).map fun t k => lstmOutputWith σ (k / nO ≠ 0) (w (k / nO)) nI nO (s (k / nO)) xs t (k % nO)

/-- The first `depth` layers. -/
noncomputable def lstmStackWith (σ : ℝ → ℝ) (w : ℕ → ℕ → CellWeights) (s : ℕ → ℕ → (ℕ → ℝ) × (ℕ → ℝ)) (nI nO dirs : ℕ) (xs : List (ℕ → ℝ)) :
    ℕ → List (ℕ → ℝ)
  | 0 => xs
  | i + 1 => lstmLayerWith σ (w i) (s i) (layerWidth nI nO dirs i) nO (lstmStackWith σ w s nI nO dirs xs i)

end Thinc.Spec
