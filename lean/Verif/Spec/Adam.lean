import Verif.Spec.Sgd
import Verif.Model.Optimizer
/-!
# Adam, with L2 regularisation, weight decay, gradient clipping and averages
-/
namespace Thinc.Spec
open BigOperators

/-- The hyperparameters of one step for one parameter. -/
structure Hyper where
  lr : ℝ
  b1 : ℝ
  b2 : ℝ
  eps : ℝ
  L2 : ℝ
  clip : ℝ

/-- A parameter under training: its value, the two moments, the running average of its values and the number of steps. -/
structure Var (n m : ℕ) where
  w : Fin n → Fin m → ℝ
  m1 : Fin n → Fin m → ℝ
  m2 : Fin n → Fin m → ℝ
  avg : Fin n → Fin m → ℝ
  count : ℕ

/-- A parameter that has not been trained yet. -/
def Var.fresh {n m : ℕ} (w : Fin n → Fin m → ℝ) : Var n m := ⟨w, 0, 0, 0, 0⟩

/-- The gradient with the L2 penalty added, unless that is done by decaying the weights, and clipped. -/
noncomputable def penalised {n m : ℕ} (h : Hyper) (decay : Bool) (w g : Fin n → Fin m → ℝ) : Fin n → Fin m → ℝ :=
  clipTo h.clip (if decay then g else g + h.L2 • w)

/-- The decay of the running average at step number `t`. -/
noncomputable def averageDecay (t : ℕ) : ℝ := min ((1 + t) / (10 + t)) 0.9999

/-- The parameter after a step to `w`, with new moments: decay the weights, update the average and count the step. -/
noncomputable def Var.finish {n m : ℕ} (h : Hyper) (decay : Bool) (s : Var n m) (w m1 m2 : Fin n → Fin m → ℝ) : Var n m :=
  let w' := if decay then (1 - h.lr * h.L2) • w else w
  let d := averageDecay (s.count + 1)
  ⟨w', m1, m2, d • s.avg + (1 - d) • w', s.count + 1⟩

/-- One step of Adam (Kingma and Ba 2015, algorithm 1 in the form at the end of its section 2). -/
noncomputable def Var.adam {n m : ℕ} (h : Hyper) (decay : Bool) (s : Var n m) (g : Fin n → Fin m → ℝ) : Var n m :=
  let e := penalised h decay s.w g
  let m1 := fun i j => h.b1 * s.m1 i j + (1 - h.b1) * e i j
  let m2 := fun i j => h.b2 * s.m2 i j + (1 - h.b2) * e i j ^ 2
  let t := s.count + 1
  let w := fun i j => s.w i j - h.lr * Real.sqrt (1 - h.b2 ^ t) / (1 - h.b1 ^ t) * (m1 i j / (Real.sqrt (m2 i j) + h.eps))
  s.finish h decay w m1 m2

/-- One step of gradient descent. -/
noncomputable def Var.sgd {n m : ℕ} (h : Hyper) (decay : Bool) (s : Var n m) (g : Fin n → Fin m → ℝ) : Var n m :=
  s.finish h decay (s.w - h.lr • penalised h decay s.w g) s.m1 s.m2

/-- One step: Adam if both betas are positive, gradient descent if they are not. -/
noncomputable def Var.step {n m : ℕ} (h : Hyper) (decay : Bool) (s : Var n m) (g : Fin n → Fin m → ℝ) : Var n m :=
  open Classical in if 0 < h.b1 ∧ 0 < h.b2 then s.adam h decay g else s.sgd h decay g

section
variable {N : ℕ} {sh : Fin N → ℕ × ℕ}

/-- All parameters under training. -/
abbrev Vars (sh : Fin N → ℕ × ℕ) := (p : Fin N) → Var (sh p).1 (sh p).2

/-- The values of the parameters. -/
def Vars.weights (S : Vars sh) : Params sh := fun p => (S p).w

/-- One step of every parameter on its part of the gradient of the summed losses. -/
noncomputable def Vars.iterate (hyper : Fin N → Hyper) (decay : Bool) (S : Vars sh) (losses : List (Params sh → ℝ)) : Vars sh :=
  fun p => (S p).step (hyper p) decay (totalGradient losses S.weights p)

/-- Iterations number `k`, `k + 1`, ..., each on the sum of its losses. -/
noncomputable def Vars.train (hyper : ℕ → Fin N → Hyper) (decay : Bool) : ℕ → Vars sh → List (List (Params sh → ℝ)) → Vars sh
  | _, S, [] => S
  | k, S, losses :: rest => Vars.train hyper decay (k + 1) (S.iterate (hyper k) decay losses) rest

/-- As `Takes`; and the callback leaves a gradient for every parameter, be it zero. -/
def TakesFully (L : Layer) (θ : Params sh) (b : Batch sh) : Prop :=
  ∀ P, IsParams P θ → ∃ Y callback D back,
    L true P b.input = .ok (Y, callback) ∧ b.lossGrad Y = .ok D ∧ IsVJP b.loss θ back ∧
    ∀ G g, IsGrads G g → ∃ dv G', callback D G = .ok (dv, G') ∧ IsGrads G' (g + back 1) ∧ ∀ p : Fin N, G' p ≠ none

/-- In every iteration there is a batch, and the layer takes all batches with the parameters it has when they come. -/
def TakesEvery (L : Layer) (hyper : ℕ → Fin N → Hyper) (decay : Bool) : ℕ → Vars sh → List (List (Batch sh)) → Prop
  | _, _, [] => True
  | k, S, bs :: rest => bs ≠ [] ∧ (∀ b ∈ bs, TakesFully L S.weights b) ∧
      TakesEvery L hyper decay (k + 1) (S.iterate (hyper k) decay (bs.map Batch.loss)) rest
end

/-- A callback of the layer never drops a gradient and leaves one for each of the parameters `ps`. -/
def Fills (L : Layer) (ps : List ℕ) : Prop :=
  ∀ train P v Y callback, L train P v = .ok (Y, callback) → ∀ D G dv G', callback D G = .ok (dv, G') →
    (∀ q, G q ≠ none → G' q ≠ none) ∧ ∀ q ∈ ps, G' q ≠ none

/-- The entries of an array, one row after the other. -/
def IsFlat {n m : ℕ} (l : List ℝ) (x : Fin n → Fin m → ℝ) : Prop :=
  l.length = n * m ∧ ∀ (i : Fin n) (j : Fin m), l[(i : ℕ) * m + j]? = some (x i j)

/-- What the optimizer remembers of a parameter.  What it does not have yet counts as zero. -/
structure Remembers {κ : Type} [DecidableEq κ] {n m : ℕ} (st : OptState κ) (key : κ) (v : Var n m) : Prop where
  count : (st.nrUpdate.get? key).getD 0 = v.count
  m1 : IsFlat ((st.mom1.get? key).getD (List.replicate (n * m) 0)) v.m1
  m2 : IsFlat ((st.mom2.get? key).getD (List.replicate (n * m) 0)) v.m2
  avg : ∀ avgs, st.averages = some avgs → IsFlat ((avgs.get? key).getD (List.replicate (n * m) 0)) v.avg

/-- Different nodes have different ids. -/
def DistinctIds {V A : Type} (h : Heap V A) (root : Addr) : Prop :=
  ∀ a b n m, Reachable h root a → Reachable h root b → h[a]? = some n → h[b]? = some m → n.id = m.id → a = b

end Thinc.Spec
