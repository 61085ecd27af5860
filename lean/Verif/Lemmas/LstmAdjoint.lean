import Verif.Spec.Lstm
import Mathlib.Analysis.SpecialFunctions.Trigonometric.DerivHyp
import Mathlib.Algebra.BigOperators.Fin
/-!
# The derivative of the textbook LSTM, read backwards
-/
namespace Thinc
open Spec

variable (w : CellWeights) (nI nO : ℕ)

/-- The derivative that reaches the cell state. -/
noncomputable def adjCell (st : (ℕ → ℝ) × (ℕ → ℝ)) (x : ℕ → ℝ) (a : (ℕ → ℝ) × (ℕ → ℝ)) (o : ℕ) : ℝ :=
  a.2 o + a.1 o * logit (gate w nI nO st.1 x 2 o) * (1 - Real.tanh ((lstmCell w nI nO st x).2 o) ^ 2)

/-- The derivative that reaches gate `g` of unit `o` when reading `x` in state `st`, from the derivatives `a` of the new state. -/
noncomputable def adjGate (st : (ℕ → ℝ) × (ℕ → ℝ)) (x : ℕ → ℝ) (a : (ℕ → ℝ) × (ℕ → ℝ)) (g o : ℕ) : ℝ :=
  if g = 0 then adjCell w nI nO st x a o * st.2 o * (logit (gate w nI nO st.1 x 0 o) * (1 - logit (gate w nI nO st.1 x 0 o)))
  else if g = 1 then adjCell w nI nO st x a o * Real.tanh (gate w nI nO st.1 x 3 o) *
    (logit (gate w nI nO st.1 x 1 o) * (1 - logit (gate w nI nO st.1 x 1 o)))
  else if g = 2 then a.1 o * Real.tanh ((lstmCell w nI nO st x).2 o) *
    (logit (gate w nI nO st.1 x 2 o) * (1 - logit (gate w nI nO st.1 x 2 o)))
  else adjCell w nI nO st x a o * logit (gate w nI nO st.1 x 1 o) * (1 - Real.tanh (gate w nI nO st.1 x 3 o) ^ 2)

/-- The derivatives of the state `st`, whose outputs have the gradient `dy` and after which the inputs of `rest` follow, with the
gradients of their outputs. -/
noncomputable def adj : (ℕ → ℝ) × (ℕ → ℝ) → (ℕ → ℝ) → List ((ℕ → ℝ) × (ℕ → ℝ)) → (ℕ → ℝ) × (ℕ → ℝ)
  | _, dy, [] => (dy, fun _ => 0)
  | st, dy, (x, dy') :: rest =>
    let a := adj (lstmCell w nI nO st x) dy' rest
    (fun j => dy j + ∑ o ∈ Finset.range nO, ∑ g ∈ Finset.range 4, adjGate w nI nO st x a g o * w.Wh g o j,
      fun o => adjCell w nI nO st x a o * logit (gate w nI nO st.1 x 0 o))

/-- The part of the weighted sum of outputs from this state on. -/
noncomputable def tailLoss : (ℕ → ℝ) × (ℕ → ℝ) → (ℕ → ℝ) → List ((ℕ → ℝ) × (ℕ → ℝ)) → ℝ
  | st, dy, [] => ∑ o ∈ Finset.range nO, dy o * st.1 o
  | st, dy, (x, dy') :: rest => ∑ o ∈ Finset.range nO, dy o * st.1 o + tailLoss (lstmCell w nI nO st x) dy' rest

theorem hasDerivAt_logit (x : ℝ) : HasDerivAt logit (logit x * (1 - logit x)) x := by
  have h1 : HasDerivAt (fun y : ℝ => 1 + Real.exp (-y)) (Real.exp (-x) * (-1)) x :=
    ((Real.hasDerivAt_exp (-x)).comp x (hasDerivAt_neg x)).const_add 1
  have hpos : 0 < 1 + Real.exp (-x) := by have := Real.exp_pos (-x); linarith
  have h2 := (hasDerivAt_const x (1 : ℝ)).div h1 hpos.ne'
  refine h2.congr_deriv ?_
  unfold logit
  field_simp
  ring

theorem hasDerivAt_tanh' (x : ℝ) : HasDerivAt Real.tanh (1 - Real.tanh x ^ 2) x := by
  have h : HasDerivAt (fun y => Real.sinh y / Real.cosh y) ((Real.cosh x * Real.cosh x - Real.sinh x * Real.sinh x) / Real.cosh x ^ 2) x :=
    (Real.hasDerivAt_sinh x).div (Real.hasDerivAt_cosh x) (Real.cosh_pos x).ne'
  have hf : (fun y => Real.sinh y / Real.cosh y) = Real.tanh := by funext y; rw [Real.tanh_eq_sinh_div_cosh]
  rw [hf] at h
  refine h.congr_deriv ?_
  have := (Real.cosh_pos x).ne'
  rw [Real.tanh_eq_sinh_div_cosh]
  field_simp

/-- The derivative of a gate along a curve. -/
noncomputable def gateDir (x' h' : ℕ → ℝ) (g o : ℕ) : ℝ :=
  ∑ k ∈ Finset.range nI, w.Wx g o k * x' k + ∑ k ∈ Finset.range nO, w.Wh g o k * h' k

theorem gate_curve {X H : ℝ → ℕ → ℝ} {x' h' : ℕ → ℝ} {s : ℝ} (hX : ∀ k < nI, HasDerivAt (fun u => X u k) (x' k) s)
    (hH : ∀ k < nO, HasDerivAt (fun u => H u k) (h' k) s) (g o : ℕ) :
    HasDerivAt (fun u => gate w nI nO (H u) (X u) g o) (gateDir w nI nO x' h' g o) s := by
  unfold gate gateDir
  have h1 := HasDerivAt.fun_sum (u := Finset.range nI) fun k hk => (hX k (Finset.mem_range.1 hk)).const_mul (w.Wx g o k)
  have h2 := HasDerivAt.fun_sum (u := Finset.range nO) fun k hk => (hH k (Finset.mem_range.1 hk)).const_mul (w.Wh g o k)
  exact (h1.add_const (w.bx g o)).add (h2.add_const (w.bh g o))

/-- The derivative of the new cell state along a curve. -/
noncomputable def cellDir (st : (ℕ → ℝ) × (ℕ → ℝ)) (x x' h' c' : ℕ → ℝ) (o : ℕ) : ℝ :=
  logit (gate w nI nO st.1 x 0 o) * (1 - logit (gate w nI nO st.1 x 0 o)) * gateDir w nI nO x' h' 0 o * st.2 o +
    logit (gate w nI nO st.1 x 0 o) * c' o +
    (logit (gate w nI nO st.1 x 1 o) * (1 - logit (gate w nI nO st.1 x 1 o)) * gateDir w nI nO x' h' 1 o * Real.tanh (gate w nI nO st.1 x 3 o) +
    logit (gate w nI nO st.1 x 1 o) * ((1 - Real.tanh (gate w nI nO st.1 x 3 o) ^ 2) * gateDir w nI nO x' h' 3 o))

noncomputable def hiddenDir (st : (ℕ → ℝ) × (ℕ → ℝ)) (x x' h' c' : ℕ → ℝ) (o : ℕ) : ℝ :=
  logit (gate w nI nO st.1 x 2 o) * (1 - logit (gate w nI nO st.1 x 2 o)) * gateDir w nI nO x' h' 2 o * Real.tanh ((lstmCell w nI nO st x).2 o) +
    logit (gate w nI nO st.1 x 2 o) * ((1 - Real.tanh ((lstmCell w nI nO st x).2 o) ^ 2) * cellDir w nI nO st x x' h' c' o)

theorem cell_curve {X H C : ℝ → ℕ → ℝ} {x' h' c' : ℕ → ℝ} {s : ℝ} (hX : ∀ k < nI, HasDerivAt (fun u => X u k) (x' k) s)
    (hH : ∀ k < nO, HasDerivAt (fun u => H u k) (h' k) s) (hC : ∀ k < nO, HasDerivAt (fun u => C u k) (c' k) s) (o : ℕ) (ho : o < nO) :
    HasDerivAt (fun u => (lstmCell w nI nO (H u, C u) (X u)).2 o) (cellDir w nI nO (H s, C s) (X s) x' h' c' o) s := by
  have g0 := (hasDerivAt_logit _).comp s (gate_curve w nI nO hX hH 0 o)
  have g1 := (hasDerivAt_logit _).comp s (gate_curve w nI nO hX hH 1 o)
  have g3 := (hasDerivAt_tanh' _).comp s (gate_curve w nI nO hX hH 3 o)
  exact ((g0.mul (hC o ho)).add (g1.mul g3)).congr_deriv rfl

theorem hidden_curve {X H C : ℝ → ℕ → ℝ} {x' h' c' : ℕ → ℝ} {s : ℝ} (hX : ∀ k < nI, HasDerivAt (fun u => X u k) (x' k) s)
    (hH : ∀ k < nO, HasDerivAt (fun u => H u k) (h' k) s) (hC : ∀ k < nO, HasDerivAt (fun u => C u k) (c' k) s) (o : ℕ) (ho : o < nO) :
    HasDerivAt (fun u => (lstmCell w nI nO (H u, C u) (X u)).1 o) (hiddenDir w nI nO (H s, C s) (X s) x' h' c' o) s := by
  have g2 := (hasDerivAt_logit _).comp s (gate_curve w nI nO hX hH 2 o)
  have hc := (hasDerivAt_tanh' _).comp s (cell_curve w nI nO hX hH hC o ho)
  exact (g2.mul hc).congr_deriv rfl

/-- One step backwards, as a bilinear identity. -/
theorem adj_step (st : (ℕ → ℝ) × (ℕ → ℝ)) (x x' h' c' : ℕ → ℝ) (a : (ℕ → ℝ) × (ℕ → ℝ)) :
    ∑ o ∈ Finset.range nO, a.1 o * hiddenDir w nI nO st x x' h' c' o + ∑ o ∈ Finset.range nO, a.2 o * cellDir w nI nO st x x' h' c' o =
      ∑ o ∈ Finset.range nO, ∑ g ∈ Finset.range 4, adjGate w nI nO st x a g o * gateDir w nI nO x' h' g o +
      ∑ o ∈ Finset.range nO, adjCell w nI nO st x a o * logit (gate w nI nO st.1 x 0 o) * c' o := by
  rw [← Finset.sum_add_distrib, ← Finset.sum_add_distrib]
  refine Finset.sum_congr rfl fun o _ => ?_
  simp only [Finset.sum_range_succ, Finset.sum_range_zero, adjGate, if_true, one_ne_zero, if_false, OfNat.ofNat_ne_zero, OfNat.ofNat_ne_one,
    Nat.reduceEqDiff, zero_add]
  unfold hiddenDir adjCell cellDir
  ring

theorem sum_gateDir (A : ℕ → ℕ → ℝ) (x' h' : ℕ → ℝ) :
    ∑ o ∈ Finset.range nO, ∑ g ∈ Finset.range 4, A g o * gateDir w nI nO x' h' g o =
      ∑ k ∈ Finset.range nI, (∑ o ∈ Finset.range nO, ∑ g ∈ Finset.range 4, A g o * w.Wx g o k) * x' k +
      ∑ k ∈ Finset.range nO, (∑ o ∈ Finset.range nO, ∑ g ∈ Finset.range 4, A g o * w.Wh g o k) * h' k := by
  have key : ∀ (n : ℕ) (W : ℕ → ℕ → ℕ → ℝ) (v : ℕ → ℝ),
      ∑ k ∈ Finset.range n, (∑ o ∈ Finset.range nO, ∑ g ∈ Finset.range 4, A g o * W g o k) * v k =
      ∑ o ∈ Finset.range nO, ∑ g ∈ Finset.range 4, A g o * ∑ k ∈ Finset.range n, W g o k * v k := by
    intro n W v
    simp only [Finset.sum_mul, Finset.mul_sum]
    rw [Finset.sum_comm]
    refine Finset.sum_congr rfl fun o _ => ?_
    rw [Finset.sum_comm]
    exact Finset.sum_congr rfl fun g _ => Finset.sum_congr rfl fun k _ => by ring
  rw [key, key, ← Finset.sum_add_distrib]
  refine Finset.sum_congr rfl fun o _ => ?_
  rw [← Finset.sum_add_distrib]
  exact Finset.sum_congr rfl fun g _ => by unfold gateDir; ring

theorem tailLoss_curve (rest : List ((ℕ → ℝ) × (ℕ → ℝ))) (dy : ℕ → ℝ) {H C : ℝ → ℕ → ℝ} {h' c' : ℕ → ℝ} {s : ℝ}
    (hH : ∀ k < nO, HasDerivAt (fun u => H u k) (h' k) s) (hC : ∀ k < nO, HasDerivAt (fun u => C u k) (c' k) s) :
    HasDerivAt (fun u => tailLoss w nI nO (H u, C u) dy rest)
      (∑ o ∈ Finset.range nO, (adj w nI nO (H s, C s) dy rest).1 o * h' o + ∑ o ∈ Finset.range nO, (adj w nI nO (H s, C s) dy rest).2 o * c' o) s := by
  induction rest generalizing dy H C h' c' with
  | nil =>
    have h1 := HasDerivAt.fun_sum (u := Finset.range nO) fun k hk => (hH k (Finset.mem_range.1 hk)).const_mul (dy k)
    refine h1.congr_deriv ?_
    simp [adj]
  | cons p rest ih =>
    obtain ⟨x, dy'⟩ := p
    have h1 := HasDerivAt.fun_sum (u := Finset.range nO) fun k hk => (hH k (Finset.mem_range.1 hk)).const_mul (dy k)
    have hx : ∀ k < nI, HasDerivAt (fun _ : ℝ => x k) ((fun _ => 0 : ℕ → ℝ) k) s := fun k _ => hasDerivAt_const s (x k)
    have h2 := ih dy' (H := fun u => (lstmCell w nI nO (H u, C u) x).1) (C := fun u => (lstmCell w nI nO (H u, C u) x).2)
      (fun o ho => hidden_curve w nI nO (X := fun _ => x) hx hH hC o ho) (fun o ho => cell_curve w nI nO (X := fun _ => x) hx hH hC o ho)
    refine (h1.add h2).congr_deriv ?_
    rw [adj_step, sum_gateDir]
    simp only [mul_zero, Finset.sum_const_zero, zero_add, adj]
    rw [← add_assoc, ← Finset.sum_add_distrib]
    congr 1
    exact Finset.sum_congr rfl fun k _ => by ring

/-- Changing one entry of the input read in state `st`. -/
theorem tailLoss_input (rest : List ((ℕ → ℝ) × (ℕ → ℝ))) (dy : ℕ → ℝ) (st : (ℕ → ℝ) × (ℕ → ℝ)) (x : ℕ → ℝ) (i : ℕ) (hi : i < nI) :
    HasDerivAt (fun u => tailLoss w nI nO (lstmCell w nI nO st (Function.update x i u)) dy rest)
      (∑ o ∈ Finset.range nO, ∑ g ∈ Finset.range 4, adjGate w nI nO st x (adj w nI nO (lstmCell w nI nO st x) dy rest) g o * w.Wx g o i) (x i) := by
  have hx : ∀ k < nI, HasDerivAt (fun u : ℝ => Function.update x i u k) ((fun k => if k = i then 1 else 0 : ℕ → ℝ) k) (x i) := by
    intro k _
    by_cases hk : k = i
    · subst hk
      simp only [Function.update_self, if_true]
      exact hasDerivAt_id' (x k)
    · simp only [if_neg hk]
      exact (hasDerivAt_const _ (x k)).congr_of_eventuallyEq (by
        refine Filter.Eventually.of_forall fun u => ?_
        simp [Function.update_of_ne hk])
  have hH : ∀ k < nO, HasDerivAt (fun _ : ℝ => st.1 k) ((fun _ => 0 : ℕ → ℝ) k) (x i) := fun k _ => hasDerivAt_const _ _
  have hC : ∀ k < nO, HasDerivAt (fun _ : ℝ => st.2 k) ((fun _ => 0 : ℕ → ℝ) k) (x i) := fun k _ => hasDerivAt_const _ _
  have h2 := tailLoss_curve w nI nO rest dy (H := fun u => (lstmCell w nI nO st (Function.update x i u)).1)
    (C := fun u => (lstmCell w nI nO st (Function.update x i u)).2)
    (fun o ho => hidden_curve w nI nO (H := fun _ => st.1) (C := fun _ => st.2) hx hH hC o ho)
    (fun o ho => cell_curve w nI nO (H := fun _ => st.1) (C := fun _ => st.2) hx hH hC o ho)
  have hu : Function.update x i (x i) = x := Function.update_eq_self i x
  rw [hu] at h2
  refine h2.congr_deriv ?_
  rw [adj_step, sum_gateDir]
  simp only [mul_zero, Finset.sum_const_zero, add_zero, mul_ite, mul_one, Finset.sum_ite_eq', Finset.mem_range, hi, if_true]

/-! ### The whole sequence, in reading order -/

/-- The sum over the positions is a tail. -/
theorem tailLoss_sum (rest : List ((ℕ → ℝ) × (ℕ → ℝ))) (dy : ℕ → ℝ) (st : (ℕ → ℝ) × (ℕ → ℝ)) :
    tailLoss w nI nO st dy rest = ∑ o ∈ Finset.range nO, dy o * st.1 o +
      ∑ p ∈ Finset.range rest.length, ∑ o ∈ Finset.range nO, (rest.getD p (0, 0)).2 o *
        (lstmRead w nI nO st ((rest.map Prod.fst).take (p + 1))).1 o := by
  induction rest generalizing st dy with
  | nil => simp [tailLoss]
  | cons q rest ih =>
    obtain ⟨x, dy'⟩ := q
    rw [tailLoss, ih, List.length_cons, Finset.sum_range_succ']
    simp only [List.getD_cons_zero, List.getD_cons_succ, List.map_cons, List.take_succ_cons, lstmRead, List.foldl_cons, List.take_zero, List.foldl_nil]
    ring

/-- The weighted sum of the outputs of a sequence read from the left. -/
noncomputable def readLoss (s0 : (ℕ → ℝ) × (ℕ → ℝ)) (xs : List (ℕ → ℝ)) (dys : ℕ → ℕ → ℝ) : ℝ :=
  ∑ p ∈ Finset.range xs.length, ∑ o ∈ Finset.range nO, dys p o * (lstmRead w nI nO s0 (xs.take (p + 1))).1 o

/-- The inputs after position `p` with the gradients of their outputs. -/
def after (xs : List (ℕ → ℝ)) (dys : ℕ → ℕ → ℝ) (p : ℕ) : List ((ℕ → ℝ) × (ℕ → ℝ)) :=
  (List.range (xs.length - (p + 1))).map fun j => (xs.getD (p + 1 + j) 0, dys (p + 1 + j))

theorem after_fst (xs : List (ℕ → ℝ)) (dys : ℕ → ℕ → ℝ) (p : ℕ) : (after xs dys p).map Prod.fst = xs.drop (p + 1) := by
  apply List.ext_getElem
  · simp [after]
  · intro j h1 h2
    simp only [after, List.length_map, List.length_range] at h1
    simp only [after, List.map_map, List.getElem_map, List.getElem_range, Function.comp, List.getElem_drop]
    rw [List.getD_eq_getElem?_getD, List.getElem?_eq_getElem (by omega)]
    rfl

theorem after_cons (xs : List (ℕ → ℝ)) (dys : ℕ → ℕ → ℝ) (p : ℕ) (hp : p + 1 < xs.length) :
    after xs dys p = (xs.getD (p + 1) 0, dys (p + 1)) :: after xs dys (p + 1) := by
  unfold after
  rw [show xs.length - (p + 1) = xs.length - (p + 1 + 1) + 1 by omega, List.range_succ_eq_map, List.map_cons, List.map_map]
  congr 1
  refine List.map_congr_left fun j _ => ?_
  simp only [Function.comp, Nat.succ_eq_add_one]
  rw [show p + 1 + (j + 1) = p + 1 + 1 + j by omega]

theorem after_last (xs : List (ℕ → ℝ)) (dys : ℕ → ℕ → ℝ) (p : ℕ) (hp : xs.length ≤ p + 1) : after xs dys p = [] := by
  unfold after
  rw [show xs.length - (p + 1) = 0 by omega]
  rfl

theorem after_set (xs : List (ℕ → ℝ)) (dys : ℕ → ℕ → ℝ) (p : ℕ) (v : ℕ → ℝ) : after (xs.set p v) dys p = after xs dys p := by
  unfold after
  rw [List.length_set]
  refine List.map_congr_left fun j _ => ?_
  rw [List.getD_eq_getElem?_getD, List.getD_eq_getElem?_getD, List.getElem?_set_ne (by omega)]

theorem lstmRead_append (s0 : (ℕ → ℝ) × (ℕ → ℝ)) (xs ys : List (ℕ → ℝ)) :
    lstmRead w nI nO s0 (xs ++ ys) = lstmRead w nI nO (lstmRead w nI nO s0 xs) ys := by
  unfold lstmRead
  rw [List.foldl_append]

theorem lstmRead_succ (s0 : (ℕ → ℝ) × (ℕ → ℝ)) (xs : List (ℕ → ℝ)) (p : ℕ) (hp : p < xs.length) :
    lstmRead w nI nO s0 (xs.take (p + 1)) = lstmCell w nI nO (lstmRead w nI nO s0 (xs.take p)) (xs.getD p 0) := by
  rw [List.take_add_one, List.getElem?_eq_getElem hp, lstmRead_append, List.getD_eq_getElem?_getD, List.getElem?_eq_getElem hp]
  rfl

theorem readLoss_split (s0 : (ℕ → ℝ) × (ℕ → ℝ)) (xs : List (ℕ → ℝ)) (dys : ℕ → ℕ → ℝ) (p : ℕ) (hp : p < xs.length) :
    readLoss w nI nO s0 xs dys =
      ∑ q ∈ Finset.range p, ∑ o ∈ Finset.range nO, dys q o * (lstmRead w nI nO s0 (xs.take (q + 1))).1 o +
      tailLoss w nI nO (lstmRead w nI nO s0 (xs.take (p + 1))) (dys p) (after xs dys p) := by
  unfold readLoss
  rw [tailLoss_sum, show xs.length = (p + 1) + (xs.length - (p + 1)) by omega, Finset.sum_range_add, Finset.sum_range_succ, add_assoc]
  congr 2
  have hl : (after xs dys p).length = xs.length - (p + 1) := by simp [after]
  rw [hl]
  refine Finset.sum_congr rfl fun j hj => Finset.sum_congr rfl fun o _ => ?_
  have hj' := Finset.mem_range.1 hj
  have e1 : (after xs dys p).getD j (0, 0) = (xs.getD (p + 1 + j) 0, dys (p + 1 + j)) := by
    unfold after
    rw [List.getD_eq_getElem?_getD, List.getElem?_map, List.getElem?_range hj']
    rfl
  have e2 : xs.take (p + 1 + j + 1) = xs.take (p + 1) ++ (xs.drop (p + 1)).take (j + 1) := by
    rw [show p + 1 + j + 1 = (p + 1) + (j + 1) by omega, List.take_add]
  rw [e1, after_fst, e2, lstmRead_append]

/-- The derivative of the weighted sum of the outputs with respect to one entry of the input at position `p`. -/
theorem readLoss_deriv (s0 : (ℕ → ℝ) × (ℕ → ℝ)) (xs : List (ℕ → ℝ)) (dys : ℕ → ℕ → ℝ) (p : ℕ) (hp : p < xs.length) (i : ℕ) (hi : i < nI) :
    HasDerivAt (fun u => readLoss w nI nO s0 (xs.set p (Function.update (xs.getD p 0) i u)) dys)
      (∑ o ∈ Finset.range nO, ∑ g ∈ Finset.range 4, adjGate w nI nO (lstmRead w nI nO s0 (xs.take p)) (xs.getD p 0)
        (adj w nI nO (lstmRead w nI nO s0 (xs.take (p + 1))) (dys p) (after xs dys p)) g o * w.Wx g o i) (xs.getD p 0 i) := by
  have hf : (fun u => readLoss w nI nO s0 (xs.set p (Function.update (xs.getD p 0) i u)) dys) = fun u =>
      ∑ q ∈ Finset.range p, ∑ o ∈ Finset.range nO, dys q o * (lstmRead w nI nO s0 (xs.take (q + 1))).1 o +
      tailLoss w nI nO (lstmCell w nI nO (lstmRead w nI nO s0 (xs.take p)) (Function.update (xs.getD p 0) i u)) (dys p) (after xs dys p) := by
    funext u
    rw [readLoss_split w nI nO s0 _ dys p (by rw [List.length_set]; exact hp), after_set, lstmRead_succ _ _ _ _ _ _ (by rw [List.length_set]; exact hp)]
    congr 1
    · refine Finset.sum_congr rfl fun q hq => Finset.sum_congr rfl fun o _ => ?_
      rw [List.take_set_of_le (by have := Finset.mem_range.1 hq; omega)]
    · rw [List.take_set_of_le le_rfl]
      congr 2
      rw [List.getD_eq_getElem?_getD, List.getElem?_set_self hp]
      rfl
  rw [hf, lstmRead_succ _ _ _ _ _ _ hp]
  exact (tailLoss_input w nI nO (after xs dys p) (dys p) (lstmRead w nI nO s0 (xs.take p)) (xs.getD p 0) i hi).const_add _

end Thinc
