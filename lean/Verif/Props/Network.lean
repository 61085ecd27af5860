import Verif.Spec.Network
import Verif.Props.Chain
import Verif.Props.AddLayer
import Verif.Props.Concatenate
import Verif.Props.Combinators
import Verif.Props.Dense
/-!
# C71: networks have exact gradients
-/
namespace Thinc
open Spec

section
variable {N : ℕ} {sh : Fin N → ℕ × ℕ} {n : ℕ}

theorem exact_congr {E F : Type} [NormedAddCommGroup E] [NormedSpace ℝ E] [Tensor E] [NormedAddCommGroup F]
    [NormedSpace ℝ F] [Tensor F] {L : Layer} {train : Bool} {K : Kind E} {M : Kind F} {f g : Params sh × E → F}
    {θ : Params sh} {x : E} (h : Exact L train K M f θ x) (e : ∀ p, f p = g p) : Exact L train K M g θ x := by
  obtain rfl : f = g := funext e
  exact h

variable (train : Bool) (θ : Params sh)

mutual
theorem net_exact : ∀ {i o : ℕ} (a : Net sh n i o) (x : Fin n → Fin i → ℝ), a.Regular train θ x →
    Exact a.layer train (Kind.arr n i) (Kind.arr n o) (fun p => a.fn p.1 p.2) θ x
  | _, _, .linear W b hW hb, x, _ => by
    rw [Net.layer]
    exact exact_congr (C56_linear W b hW hb train θ x) fun p => by rw [Net.fn]
  | _, _, .relu W b hW hb, x, h => by
    rw [Net.Regular] at h
    rw [Net.layer]
    exact exact_congr (C72_relu W b hW hb train θ x h) fun p => by rw [Net.fn]
  | _, _, .other L f, x, h => by
    rw [Net.Regular] at h
    rw [Net.layer]
    exact exact_congr h fun p => by rw [Net.fn]
  | _, _, .noop i, x, _ => by
    rw [Net.layer]
    exact exact_congr (C54_noop (Kind.arr n i) x) fun p => by rw [Net.fn]
  | _, _, .chain p, x, h => by
    rw [Net.Regular] at h
    rw [Net.layer]
    exact exact_congr (C51_chain (pipe_exact p x h)) fun q => by rw [Net.fn]
  | _, _, .add t, x, h => by
    rw [Net.Regular] at h
    rw [Net.layer]
    obtain ⟨fs, hne, hfs, e⟩ := terms_exact t x h
    exact exact_congr (C52_add hne hfs) fun q => by rw [Net.fn, e]
  | _, _, .concatenate c, x, h => by
    rw [Net.Regular] at h
    rw [Net.layer]
    exact exact_congr (C53_arrays (columns_exact c x h)) fun q => by rw [Net.fn]
  | _, _, .residual a, x, h => by
    rw [Net.Regular] at h
    rw [Net.layer]
    exact exact_congr (C54_residual_arrays (net_exact a x h)) fun q => by rw [Net.fn]
theorem pipe_exact : ∀ {i o : ℕ} (p : Pipe sh n i o) (x : Fin n → Fin i → ℝ), p.Regular train θ x →
    ExactChain train θ p.layers (Kind.arr n i) (Kind.arr n o) (fun q => p.fn q.1 q.2) x
  | _, _, .one a, x, h => by
    rw [Pipe.Regular] at h
    rw [Pipe.layers]
    exact .one (exact_congr (net_exact a x h) fun q => by rw [Pipe.fn])
  | _, _, .cons a p, x, h => by
    rw [Pipe.Regular] at h
    rw [Pipe.layers]
    have := ExactChain.cons (net_exact a x h.1) (pipe_exact p (a.fn θ x) h.2)
    simpa only [Pipe.fn] using this
theorem terms_exact : ∀ {i o : ℕ} (t : Terms sh n i o) (x : Fin n → Fin i → ℝ), t.Regular train θ x →
    ∃ fs : List (Params sh × (Fin n → Fin i → ℝ) → Fin n → Fin o → ℝ), t.layers ≠ [] ∧
      List.Forall₂ (fun L f => Exact L train (Kind.arr n i) (Kind.arr n o) f θ x) t.layers fs ∧
      ∀ q : Params sh × (Fin n → Fin i → ℝ), t.fn q.1 q.2 = (fs.map fun f => f q).sum
  | _, _, .one a, x, h => by
    rw [Terms.Regular] at h
    rw [Terms.layers]
    exact ⟨[_], by simp, .cons (net_exact a x h) .nil, fun q => by rw [Terms.fn]; simp⟩
  | _, _, .cons a t, x, h => by
    rw [Terms.Regular] at h
    rw [Terms.layers]
    obtain ⟨fs, _, hfs, e⟩ := terms_exact t x h.2
    exact ⟨_ :: fs, by simp, .cons (net_exact a x h.1) hfs, fun q => by rw [Terms.fn]; simp [e]⟩
theorem columns_exact : ∀ {i o : ℕ} (c : Columns sh n i o) (x : Fin n → Fin i → ℝ), c.Regular train θ x →
    ExactColumns train θ n (Kind.arr n i) (Kind.arr n) x c.layers o (fun q => c.fn q.1 q.2)
  | _, _, .one a, x, h => by
    rw [Columns.Regular] at h
    rw [Columns.layers]
    exact .one (exact_congr (net_exact a x h) fun q => by rw [Columns.fn])
  | _, _, .cons a c, x, h => by
    rw [Columns.Regular] at h
    rw [Columns.layers]
    have := ExactColumns.cons (net_exact a x h.1) (columns_exact c x h.2)
    simpa only [Columns.fn] using this
end

end

/-- Every network computes the function it stands for, with exact gradients for the input and for all
parameters, also those used in several places. -/
theorem C71_network {N : ℕ} {sh : Fin N → ℕ × ℕ} {n i o : ℕ} (net : Net sh n i o) (train : Bool) (θ : Params sh)
    (x : Fin n → Fin i → ℝ) (h : net.Regular train θ x) :
    Exact net.layer train (Kind.arr n i) (Kind.arr n o) (fun p => net.fn p.1 p.2) θ x := net_exact train θ net x h

/-! ### A network with residual connections, shared parameters and two columns -/

/-- `chain(Linear, residual(add(Relu, Linear)), concatenate(Linear, noop))`; all parameters are shared. -/
def exNet (n : ℕ) : Net exShape n 1 2 :=
  .chain (.cons (.linear 0 1 rfl rfl)
    (.cons (.residual (.add (.cons (.relu 0 1 rfl rfl) (.one (.linear 0 1 rfl rfl)))))
      (.one (.concatenate (.cons (.linear 0 1 rfl rfl) (.one (.noop 1)))))))

/-- It is the model that the expression in thinc builds. -/
theorem exNet_layer (n : ℕ) : (exNet n).layer =
    chain [linear 0 1, residual (addLayers [reluLayer 0 1, linear 0 1]), concatenate [linear 0 1, noop]] := by
  simp only [exNet, Net.layer, Pipe.layers, Terms.layers, Columns.layers]
  rfl

theorem exNet_regular : (exNet 1).Regular true exParams (fun _ _ => 3) := by
  simp only [exNet, Net.Regular, Pipe.Regular, Terms.Regular, Columns.Regular, true_and, and_true]
  intro r c
  simp only [Net.fn]
  have e : affine (fun (_ : Fin 1) (_ : Fin 1) => (3 : ℝ)) (exParams.get 0 rfl) (exParams.vec 1 rfl) = fun _ _ => 7 := by
    funext i j
    exact exAffine i j
  rw [e]
  simp only [affine, Params.get, Params.vec, exParams, Finset.univ_unique, Finset.sum_singleton]
  norm_num

example : Exact (chain [linear 0 1, residual (addLayers [reluLayer 0 1, linear 0 1]), concatenate [linear 0 1, noop]])
    true (Kind.arr 1 1) (Kind.arr 1 2) (fun p => (exNet 1).fn p.1 p.2) exParams (fun _ _ => 3) := by
  rw [← exNet_layer 1]
  exact C71_network (exNet 1) true exParams _ exNet_regular

/-- Its function is not trivial: for the input 3 the second pre-activation is 15 and the output is (75, 37). -/
example : (exNet 1).fn exParams (fun _ _ => 3) = fun _ => Fin.append (fun _ : Fin 1 => 75) (fun _ : Fin 1 => 37) := by
  have e : ∀ c : ℝ, affine (fun (_ : Fin 1) (_ : Fin 1) => c) (exParams.get 0 rfl) (exParams.vec 1 rfl) = fun _ _ => c * 2 + 1 := by
    intro c
    funext i j
    simp [affine, Params.get, Params.vec, exParams]
  have h : ((fun (_ : Fin 1) (_ : Fin 1) => (3 : ℝ) * 2 + 1) + ((fun r c => max (((3 : ℝ) * 2 + 1) * 2 + 1) 0) +
      fun _ _ => ((3 : ℝ) * 2 + 1) * 2 + 1)) = fun _ _ => 37 := by
    funext r c
    simp only [Pi.add_apply]
    rw [max_eq_left (by norm_num)]
    norm_num
  simp only [exNet, Net.fn, Pipe.fn, Terms.fn, Columns.fn, e, h]
  norm_num

end Thinc
