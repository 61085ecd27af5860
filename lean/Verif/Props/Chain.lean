import Verif.Lemmas.Layer
/-!
# C51: chain

`chain` composes layers: the outputs are passed on from left to right and the gradients from right to
left.  If the layers are exact (`Spec.Exact`: output and gradients of a mathematical function of the
parameters and the input), so is the chain, at any length, nesting and sharing of parameters.
-/
namespace Thinc
open Spec Spec.Tensor

theorem chainLoop_acc (train : Bool) (P : ParamVals) (Ls : List Layer) (X : Val) (acc : List Callback) :
    chainLoop train P Ls X acc = (do
      let (Y, cbs) ← chainLoop train P Ls X []
      return (Y, acc ++ cbs)) := by
  induction Ls generalizing X acc with
  | nil => simp [chainLoop, bind, Except.bind, pure, Except.pure]
  | cons L Ls ih =>
    simp only [chainLoop]
    cases L train P X with
    | error e => rfl
    | ok r =>
      simp only [bind, Except.bind, List.nil_append]
      rw [ih, ih r.1 [r.2]]
      cases chainLoop train P Ls r.1 [] with
      | error e => rfl
      | ok q => simp [bind, Except.bind, pure, Except.pure]

theorem forM'_single {σ β : Type} (f : σ → β → Except PyErr σ) (b : β) (s : σ) : forM' [b] s f = f s b := by
  simp only [forM']
  cases f s b <;> rfl

/-- A chain of one layer is that layer. -/
theorem C51_one (L : Layer) : chain [L] = L := by
  funext train P X
  simp only [chain, chainLoop, List.isEmpty_cons, Bool.false_eq_true, if_false]
  cases L train P X with
  | error e => rfl
  | ok r =>
    obtain ⟨Y, cb⟩ := r
    simp only [bind, Except.bind, List.nil_append, List.reverse_singleton, pure, Except.pure]
    congr 2
    funext dY G
    rw [forM'_single]

/-- Any list of layers, whatever they do: the first layer is called with the input, the rest of the
chain with its output; the callback first runs the callback of the rest and then that of the first layer.
If one of them raises, the exception is passed on and nothing after it is called. -/
theorem C51_composes (L : Layer) (Ls : List Layer) (hLs : Ls ≠ []) (train : Bool) (P : ParamVals) (X : Val) :
    chain (L :: Ls) train P X = (do
      let (Y, first) ← L train P X
      let (Z, rest) ← chain Ls train P Y
      return (Z, fun dZ G => do
        let (dY, G) ← rest dZ G
        first dY G)) := by
  have hE : Ls.isEmpty = false := by cases Ls with | nil => exact absurd rfl hLs | cons => rfl
  simp only [chain, chainLoop, List.isEmpty_cons, Bool.false_eq_true, if_false, hE]
  cases L train P X with
  | error e => rfl
  | ok r =>
    obtain ⟨Y, cb⟩ := r
    simp only [bind, Except.bind, List.nil_append, pure, Except.pure]
    rw [chainLoop_acc]
    cases chainLoop train P Ls Y [] with
    | error e => rfl
    | ok q =>
      obtain ⟨Z, cbs⟩ := q
      simp only [bind, Except.bind, pure, Except.pure]
      congr 2
      funext dZ G
      rw [List.singleton_append, List.reverse_cons, forM'_append]
      cases forM' cbs.reverse (dZ, G) (fun x callback => callback x.1 x.2) with
      | error e => rfl
      | ok s => exact forM'_single _ _ _

section
variable {N : ℕ} {sh : Fin N → ℕ × ℕ} {E F H : Type}
  [NormedAddCommGroup E] [NormedSpace ℝ E] [Tensor E] [NormedAddCommGroup F] [NormedSpace ℝ F] [Tensor F]
  [NormedAddCommGroup H] [NormedSpace ℝ H] [Tensor H]

theorem IsVJP_chain {f : Params sh × E → F} {g : Params sh × F → H} {θ : Params sh} {x : E}
    {bf : F → Params sh × E} {bg : H → Params sh × F} (hg : IsVJP g (θ, f (θ, x)) bg) (hf : IsVJP f (θ, x) bf) :
    IsVJP (fun p => g (p.1, f p)) (θ, x) (fun dy => ((bg dy).1 + (bf (bg dy).2).1, (bf (bg dy).2).2)) := by
  refine IsVJP_congr₂ (IsVJP_comp (f := fun p : Params sh × E => (p.1, f p)) (g := g) hg
    (IsVJP_prod (IsVJP_fst _) hf)) (fun _ => rfl) fun dy => ?_
  ext1 <;> simp

theorem Spec.Exact.comp {L : Layer} {Ls : List Layer} (hLs : Ls ≠ []) {train : Bool} {K : Kind E} {M : Kind F}
    {O : Kind H} {f : Params sh × E → F} {g : Params sh × F → H} {θ : Params sh} {x : E}
    (hf : Exact L train K M f θ x) (hg : Exact (chain Ls) train M O g θ (f (θ, x))) :
    Exact (chain (L :: Ls)) train K O (fun p => g (p.1, f p)) θ x := by
  intro P v hP hv
  obtain ⟨v1, cb1, b1, e1, hv1, hb1, hc1⟩ := hf P v hP hv
  obtain ⟨v2, cb2, b2, e2, hv2, hb2, hc2⟩ := hg P v1 hP hv1
  refine ⟨v2, fun dZ G => (do
      let (dY, G) ← cb2 dZ G
      cb1 dY G), _, ?_, hv2, IsVJP_chain hb2 hb1, ?_⟩
  · rw [C51_composes L Ls hLs, e1]
    simp only [bind, Except.bind, e2]
    rfl
  · intro dv dy G g hdv hG
    obtain ⟨dv1, G1, h1, hk1, hG1⟩ := hc2 dv dy G g hdv hG
    obtain ⟨dv2, G2, h2, hk2, hG2⟩ := hc1 dv1 _ G1 _ hk1 hG1
    refine ⟨dv2, G2, ?_, hk2, ?_⟩
    · simp only [bind, Except.bind, h1, h2]
    · rw [← add_assoc]
      exact hG2

end

/-- A chain of exact layers is exact: it computes the composition of their functions, and its callback
gives the exact gradients for the input and for all parameters, including those that several layers
share. -/
theorem C51_chain {N : ℕ} {sh : Fin N → ℕ × ℕ} {E F : Type}
    [NormedAddCommGroup E] [NormedSpace ℝ E] [Tensor E] [NormedAddCommGroup F] [NormedSpace ℝ F] [Tensor F]
    {train : Bool} {θ : Params sh} {Ls : List Layer} {K : Kind E} {M : Kind F} {f : Params sh × E → F} {x : E}
    (h : ExactChain train θ Ls K M f x) : Exact (chain Ls) train K M f θ x := by
  induction h with
  | one h => rw [C51_one]; exact h
  | cons h1 h2 ih =>
    refine Spec.Exact.comp ?_ h1 ih
    cases h2 <;> simp

end Thinc
