import Verif.Model.Dense
import Verif.Props.Linear
/-!
# Networks

Expressions for networks on arrays with `n` rows.  `Net i o` are the networks with inputs of width `i`
and outputs of width `o`.  An expression stands for a layer of the model (`layer`), and it has a meaning
as a mathematical function of the parameters and the input (`fn`) that is defined without the model.
-/
namespace Thinc.Spec

mutual

/-- A network. -/
inductive Net {N : ℕ} (sh : Fin N → ℕ × ℕ) (n : ℕ) : ℕ → ℕ → Type
  /-- `Linear` with the parameters `W` and `b` -/
  | linear {i o : ℕ} (W b : Fin N) (hW : sh W = (o, i)) (hb : sh b = (1, o)) : Net sh n i o
  /-- `Relu` with the parameters `W` and `b` -/
  | relu {i o : ℕ} (W b : Fin N) (hW : sh W = (o, i)) (hb : sh b = (1, o)) : Net sh n i o
  /-- any other layer that computes the function `f` -/
  | other {i o : ℕ} (L : Layer) (f : Params sh × (Fin n → Fin i → ℝ) → Fin n → Fin o → ℝ) : Net sh n i o
  /-- `noop` -/
  | noop (i : ℕ) : Net sh n i i
  /-- `chain` -/
  | chain {i o : ℕ} : Pipe sh n i o → Net sh n i o
  /-- `add` -/
  | add {i o : ℕ} : Terms sh n i o → Net sh n i o
  /-- `concatenate` -/
  | concatenate {i o : ℕ} : Columns sh n i o → Net sh n i o
  /-- `residual` -/
  | residual {i : ℕ} : Net sh n i i → Net sh n i i

/-- One or more networks, each fed with the output of the one before. -/
inductive Pipe {N : ℕ} (sh : Fin N → ℕ × ℕ) (n : ℕ) : ℕ → ℕ → Type
  | one {i o : ℕ} : Net sh n i o → Pipe sh n i o
  | cons {i m o : ℕ} : Net sh n i m → Pipe sh n m o → Pipe sh n i o

/-- One or more networks with the same output width. -/
inductive Terms {N : ℕ} (sh : Fin N → ℕ × ℕ) (n : ℕ) : ℕ → ℕ → Type
  | one {i o : ℕ} : Net sh n i o → Terms sh n i o
  | cons {i o : ℕ} : Net sh n i o → Terms sh n i o → Terms sh n i o

/-- One or more networks whose output widths add up to `o`. -/
inductive Columns {N : ℕ} (sh : Fin N → ℕ × ℕ) (n : ℕ) : ℕ → ℕ → Type
  | one {i o : ℕ} : Net sh n i o → Columns sh n i o
  | cons {i o o' : ℕ} : Net sh n i o → Columns sh n i o' → Columns sh n i (o + o')
end

section
variable {N : ℕ} {sh : Fin N → ℕ × ℕ} {n : ℕ}

mutual
/-- The model that the constructors of thinc build. -/
noncomputable def Net.layer : {i o : ℕ} → Net sh n i o → Layer
  | _, _, .linear W b _ _ => Thinc.linear W b
  | _, _, .relu W b _ _ => Thinc.reluLayer W b
  | _, _, .other L _ => L
  | _, _, .noop _ => Thinc.noop
  | _, _, .chain p => Thinc.chain p.layers
  | _, _, .add t => Thinc.addLayers t.layers
  | _, _, .concatenate c => Thinc.concatenate c.layers
  | _, _, .residual a => Thinc.residual a.layer
noncomputable def Pipe.layers : {i o : ℕ} → Pipe sh n i o → List Layer
  | _, _, .one a => [a.layer]
  | _, _, .cons a p => a.layer :: p.layers
noncomputable def Terms.layers : {i o : ℕ} → Terms sh n i o → List Layer
  | _, _, .one a => [a.layer]
  | _, _, .cons a t => a.layer :: t.layers
noncomputable def Columns.layers : {i o : ℕ} → Columns sh n i o → List Layer
  | _, _, .one a => [a.layer]
  | _, _, .cons a c => a.layer :: c.layers
end

mutual
/-- The function that a network stands for. -/
noncomputable def Net.fn : {i o : ℕ} → Net sh n i o → Params sh → (Fin n → Fin i → ℝ) → (Fin n → Fin o → ℝ)
  | _, _, .linear W b hW hb => fun θ x => affine x (θ.get W hW) (θ.vec b hb)
  | _, _, .relu W b hW hb => fun θ x r c => max (affine x (θ.get W hW) (θ.vec b hb) r c) 0
  | _, _, .other _ f => fun θ x => f (θ, x)
  | _, _, .noop _ => fun _ x => x
  | _, _, .chain p => p.fn
  | _, _, .add t => t.fn
  | _, _, .concatenate c => c.fn
  | _, _, .residual a => fun θ x => x + a.fn θ x
noncomputable def Pipe.fn : {i o : ℕ} → Pipe sh n i o → Params sh → (Fin n → Fin i → ℝ) → (Fin n → Fin o → ℝ)
  | _, _, .one a => a.fn
  | _, _, .cons a p => fun θ x => p.fn θ (a.fn θ x)
noncomputable def Terms.fn : {i o : ℕ} → Terms sh n i o → Params sh → (Fin n → Fin i → ℝ) → (Fin n → Fin o → ℝ)
  | _, _, .one a => a.fn
  | _, _, .cons a t => fun θ x => a.fn θ x + t.fn θ x
noncomputable def Columns.fn : {i o : ℕ} → Columns sh n i o → Params sh → (Fin n → Fin i → ℝ) → (Fin n → Fin o → ℝ)
  | _, _, .one a => a.fn
  | _, _, .cons a c => fun θ x r => Fin.append (a.fn θ x r) (c.fn θ x r)
end

mutual
/-- No Relu is at its kink, and the other layers are exact, at the points where the network evaluates them. -/
def Net.Regular (train : Bool) (θ : Params sh) : {i o : ℕ} → Net sh n i o → (Fin n → Fin i → ℝ) → Prop
  | _, _, .linear _ _ _ _ => fun _ => True
  | _, _, .relu W b hW hb => fun x => ∀ r c, affine x (θ.get W hW) (θ.vec b hb) r c ≠ 0
  | i, o, .other L f => fun x => Exact L train (Kind.arr n i) (Kind.arr n o) f θ x
  | _, _, .noop _ => fun _ => True
  | _, _, .chain p => p.Regular train θ
  | _, _, .add t => t.Regular train θ
  | _, _, .concatenate c => c.Regular train θ
  | _, _, .residual a => a.Regular train θ
def Pipe.Regular (train : Bool) (θ : Params sh) : {i o : ℕ} → Pipe sh n i o → (Fin n → Fin i → ℝ) → Prop
  | _, _, .one a => a.Regular train θ
  | _, _, .cons a p => fun x => a.Regular train θ x ∧ p.Regular train θ (a.fn θ x)
def Terms.Regular (train : Bool) (θ : Params sh) : {i o : ℕ} → Terms sh n i o → (Fin n → Fin i → ℝ) → Prop
  | _, _, .one a => a.Regular train θ
  | _, _, .cons a t => fun x => a.Regular train θ x ∧ t.Regular train θ x
def Columns.Regular (train : Bool) (θ : Params sh) : {i o : ℕ} → Columns sh n i o → (Fin n → Fin i → ℝ) → Prop
  | _, _, .one a => a.Regular train θ
  | _, _, .cons a c => fun x => a.Regular train θ x ∧ c.Regular train θ x
end

end
end Thinc.Spec
