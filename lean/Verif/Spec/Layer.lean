import Verif.Spec.VJP
import Verif.Model.Layer
/-!
# Exact layers

What it means for a layer to compute a mathematical function of its parameters and its input, with
exact gradients for both.
-/
namespace Thinc.Spec

/-- Values for `N` parameters of the given shapes. -/
abbrev Params {N : ℕ} (sh : Fin N → ℕ × ℕ) := (p : Fin N) → Fin (sh p).1 → Fin (sh p).2 → ℝ

/-- The array holds the given numbers. -/
def IsMat {α : Type} (A : Mat α) {n m : ℕ} (x : Fin n → Fin m → α) : Prop :=
  A.rows = n ∧ A.cols = m ∧ ∀ (i : Fin n) (j : Fin m), A.at i j = x i j

/-- How numbers (the points of `E`) are passed to a layer: as a value, and as the gradient of a value.
The two differ for integer inputs. -/
structure Kind (E : Type) where
  val : Val → E → Prop
  grad : Val → E → Prop

/-- A float array with `n` rows and `m` columns. -/
def Kind.arr (n m : ℕ) : Kind (Fin n → Fin m → ℝ) where
  val v x := ∃ A, v = .arr A ∧ IsMat A x
  grad v x := ∃ A, v = .arr A ∧ IsMat A x

/-- A `Ragged` with rows of width `m` and sequences of the given lengths. -/
def Kind.ragged (lengths : List ℕ) (m : ℕ) : Kind (Fin lengths.sum → Fin m → ℝ) where
  val v x := ∃ A, v = .ragged A lengths ∧ IsMat A x
  grad v x := ∃ A, v = .ragged A lengths ∧ IsMat A x

/-- A `Padded` with `n` rows (time and batch together) of width `m`. -/
def Kind.padded (n m steps : ℕ) (sizeAtT lengths indices : List ℕ) : Kind (Fin n → Fin m → ℝ) where
  val v x := ∃ A, v = .padded A steps sizeAtT lengths indices ∧ IsMat A x
  grad v x := ∃ A, v = .padded A steps sizeAtT lengths indices ∧ IsMat A x

/-- A fixed array of integers: there is nothing to differentiate, and its gradient is an array of zeros. -/
def Kind.ints (ks : List ℤ) : Kind (Fin 0 → ℝ) where
  val v _ := v = .ints ks
  grad v _ := v = .ints (ks.map fun _ => 0)

/-- A fixed two-dimensional array of integers.  Its gradient is an array of zeros of the same shape, of integers or
floats. -/
def Kind.intMat (A : Mat ℤ) : Kind (Fin 0 → ℝ) where
  val v _ := ∃ B, v = .intMat B ∧ B.rows = A.rows ∧ B.cols = A.cols ∧ ∀ i < A.rows, ∀ j < A.cols, B.at i j = A.at i j
  grad v _ := (∃ Z, v = .intMat Z ∧ Z.rows = A.rows ∧ Z.cols = A.cols ∧ ∀ i < A.rows, ∀ j < A.cols, Z.at i j = 0) ∨
    ∃ Z, v = .arr Z ∧ Z.rows = A.rows ∧ Z.cols = A.cols ∧ ∀ i < A.rows, ∀ j < A.cols, Z.at i j = 0

/-- A list of values of the given kinds. -/
def Kind.list {k : ℕ} {E : Fin k → Type} (K : (i : Fin k) → Kind (E i)) : Kind ((i : Fin k) → E i) where
  val v x := ∃ vs : Fin k → Val, v = .list (List.ofFn vs) ∧ ∀ i, (K i).val (vs i) (x i)
  grad v x := ∃ vs : Fin k → Val, v = .list (List.ofFn vs) ∧ ∀ i, (K i).grad (vs i) (x i)

/-- The arrays are the consecutive parts of `x` with the given numbers of rows. -/
def IsParts {α : Type} (As : List (Mat α)) (lengths : List ℕ) {m : ℕ} (x : Fin lengths.sum → Fin m → α) : Prop :=
  As.map Mat.rows = lengths ∧ (∀ A ∈ As, A.cols = m) ∧
    ∀ (b : ℕ) (hb : b < As.length) (r : ℕ) (i : Fin lengths.sum) (j : Fin m), r < As[b].rows →
      (i : ℕ) = (lengths.take b).sum + r → As[b].at r j = x i j

/-- A list of arrays with the given numbers of rows and width `m`; all their rows one after the other. -/
def Kind.seqs (lengths : List ℕ) (m : ℕ) : Kind (Fin lengths.sum → Fin m → ℝ) where
  val v x := ∃ As : List (Mat ℝ), v = .list (As.map .arr) ∧ IsParts As lengths x
  grad v x := ∃ As : List (Mat ℝ), v = .list (As.map .arr) ∧ IsParts As lengths x

/-- A tuple with one member. -/
def Kind.tup1 {E : Type} (K : Kind E) : Kind E where
  val v x := ∃ a, v = .tup [a] ∧ K.val a x
  grad v x := ∃ a, v = .tup [a] ∧ K.grad a x

/-- A tuple with one more member in front. -/
def Kind.tupCons {E F : Type} (K : Kind E) (T : Kind F) : Kind (E × F) where
  val v x := ∃ a vs, v = .tup (a :: vs) ∧ K.val a x.1 ∧ T.val (.tup vs) x.2
  grad v x := ∃ a vs, v = .tup (a :: vs) ∧ K.grad a x.1 ∧ T.grad (.tup vs) x.2

/-- A pair. -/
abbrev Kind.pair {E F : Type} (K : Kind E) (M : Kind F) : Kind (E × F) := Kind.tupCons K (Kind.tup1 M)

section
variable {N : ℕ} {sh : Fin N → ℕ × ℕ}

/-- The parameters of the nodes are `θ`. -/
def IsParams (P : ParamVals) (θ : Params sh) : Prop := ∀ p : Fin N, IsMat (P p) (θ p)

/-- The gradients of the nodes are `g`; a missing gradient counts as zero. -/
def IsGrads (G : GradStore) (g : Params sh) : Prop :=
  ∀ p : Fin N, match G p with | none => g p = 0 | some A => IsMat A (g p)

variable {E F : Type} [NormedAddCommGroup E] [NormedSpace ℝ E] [Tensor E]
  [NormedAddCommGroup F] [NormedSpace ℝ F] [Tensor F]

/-- The layer computes `f` for the parameters `θ` and the input `x`, with exact gradients: it accepts
every representation of `x`, its output is `f (θ, x)`, and its callback maps a gradient `dy` of the
output to the gradient of the input and adds the gradient of the parameters to the stored gradients,
where both are given by the vector-Jacobian product of `f` at `(θ, x)`. -/
def Exact (L : Layer) (train : Bool) (K : Kind E) (M : Kind F) (f : Params sh × E → F) (θ : Params sh) (x : E) :
    Prop :=
  ∀ P v, IsParams P θ → K.val v x → ∃ v' callback back,
    L train P v = .ok (v', callback) ∧ M.val v' (f (θ, x)) ∧ IsVJP f (θ, x) back ∧
    ∀ dv dy G g, M.grad dv dy → IsGrads G g → ∃ dv' G',
      callback dv G = .ok (dv', G') ∧ K.grad dv' (back dy).2 ∧ IsGrads G' (g + (back dy).1)

/-! ### Lists of layers -/

/-- The layers, one after the other, are exact, and together they compute `f`. -/
inductive ExactChain (train : Bool) (θ : Params sh) : {E F : Type} → [NormedAddCommGroup E] → [NormedSpace ℝ E] →
    [Tensor E] → [NormedAddCommGroup F] → [NormedSpace ℝ F] → [Tensor F] →
    List Layer → Kind E → Kind F → (Params sh × E → F) → E → Prop
  | one {E F : Type} [NormedAddCommGroup E] [NormedSpace ℝ E] [Tensor E] [NormedAddCommGroup F] [NormedSpace ℝ F]
      [Tensor F] {L : Layer} {K : Kind E} {M : Kind F} {f : Params sh × E → F} {x : E} :
      Exact L train K M f θ x → ExactChain train θ [L] K M f x
  | cons {E F H : Type} [NormedAddCommGroup E] [NormedSpace ℝ E] [Tensor E] [NormedAddCommGroup F] [NormedSpace ℝ F]
      [Tensor F] [NormedAddCommGroup H] [NormedSpace ℝ H] [Tensor H] {L : Layer} {Ls : List Layer}
      {K : Kind E} {M : Kind F} {O : Kind H} {f : Params sh × E → F} {g : Params sh × F → H} {x : E} :
      Exact L train K M f θ x → ExactChain train θ Ls M O g (f (θ, x)) →
      ExactChain train θ (L :: Ls) K O (fun p => g (p.1, f p)) x

/-- The layers are exact on the same input, their outputs have `n` rows (`M w` is the kind of outputs of
width `w`), and `f` is the outputs side by side. -/
inductive ExactColumns (train : Bool) (θ : Params sh) (n : ℕ) (K : Kind E) (M : (w : ℕ) → Kind (Fin n → Fin w → ℝ))
    (x : E) : List Layer → (w : ℕ) → (Params sh × E → Fin n → Fin w → ℝ) → Prop
  | one {L : Layer} {w : ℕ} {f : Params sh × E → Fin n → Fin w → ℝ} :
      Exact L train K (M w) f θ x → ExactColumns train θ n K M x [L] w f
  | cons {L : Layer} {Ls : List Layer} {w w' : ℕ} {f : Params sh × E → Fin n → Fin w → ℝ}
      {g : Params sh × E → Fin n → Fin w' → ℝ} :
      Exact L train K (M w) f θ x → ExactColumns train θ n K M x Ls w' g →
      ExactColumns train θ n K M x (L :: Ls) (w + w') (fun p r => Fin.append (f p r) (g p r))

/-- The layers are exact on the same input, and `f` is the tuple of their outputs. -/
inductive ExactTuple (train : Bool) (θ : Params sh) (K : Kind E) (x : E) : {F : Type} → [NormedAddCommGroup F] →
    [NormedSpace ℝ F] → [Tensor F] → List Layer → Kind F → (Params sh × E → F) → Prop
  | one {F : Type} [NormedAddCommGroup F] [NormedSpace ℝ F] [Tensor F] {L : Layer} {M : Kind F}
      {f : Params sh × E → F} :
      Exact L train K M f θ x → ExactTuple train θ K x [L] (Kind.tup1 M) f
  | cons {F H : Type} [NormedAddCommGroup F] [NormedSpace ℝ F] [Tensor F] [NormedAddCommGroup H] [NormedSpace ℝ H]
      [Tensor H] {L : Layer} {Ls : List Layer} {M : Kind F} {T : Kind H} {f : Params sh × E → F}
      {g : Params sh × E → H} :
      Exact L train K M f θ x → ExactTuple train θ K x Ls T g →
      ExactTuple train θ K x (L :: Ls) (Kind.tupCons M T) (fun p => (f p, g p))

/-- The numbers of one parameter, given its shape. -/
def Params.get {n m : ℕ} (θ : Params sh) (p : Fin N) (h : sh p = (n, m)) : Fin n → Fin m → ℝ :=
  fun i j => θ p (i.cast (by rw [h])) (j.cast (by rw [h]))

/-- The numbers of a one-dimensional parameter. -/
def Params.vec {m : ℕ} (θ : Params sh) (p : Fin N) (h : sh p = (1, m)) : Fin m → ℝ := θ.get p h 0

end
end Thinc.Spec
