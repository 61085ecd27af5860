import Verif.Model.Float
import Verif.Model.CMem
/-!
# Matrix multiplication in floating point

BLIS, Accelerate, cuBLAS and NumPy add the products of a row and a column in an order of their own, which depends on the shapes, the memory layout,
the number of threads and the processor, and may fuse a multiplication with the addition that follows.  Here all these orders are possible.
-/
namespace Thinc
namespace FloatLib
variable (L : FloatLib)

/-- `a * b + s` with one rounding (IEEE 754 fusedMultiplyAdd), for finite numbers; otherwise as the two operations. -/
noncomputable def fma : Fl → Fl → Fl → Fl
  | .fin a, .fin b, .fin s => L.round (a * b + s)
  | a, b, s => L.add (L.mul a b) s

/-- `s` is the sum of the products, added up in some order, with or without fused operations. -/
inductive Dots : List (Fl × Fl) → Fl → Prop
  | zero : Dots [] (.fin 0)
  | prod (a b : Fl) : Dots [(a, b)] (L.mul a b)
  | add {xs ys zs : List (Fl × Fl)} {s t : Fl} : Dots xs s → Dots ys t → zs.Perm (xs ++ ys) → Dots zs (L.add s t)
  | fma {xs zs : List (Fl × Fl)} {s a b : Fl} : Dots xs s → zs.Perm ((a, b) :: xs) → Dots zs (L.fma a b s)

/-- The pairs of entries whose products are added for entry (i, j) of a product. -/
def pairs (A B : Mat Fl) (i j : ℕ) : List (Fl × Fl) := (List.range A.cols).map fun k => (A.at i k, B.at k j)

/-- `C` may be what thinc/backends/ops.py:235-254 `gemm(A, B)` (and thinc/backends/numpy_ops.pyx:81-126, thinc/backends/cupy_ops.py:70-84,
thinc/backends/_accelerate.pyx:7-50) returns. -/
def Gemm (A B C : Mat Fl) : Prop :=
  A.cols = B.rows ∧ C.rows = A.rows ∧ C.cols = B.cols ∧ ∀ i < C.rows, ∀ j < C.cols, L.Dots (pairs A B i j) (C.at i j)

/-- The transpose of a matrix. -/
def flTranspose (A : Mat Fl) : Mat Fl := ⟨A.cols, A.rows, fun k => A.at (k % A.rows) (k / A.rows)⟩

/-- `Y` may be what thinc/backends/ops.py:259-265 `affine(X, W, b)` returns, and with it thinc/layers/linear.py:35-39 `forward`. -/
def Affine (X W : Mat Fl) (b : ℕ → Fl) (Y : Mat Fl) : Prop :=
  ∃ Z, L.Gemm X (flTranspose W) Z ∧ Y.rows = Z.rows ∧ Y.cols = Z.cols ∧ ∀ i < Y.rows, ∀ j < Y.cols, Y.at i j = L.add (Z.at i j) (b j)

/-- What thinc/layers/linear.py:41-44 `backprop` of `Linear` computes for `dY`: the gradients of the input, of `W` and of `b`. -/
def LinearBack (X W dY dX dW : Mat Fl) (db : ℕ → Fl) : Prop :=
  L.Gemm dY W dX ∧ L.Gemm (flTranspose dY) X dW ∧ ∀ o < dY.cols, db o = L.sum ((List.range dY.rows).map fun n => dY.at n o)

end FloatLib
end Thinc
