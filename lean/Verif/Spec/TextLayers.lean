import Verif.Spec.Rows
import Verif.Spec.Labels
import Verif.Spec.Softmax
import Verif.Model.Loss
/-!
# Integer features

There is nothing to differentiate in an array of integers, so that it is a point of a space without dimensions; its gradient is an
array of zeros.
-/
namespace Thinc.Spec

/-- The array of integers `x`. -/
def Kind.ids {n m : ℕ} (x : Fin n → Fin m → ℤ) : Kind (Fin 0 → ℝ) where
  val v _ := ∃ A, v = .intMat A ∧ IsMat A x
  grad v _ := ∃ Z, v = .intMat Z ∧ IsMat Z (0 : Fin n → Fin m → ℤ)

/-- A list of arrays of integers with the given numbers of rows; `x` is all their rows one after the other. -/
def Kind.idSeqs (ls : List ℕ) {m : ℕ} (x : Fin ls.sum → Fin m → ℤ) : Kind (Fin 0 → ℝ) where
  val v _ := ∃ As, v = .list (As.map .intMat) ∧ IsParts As ls x
  grad v _ := ∃ Zs, v = .list (Zs.map .intMat) ∧ IsParts Zs ls (0 : Fin ls.sum → Fin m → ℤ)

/-- `tag` are the labels of the rows of all sequences, one after the other, and `truths` holds one list or array of labels for each
sequence. -/
def IsTags (truths : List Truths) (ls : List ℕ) (tag : Fin ls.sum → ℤ) : Prop :=
  truths.length = ls.length ∧ ∀ (b : ℕ) (hb : b < truths.length) (hb' : b < ls.length),
    ∃ ts, (truths[b] = .intList ts ∨ truths[b] = .intArray ts) ∧ ts.length = ls[b] ∧
      ∀ (r : ℕ) (hr : r < ts.length) (i : Fin ls.sum), (i : ℕ) = (ls.take b).sum + r → ts[r] = tag i

/-- The distribution that a label stands for; nothing if it is the missing value. -/
noncomputable def tagTarget (k : ℕ) (missing : Missing) (smoothing : ℝ) (tag : ℤ) : Option (Fin k → ℝ) :=
  open Classical in if missing = .int tag then none else some fun j => smoothed k smoothing tag.toNat j

/-- The cross entropy of a distribution with the target; zero if there is none. -/
noncomputable def rowLoss {k : ℕ} (target : Option (Fin k → ℝ)) (p : Fin k → ℝ) : ℝ :=
  match target with
  | none => 0
  | some t => crossEntropy t p

/-- The sum of the cross entropies of all rows with the logits `z`, divided by the number of sequences if `normalize` is set. -/
noncomputable def tagLoss (ls : List ℕ) {k : ℕ} (normalize : Bool) (missing : Missing) (smoothing : ℝ) (tag : Fin ls.sum → ℤ)
    (z : Fin ls.sum → Fin k → ℝ) : ℝ :=
  (∑ r, rowLoss (tagTarget k missing smoothing (tag r)) (softmax (z r))) / if normalize then (ls.length : ℝ) else 1

end Thinc.Spec
