import Verif.Model.TextInit
import Verif.Model.Dropout
import Verif.Spec.Initialize
import Verif.Spec.Rows
/-!
# Shapes of batches of sequences

A batch is described by the lengths of its sequences.  A shape says what kind of value holds the batch, and how wide it is;
the numbers of rows follow from the lengths.
-/
namespace Thinc.Spec

/-- Whether an array has one row for each row of each sequence, or one row for each sequence. -/
inductive Per where
  | row
  | seq
  deriving DecidableEq

/-- The number of rows of the array. -/
def Per.count (p : Per) (ls : List ℕ) : ℕ :=
  match p with
  | .row => ls.sum
  | .seq => ls.length

/-- What holds a batch; `w` is the number of columns. -/
inductive Shape where
  /-- a float array -/
  | arr (per : Per) (w : ℕ)
  /-- a two-dimensional array of integers -/
  | ids (per : Per) (w : ℕ)
  /-- a one-dimensional array of integers -/
  | ints (per : Per)
  /-- a `Ragged` -/
  | ragged (w : ℕ)
  /-- a list of float arrays, one for each sequence -/
  | seqs (w : ℕ)
  /-- a list of two-dimensional arrays of integers, one for each sequence -/
  | idSeqs (w : ℕ)
  /-- a `Padded` -/
  | padded (w : ℕ)

/-- At least one sequence, and every sequence has at least one row. -/
def Nonvoid (ls : List ℕ) : Prop := ls ≠ [] ∧ ∀ l ∈ ls, 0 < l

/-- A batch with sequences of different lengths. -/
def Varied (ls : List ℕ) : Prop := Nonvoid ls ∧ ∃ a ∈ ls, ∃ b ∈ ls, a < b

/-- The value holds a batch of sequences of the lengths `ls` in the given shape. -/
def Shape.Holds (σ : Shape) (ls : List ℕ) (v : Val) : Prop :=
  match σ with
  | .arr per w => 0 < w ∧ ∃ A, v = .arr A ∧ A.rows = per.count ls ∧ A.cols = w
  | .ids per w => 0 < w ∧ ∃ A, v = .intMat A ∧ A.rows = per.count ls ∧ A.cols = w
  | .ints per => ∃ ks, v = .ints ks ∧ ks.length = per.count ls
  | .ragged w => 0 < w ∧ ∃ A, v = .ragged A ls ∧ A.rows = ls.sum ∧ A.cols = w
  | .seqs w => 0 < w ∧ ∃ As : List (Mat ℝ), v = .list (As.map .arr) ∧ As.map Mat.rows = ls ∧ ∀ A ∈ As, A.cols = w
  | .idSeqs w => 0 < w ∧ ∃ As : List (Mat ℤ), v = .list (As.map .intMat) ∧ As.map Mat.rows = ls ∧ ∀ A ∈ As, A.cols = w
  | .padded w => 0 < w ∧ ∃ A ix, IsOrder ls ix ∧
      v = .padded A (maxLength ls) ((List.range (maxLength ls)).map fun t => ls.countP (t < ·)) (ix.map fun i => ls.getD i 0) ix ∧
      A.rows = maxLength ls * ls.length ∧ A.cols = w

/-- The number of columns; a one-dimensional array has none. -/
def Shape.width : Shape → Option ℕ
  | .arr _ w => some w
  | .ids _ w => some w
  | .ints _ => none
  | .ragged w => some w
  | .seqs w => some w
  | .idSeqs w => some w
  | .padded w => some w

/-- `predict` accepts every batch in shape `σ`, with any number of sequences of any lengths, and gives it in shape `τ`. -/
def TakesBatches (c : Comp) (s : NetState) (σ τ : Shape) : Prop :=
  ∀ ls, Nonvoid ls → ∀ X, σ.Holds ls X → ∃ Y, c.predict s X = .ok Y ∧ τ.Holds ls Y

/-- The parameters of a layer that has been initialized have the shapes that belong to its dimensions. -/
def TextReady (T : TextEnv) (s : NetState) (id : ℕ) : Prop :=
  match T.kind id with
  | .net k => ∃ nO nI, s.nO id = some (some nO) ∧ s.nI id = some (some nI) ∧
      shapeOf (s.params (2 * id)) = (leafShapes k nO nI).1 ∧ shapeOf (s.params (2 * id + 1)) = (leafShapes k nO nI).2
  | .hashEmbed nV _ _ _ _ => ∃ nO, s.nO id = some (some nO) ∧ shapeOf (s.params (2 * id)) = (nV, nO)
  | .attention => ∃ nO, s.nO id = some (some nO) ∧ shapeOf (s.params (2 * id)) = (1, nO)

/-- This holds before the first call of `initialize`, when no layer has parameters. -/
def TextSane (T : TextEnv) (s : NetState) : Prop := ∀ id, s.ready id = true → TextReady T s id

/-- The dimensions of the layers that have been initialized are positive, and embedding tables have rows. -/
def Positive (T : TextEnv) (s : NetState) : Prop :=
  ∀ id, s.ready id = true → (∀ v, s.nO id = some (some v) → 0 < v) ∧ (∀ v, s.nI id = some (some v) → 0 < v) ∧
    ∀ nV seed dropout coinflips fast, T.kind id = .hashEmbed nV seed dropout coinflips fast → 0 < nV

/-- Later calls of `initialize` keep the dimensions that are set, the layers that have parameters, and the shapes of these. -/
structure Later (T : TextEnv) (s s' : NetState) : Prop where
  dims : KeepsDims s s'
  ready : ∀ id, s.ready id = true → s'.ready id = true
  sane : TextSane T s → TextSane T s'

/-- The layers without parameters of a model for text. -/
inductive PlainLayer : Layer → Prop
  | noop : PlainLayer noop
  | dropout (rate : ℝ) (isEnabled : Bool) (draws : ℕ → ℕ → ℕ → ℝ) : PlainLayer (dropout rate isEnabled draws)
  | list2ragged : PlainLayer list2raggedL
  | ragged2list : PlainLayer ragged2listL
  | list2array : PlainLayer list2arrayL
  | list2padded : PlainLayer list2paddedL
  | padded2list : PlainLayer padded2listL
  | column (column : ℤ) : PlainLayer (intsGetitemColumn column)
  | window (nW : ℕ) : PlainLayer (expandWindow nW)
  | reduceSum : PlainLayer reduceSumLayer
  | reduceMean : PlainLayer reduceMeanLayer
  | reduceMax (junk : ℕ → ℝ) : PlainLayer (reduceMaxLayer junk)
  | reduceFirst : PlainLayer reduceFirstLayer
  | reduceLast : PlainLayer reduceLastLayer
  /-- an activation: arrays only -/
  | activation (L : Layer) (h : KeepsShape L) (h' : ∀ P v, (∀ A, v ≠ .arr A) → ∃ e, L false P v = .error e) : PlainLayer L

/-- The layer's output is never a Python list or tuple.  (`add` would join lists instead of adding their members.) -/
def NoLists (c : Comp) : Prop := ∀ s P X Y callback, c.layer s false P X = .ok (Y, callback) → ∀ vs, Y ≠ .list vs

/-- The models for text: everything that is built from these layers. -/
inductive TextModel (T : TextEnv) : Comp → Prop
  | leaf (id : ℕ) : TextModel T (leafC T id)
  | plain (L : Layer) : PlainLayer L → TextModel T (plainC L)
  | withArray (id pad : ℕ) (c : Comp) : TextModel T c → TextModel T (withArrayC id pad c)
  | withList (id : ℕ) (c : Comp) : TextModel T c → TextModel T (withListC id c)
  | withRagged (c : Comp) : TextModel T c → TextModel T (withRaggedC c)
  | withPadded (id : ℕ) (c : Comp) : TextModel T c → TextModel T (withPaddedC id c)
  | chain (id : ℕ) (cs : List Comp) : (∀ c ∈ cs, TextModel T c) → TextModel T (chainC id cs)
  | add (id : ℕ) (cs : List Comp) : (∀ c ∈ cs, TextModel T c) → (∀ c ∈ cs, NoLists c) → TextModel T (addC id cs)
  | concatenate (id : ℕ) (cs : List Comp) : (∀ c ∈ cs, TextModel T c) → TextModel T (concatenateC id cs)
  | residual (id : ℕ) (c : Comp) : TextModel T c → TextModel T (residualC id c)

end Thinc.Spec
