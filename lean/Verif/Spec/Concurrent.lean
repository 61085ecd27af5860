import Verif.Model.Concurrent
import Verif.Spec.Random
/-!
# Specification: threads that share a model
-/
namespace Thinc.Spec.Conc
open Thinc.Conc Thinc.Random Thinc.Spec.Random

/-- The layer looks at these parameters only. -/
def ReadsOnly (keys : List Nat) (L : Layer) : Prop :=
  ∀ (P P' : ParamVals), (∀ k ∈ keys, P k = P' k) → ∀ train X, L train P X = L train P' X

/-- `Network mine C L`: `C` is a network as a part of a thread, made of layers with parameters, of the wrapped modules `mine` and of any
combinators that pass the training flag on; `L` is what it computes if no one interferes. -/
inductive Network {R : Type} (mine : Nat → Prop) : CLayer R → Layer → Prop
  | leaf (keys : List Nat) (L : Layer) (reads : ReadsOnly keys L) : Network mine (leafC keys L) L
  | torch (m : Nat) (M : Bool → Val → Except PyErr (Val × Callback)) (own : mine m) :
      Network mine (torchC m M) fun train _ X => M train X
  | combine {tree : Nat → Val → CallTree} {comb : List Layer → Layer} (calls : Calls tree comb)
      (Cs : List (CLayer R)) (Ls : List Layer) (len : Cs.length = Ls.length) (nets : ∀ p ∈ Cs.zip Ls, Network mine p.1 p.2) :
      Network mine (combineC tree Cs) (comb Ls)

/-- A call of a model by a thread. -/
structure Caller where
  model : CLayer (Except PyErr (Val × Callback))
  /-- the modules that this thread calls -/
  modules : Nat → Prop
  computes : Layer
  train : Bool
  input : Val

/-- The thread: it calls the model and returns the output and the callback. -/
def Caller.thread (c : Caller) : Code Nat (Mat ℝ) (Except PyErr (Val × Callback)) := c.model c.train c.input .ret

/-- A program that reads parameters and increments gradients, with the parameters `P`: what it returns, and the increments. -/
inductive Increments {K V R : Type} (P : K → V) : Code K V R → R → List (K × V) → Prop
  | ret (r : R) : Increments P (.ret r) r []
  | get (k : K) (next : V → Code K V R) (r : R) (l : List (K × V)) (h : Increments P (next (P k)) r l) : Increments P (.get k next) r l
  | inc (k : K) (v : V) (err next : Code K V R) (r : R) (l : List (K × V)) (h : Increments P next r l) :
      Increments P (incC k v err next) r ((k, v) :: l)

/-- A gradient and one more: C14. -/
def plus {V : Type} (add : V → V → V) : Option V → V → Option V
  | none, v => some v
  | some g, v => some (add g v)

/-- The increments of one key. -/
def ofKey {K V : Type} [DecidableEq K] (k : K) (l : List (K × V)) : List V := (l.filter fun p => p.1 = k).map Prod.snd

/-- A thread that increments gradients, what it returns and what it adds. -/
structure Trainer (K V R : Type) where
  code : Code K V R
  result : R
  increments : List (K × V)

end Thinc.Spec.Conc
