import Verif.Model.Random
/-!
# Specification: networks that use the random number generator
-/
namespace Thinc.Spec.Random
open Thinc.Random

/-- `tree` says which layers `combine layers` calls, with which inputs, and what it returns; the training flag is passed on. -/
def Calls (tree : Nat → Val → CallTree) (combine : List Layer → Layer) : Prop :=
  ∀ (layers : List Layer) (train : Bool) (P : ParamVals) (X : Val),
    combine layers train P X = (tree layers.length X).run (callLayer layers train P)

/-- The `i`-th layer of a list. -/
def nth (layers : List Layer) (i : Nat) : Layer := fun train P x => callLayer layers train P i x

/-- `Network N L`: `N` is a network, of layers with and without random draws and of any combinators that pass the training flag on, and `L`
is the same network of layers that are given their draws, whichever these are. -/
inductive Network : ((Nat → ℝ) → RLayer) → Layer → Prop
  /-- a layer that draws nothing -/
  | plain (L : Layer) : Network (fun _ => plainR L) L
  | dropout (rate : ℝ) (isEnabled : Bool) (draws : Nat → Nat → Nat → ℝ) :
      Network (dropoutR rate isEnabled) (Thinc.dropout rate isEnabled draws)
  | embed (E : Nat) (rate : Option ℝ) (fast : Bool) (flips : Nat → Nat → ℝ) : Network (embedR E rate fast) (Thinc.embed E rate flips fast)
  | hashEmbed (E : Nat) (seed : BitVec 32) (rate : Option ℝ) (fast : Bool) (flips : Nat → Nat → ℝ) :
      Network (hashEmbedR E seed rate fast) (Thinc.hashEmbed E seed rate flips fast)
  | combine {tree : Nat → Val → CallTree} {comb : List Layer → Layer} (calls : Calls tree comb)
      (Ns : List ((Nat → ℝ) → RLayer)) (Ls : List Layer) (len : Ns.length = Ls.length) (nets : ∀ p ∈ Ns.zip Ls, Network p.1 p.2) :
      Network (fun source => combineR tree (Ns.map fun N => N source)) (comb Ls)

end Thinc.Spec.Random
