import Verif.Spec.FloatNet
import Verif.Model.FloatMaxout
/-!
# What a network of Relu and Maxout layers computes with real numbers
-/
namespace Thinc.Spec

/-- The largest of `f 0`, ..., `f n`. -/
noncomputable def maxTo (f : ℕ → ℝ) : ℕ → ℝ
  | 0 => f 0
  | n + 1 => max (maxTo f n) (f (n + 1))

/-- A hidden layer with real numbers: `Relu`, or `Maxout` with `nO` outputs and `n + 1` pieces. -/
inductive HiddenReal where
  | relu (l : DenseReal)
  | maxout (nO n : ℕ) (l : DenseReal)

namespace HiddenReal

/-- Its dense part: for `Maxout`, with an output for each piece of each unit. -/
def dense : HiddenReal → DenseReal
  | relu l => l
  | maxout _ _ l => l

/-- Its number of outputs. -/
def width : HiddenReal → ℕ
  | relu l => l.nO
  | maxout nO _ _ => nO

/-- Its output. -/
noncomputable def out : HiddenReal → (ℕ → ℝ) → ℕ → ℝ
  | relu l, x, j => max 0 (l.out x j)
  | maxout _ n l, x, j => maxTo (fun p => l.out x (j * (n + 1) + p)) n

end HiddenReal

/-- The output of the hidden layers. -/
noncomputable def mixedHidden : List HiddenReal → (ℕ → ℝ) → ℕ → ℝ
  | [], x => x
  | h :: hs, x => mixedHidden hs (h.out x)

/-- The scores: the output of the network with a last layer that has no activation. -/
noncomputable def mixedScores (hs : List HiddenReal) (last : DenseReal) (x : ℕ → ℝ) : ℕ → ℝ := last.out (mixedHidden hs x)

/-- The dense parts of the layers, for `netError` and `NoOverflow`: the activations add no error of their own. -/
def denseParts (hs : List HiddenReal) (last : DenseReal) : List DenseReal := hs.map HiddenReal.dense ++ [last]

/-- The hidden layer has these parameters, in the format. -/
inductive IsFlHidden (L : FloatLib) : FlHidden → HiddenReal → Prop
  | relu {d : FlDense} {l : DenseReal} : IsFlDense L d l → IsFlHidden L (.relu d) (.relu l)
  | maxout {d : FlDense} {l : DenseReal} {nO n : ℕ} : IsFlDense L d l → l.nO = nO * (n + 1) → IsFlHidden L (.maxout nO n d) (.maxout nO n l)

end Thinc.Spec
