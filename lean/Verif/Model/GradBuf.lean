import Verif.Model.Py
/-!
# Gradient buffers with aliasing (thinc/backends/_param_server.py lines 38-79, `proxy = None`)

Arrays are mutable objects: `bufs[a]` is the content of array object `a`.  The gradient dict maps
keys to array objects.  Shapes are not modelled (`V` has an abstract addition; `+=` between arrays
of one shape is addition of values).
-/
namespace Thinc

/-- `ParamServer._grads` together with the array objects it may share with callers. -/
structure GradBuf (K V : Type) where
  bufs : List V
  grads : PyDict K Nat := []

variable {K V : Type} [DecidableEq K]

/-- `ParamServer.inc_grad`, _param_server.py:65-79, without proxy.  numpy arrays have `.copy`, so
the branches of lines 73-77 are not taken.  (An address with no array cannot occur in Python; it is
given the result "unchanged".) -/
def GradBuf.incGrad [Add V] (s : GradBuf K V) (key : K) (value : Nat) : GradBuf K V :=
  match s.bufs[value]? with
  | none => s
  | some v =>
    match s.grads.get? key with
    | none =>                                    -- line 72: self._grads[key] = value.copy()
      { bufs := s.bufs ++ [v], grads := s.grads.set key s.bufs.length }
    | some g => { s with bufs := s.bufs.modify g (· + v) }   -- line 79: +=

/-- `ParamServer.set_grad`, _param_server.py:59-63, without proxy: stores the caller's object. -/
def GradBuf.setGrad (s : GradBuf K V) (key : K) (value : Nat) : GradBuf K V :=
  { s with grads := s.grads.set key value }

/-- `ParamServer.get_grad`, _param_server.py:50-52, then reading the array. -/
def GradBuf.getGrad (s : GradBuf K V) (key : K) : Except PyErr V :=
  match s.grads.get? key with
  | none => .error .keyError
  | some g => match s.bufs[g]? with
    | none => .error .keyError
    | some v => .ok v

/-- What happens to the arrays: the program calls `inc_grad`, or the caller overwrites the content
of one of its own arrays (for example to reuse it for the next batch). -/
inductive GradOp (K V : Type) where
  | inc (key : K) (array : Nat)
  | write (array : Nat) (content : V)

def GradBuf.step [Add V] (s : GradBuf K V) : GradOp K V → GradBuf K V
  | .inc key a => s.incGrad key a
  | .write a v => { s with bufs := s.bufs.set a v }

def GradBuf.run [Add V] (s : GradBuf K V) (ops : List (GradOp K V)) : GradBuf K V :=
  ops.foldl GradBuf.step s

end Thinc
