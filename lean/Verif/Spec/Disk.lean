import Verif.Model.Disk
/-!
# C124: saving models to files
-/
namespace Thinc.Spec
open Thinc Thinc.Wrapped

/-- What is assumed of msgpack: a message is read back as it was written, and the reader raises ValueError on a message that was cut short
and on no bytes at all. -/
structure CutDetecting {α : Type} (msgpack : Codec α) : Prop where
  same : ∀ m, msgpack.loads (msgpack.dumps m) = .ok m
  cut : ∀ m p, p <+: msgpack.dumps m → p ≠ msgpack.dumps m → msgpack.loads p = .error .valueError
  empty : msgpack.loads [] = .error .valueError

/-- What is assumed of the conversions of arrays: an array comes back as it was. -/
def SameArrays {V H : Type} (io : ArrayIO V H) : Prop := ∀ v, io.asarray (io.toNumpyLe v) = v

/-- Several threads, each with the steps it still has to take; any of them may go next, and all may stop at any time (a crash, or an
observer who looks at the disk). -/
inductive Interleaved : List (List DiskOp) → List DiskOp → Prop
  | stop (ps : List (List DiskOp)) : Interleaved ps []
  | step (ps : List (List DiskOp)) (i : Nat) (op : DiskOp) (rest l : List DiskOp) :
      ps[i]? = some (op :: rest) → Interleaved (ps.set i rest) l → Interleaved ps (op :: l)

/-- Several threads that all run to the end. -/
inductive Finished : List (List DiskOp) → List DiskOp → Prop
  | stop (ps : List (List DiskOp)) : (∀ p ∈ ps, p = []) → Finished ps []
  | step (ps : List (List DiskOp)) (i : Nat) (op : DiskOp) (rest l : List DiskOp) :
      ps[i]? = some (op :: rest) → Finished (ps.set i rest) l → Finished ps (op :: l)

/-- A call of `to_disk`: the model, the path, and after how many of its steps the process was killed (if it has no more steps than that,
it was not). -/
structure Attempt (V A S : Type) where
  model : LoadState V A S
  root : Addr
  path : Nat
  cut : Nat

/-- The disk after a call of `to_disk` that may have been cut short. -/
def afterAttempt {V A S B Sh H : Type} (ops : SerOps V A S B Sh) (io : ArrayIO V H) (msgpack : Codec (Msg H B)) (d : Disk)
    (a : Attempt V A S) : Disk :=
  runOps d ((toDiskSteps ops io msgpack a.model a.root d a.path).1.take a.cut)

/-- Two nodes list the names of their dims, references, attributes and parameters in the same order. -/
structure SameOrder {V A : Type} (n m : Node V A) : Prop where
  dims : m.dims.keys = n.dims.keys
  refs : m.refs.keys = n.refs.keys
  attrs : m.attrs.keys = n.attrs.keys
  params : m.hasParams.keys = n.hasParams.keys

end Thinc.Spec
