import Verif.Model.Validate
/-! # Specification: values that conform to an annotation, and models with data validation -/
namespace Thinc.Spec

/-- The array types of thinc: any number of dimensions or a given one; any dtype, single precision floats, or integers of 32 or
64 bits. -/
def ArrayConforms (ndim : Option ℕ) (dtype : Option String) (n : ℕ) (d : String) : Prop :=
  (∀ m, ndim = some m → n = m) ∧
  (dtype = none ∨ (dtype = some "f" ∧ d = "float32") ∨
    (dtype = some "i" ∧ (d = "int32" ∨ d = "int64" ∨ d = "uint32" ∨ d = "uint64")))

/-- A value conforms to an annotation. -/
inductive Conforms : Ann → Datum → Prop
  | any (v : Datum) : Conforms .any v
  | array {ndim dtype n d} : ArrayConforms ndim dtype n d → Conforms (.array ndim dtype) (.arr n d)
  | list {a vs} : (∀ v ∈ vs, Conforms a v) → Conforms (.list a) (.list vs)
  | listOfTuple {a vs} : (∀ v ∈ vs, Conforms a v) → Conforms (.list a) (.tup vs)
  | tuple {as vs} : List.Forall₂ Conforms as vs → Conforms (.tuple as) (.tup vs)
  | tupleOfList {as vs} : List.Forall₂ Conforms as vs → Conforms (.tuple as) (.list vs)
  | union {as a v} : a ∈ as → Conforms a v → Conforms (.union as) v
  | cls (k : ℕ) : Conforms (.cls k) (.obj k)
  | callable : Conforms .callable .fn

/-- An example conforms: there is none, there is no annotation, or it conforms to the annotation. -/
def SampleConforms (ann : Option Ann) (sample : Option Datum) : Prop := ∀ a v, ann = some a → sample = some v → Conforms a v

/-- The list has more than five items. -/
def LongList (v : Datum) : Prop := ∃ vs, v = .list vs ∧ 5 < vs.length

/-- A model, and the same model when data validation is on: every layer compares its examples with the annotations of its
forward function (any annotations) first. -/
inductive Validated (W : WideEnv) : Comp → Comp → Prop
  | leaf (sig : Signature) (id : ℕ) : Validated W (leafC W.text id) ((leafC W.text id).checked sig)
  | more (sig : Signature) (id : ℕ) (k : MoreKind) : Validated W (moreC W id k) ((moreC W id k).checked sig)
  | plain (sig : Signature) (L : Layer) : Validated W (plainC L) ((plainC L).checked sig)
  | withArray (sig : Signature) (id pad : ℕ) (c d : Comp) : Validated W c d → Validated W (withArrayC id pad c) ((withArrayC id pad d).checked sig)
  | withList (sig : Signature) (id : ℕ) (c d : Comp) : Validated W c d → Validated W (withListC id c) ((withListC id d).checked sig)
  | withRagged (sig : Signature) (c d : Comp) : Validated W c d → Validated W (withRaggedC c) ((withRaggedC d).checked sig)
  | withPadded (sig : Signature) (id : ℕ) (c d : Comp) : Validated W c d → Validated W (withPaddedC id c) ((withPaddedC id d).checked sig)
  | residual (sig : Signature) (id : ℕ) (c d : Comp) : Validated W c d → Validated W (residualC id c) ((residualC id d).checked sig)
  | mapList (sig : Signature) (c d : Comp) : Validated W c d → Validated W (mapListC c) ((mapListC d).checked sig)
  | withGetitem (sig : Signature) (idx : ℤ) (c d : Comp) : Validated W c d → Validated W (withGetitemC idx c) ((withGetitemC idx d).checked sig)
  | uniqued (sig : Signature) (id : ℕ) (column : ℤ) (fast : Bool) (c d : Comp) : Validated W c d →
      Validated W (uniquedC id column fast c) ((uniquedC id column fast d).checked sig)
  | resizable (sig : Signature) (id : ℕ) (c d : Comp) : Validated W c d → Validated W (resizableC id c) ((resizableC id d).checked sig)
  | withCpu (sig : Signature) (id : ℕ) (c d : Comp) : Validated W c d → Validated W (withCpuC id c) ((withCpuC id d).checked sig)
  | attentionV2 (sig : Signature) (id : ℕ) (c d : Comp) : Validated W c d → Validated W (attentionV2C W id c) ((attentionV2C W id d).checked sig)
  | bidirectional (sig : Signature) (c d c' d' : Comp) : Validated W c d → Validated W c' d' →
      Validated W (bidirectionalC c c') ((bidirectionalC d d').checked sig)
  | siamese (sig : Signature) (id : ℕ) (c d c' d' : Comp) : Validated W c d → Validated W c' d' →
      Validated W (siameseC id c c') ((siameseC id d d').checked sig)
  | chain (sig : Signature) (id : ℕ) (ps : List (Comp × Comp)) : (∀ p ∈ ps, Validated W p.1 p.2) →
      Validated W (chainC id (ps.map Prod.fst)) ((chainC id (ps.map Prod.snd)).checked sig)
  | add (sig : Signature) (id : ℕ) (ps : List (Comp × Comp)) : (∀ p ∈ ps, Validated W p.1 p.2) →
      Validated W (addC id (ps.map Prod.fst)) ((addC id (ps.map Prod.snd)).checked sig)
  | concatenate (sig : Signature) (id : ℕ) (ps : List (Comp × Comp)) : (∀ p ∈ ps, Validated W p.1 p.2) →
      Validated W (concatenateC id (ps.map Prod.fst)) ((concatenateC id (ps.map Prod.snd)).checked sig)
  | tuplify (sig : Signature) (id : ℕ) (ps : List (Comp × Comp)) : (∀ p ∈ ps, Validated W p.1 p.2) →
      Validated W (tuplifyC id (ps.map Prod.fst)) ((tuplifyC id (ps.map Prod.snd)).checked sig)

end Thinc.Spec
