import Verif.Model.Ragged
import Verif.Model.Schedules
import Mathlib.Data.Rat.Floor
/-!
# Model of `Ops.minibatch` and `Ops.multibatch`

Source: thinc/backends/ops.py:84-192 and thinc/types.py:1094-1106.

Sizes drawn from a generator are rational numbers (a compounding schedule gives fractional sizes).
The sequences are Python lists (or arrays, as lists of rows); the check that they have a `__len__`
is not modelled.  The generator function `_iter_items` is a step machine, so that several
iterations over one `SizedGenerator` can be interleaved.
-/
namespace Thinc
variable {α β : Type}

/-- The `size` argument: an int (`itertools.repeat(size)`) or a generator. -/
inductive BatchSize where
  | const (n : Int)
  | gen (g : PyGen ℚ)

/-- `next(sizes)`. -/
def BatchSize.next : BatchSize → Option ℚ × BatchSize
  | .const n => (some n, .const n)
  | .gen g => (g.next.1, .gen g.next.2)

/-- thinc/backends/ops.py:185-192 `Ops._get_batch_sizes`, the `while i < length` loop with `fuel`
iterations; `none`: still running. -/
def getBatchSizes (length : Nat) : Nat → BatchSize → List ℚ → ℚ → Option (Except PyErr (List ℚ))
  | 0, _, _, _ => none
  | fuel + 1, sizes, output, i =>
    if i < length then
      match sizes.next with
      | (none, _) => some (.error .stopIteration)
      | (some s, sizes') => getBatchSizes length fuel sizes' (output ++ [s]) (i + s)
    else some (.ok output)

/-- `int(size)`: truncation towards zero. -/
def pyInt (q : ℚ) : Int := if 0 ≤ q then ⌊q⌋ else ⌈q⌉

/-- thinc/backends/ops.py:174-183 `Ops._get_batch` for lists, tuples and arrays. -/
def getBatch (seq : List α) (indices : List Nat) : Except PyErr (List α) :=
  mapRaise (fun i => pyIndex seq (Int.ofNat i)) indices

/-- The `SizedGenerator` returned by `minibatch` or `multibatch`, with the variables closed over by
`_iter_items`: the list of sizes, the (mutable, shared) index array, and the parameters. -/
structure Batches (β : Type) where
  sizes : List ℚ
  indices : List Nat
  shuffle : Bool
  buffer : Int
  get : List Nat → Except PyErr β

/-- thinc/types.py:1102-1103 `SizedGenerator.__len__`. -/
def Batches.len (g : Batches β) : Nat := g.sizes.length

/-- The state of one running `_iter_items` generator: whether the body has begun, the sizes still
to come, the variable `i`, and the rest of the queue that `yield from` is working through. -/
structure BatchIter (β : Type) where
  started : Bool
  sizes : List ℚ
  i : Int
  pending : List β

/-- thinc/types.py:1105-1106 `iter(sized_generator)`: a new generator, not yet begun. -/
def Batches.iter (g : Batches β) : BatchIter β := ⟨false, g.sizes, 0, []⟩

/-- thinc/backends/ops.py:122-129 (and 160-170): the `for size in sizes` loop from one `yield from` to
the next, or to the end. -/
def fillQueue (get : List Nat → Except PyErr β) (buffer : Int) (indices : List Nat) :
    List ℚ → Int → List β → Except PyErr (List β × List ℚ × Int)
  | [], i, queue => .ok (queue, [], i)
  | s :: sizes, i, queue =>
    match get (pyRange indices i (i + pyInt s)) with
    | .error e => .error e
    | .ok b =>
      if ((queue ++ [b]).length : Int) ≥ buffer then .ok (queue ++ [b], sizes, i + pyInt s)
      else fillQueue get buffer indices sizes (i + pyInt s) (queue ++ [b])

/-- What a call of `next` produces. -/
inductive NextResult (β : Type) where
  | item (b : β)
  | stop
  | raised (e : PyErr)
  deriving DecidableEq

/-- thinc/backends/ops.py:117-130 (and 155-171): one `next()` of the generator `_iter_items`.  `σ` is the
effect that `numpy.random.shuffle` has on the index array, should it be called now. -/
def BatchIter.next (g : Batches β) (it : BatchIter β) (σ : List Nat → List Nat) :
    Batches β × BatchIter β × NextResult β :=
  let g' : Batches β :=
    if it.started = false ∧ g.shuffle = true then { g with indices := σ g.indices } else g
  match it.pending with
  | b :: rest => (g', ⟨true, it.sizes, it.i, rest⟩, .item b)
  | [] =>
    match fillQueue g'.get g'.buffer g'.indices it.sizes it.i [] with
    | .error e => (g', ⟨true, [], it.i, []⟩, .raised e)
    | .ok ([], sizes, i) => (g', ⟨true, sizes, i, []⟩, .stop)
    | .ok (b :: rest, sizes, i) => (g', ⟨true, sizes, i, rest⟩, .item b)

/-- `list(generator)`: repeat `next` until it stops or raises (`none`: still running after `fuel`
calls).  Gives the items, the exception if any, and the shared state afterwards. -/
def drain (g : Batches β) (it : BatchIter β) (σ : List Nat → List Nat) :
    Nat → Option (List β × Except PyErr Unit × Batches β)
  | 0 => none
  | fuel + 1 =>
    match it.next g σ with
    | (g', _, .stop) => some ([], .ok (), g')
    | (g', _, .raised e) => some ([], .error e, g')
    | (g', it', .item b) =>
      match drain g' it' σ fuel with
      | none => none
      | some (bs, r, g'') => some (b :: bs, r, g'')

/-- `list(sized_generator)` once for every shuffle outcome in the list, one after the other. -/
def iterateAll (g : Batches β) : List (List Nat → List Nat) → Option (List (List β × Except PyErr Unit))
  | [] => some []
  | σ :: σs =>
    match drain g g.iter σ (g.sizes.length + 1) with
    | none => none
    | some (bs, r, g') => (iterateAll g' σs).map ((bs, r) :: ·)

/-- thinc/backends/ops.py:84-132 `Ops.minibatch`. -/
def minibatch (fuel : Nat) (size : BatchSize) (seq : List α) (shuffle : Bool) (buffer : Int) :
    Option (Except PyErr (Batches (List α))) :=
  (getBatchSizes seq.length fuel size [] 0).map (fun r => r.map (fun sizes =>
    ⟨sizes, List.range seq.length, shuffle, buffer, getBatch seq⟩))

/-- thinc/backends/ops.py:134-172 `Ops.multibatch`. -/
def multibatch (fuel : Nat) (size : BatchSize) (seq : List α) (others : List (List α))
    (shuffle : Bool) (buffer : Int) : Option (Except PyErr (Batches (List (List α)))) :=
  (getBatchSizes seq.length fuel size [] 0).map (fun r => r.map (fun sizes =>
    ⟨sizes, List.range seq.length, shuffle, buffer,
      fun idx => mapRaise (fun s => getBatch s idx) (seq :: others)⟩))

/-! ### Several iterations over one generator at the same time -/

/-- What client code does with the sized generator: open one more iterator, or call `next` on the
`k`-th one (`σ`: the outcome of the shuffle, should one happen). -/
inductive BatchOp where
  | open'
  | next (k : Nat) (σ : List Nat → List Nat)

/-- One step of client code; the last component records `(iterator, result)` of a `next`. -/
def batchStep (g : Batches β) (its : List (BatchIter β)) :
    BatchOp → Batches β × List (BatchIter β) × List (Nat × NextResult β)
  | .open' => (g, its ++ [g.iter], [])
  | .next k σ => match its[k]? with
    | none => (g, its, [])
    | some it => match it.next g σ with
      | (g', it', r) => (g', its.set k it', [(k, r)])

/-- A whole history of client operations and its log of results. -/
def batchRun (g : Batches β) (its : List (BatchIter β)) : List BatchOp → List (Nat × NextResult β)
  | [] => []
  | op :: ops =>
    (batchStep g its op).2.2 ++ batchRun (batchStep g its op).1 (batchStep g its op).2.1 ops

end Thinc
