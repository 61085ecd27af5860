import Verif.Model.Pooling
/-!
# gather_add and scatter_add
-/
namespace Thinc
variable {K : Type} [Semiring K]

/-- thinc/backends/cpu_kernels.hh:468-479 `cpu_gather_add`; `axpy` is BLAS `y += a * x` on
contiguous vectors, the exception `out_of_range` becomes IndexError. -/
def cpuGatherAdd (out table : Buf K) (indices : Buf Int) (T O B nK : Nat) : Except PyErr (Buf K) :=
  forN B out (fun out b =>
    forN nK out (fun out k => do
      let idx ← indices.read (b * nK + k : Nat)
      if idx > T then .error .indexError
      else vecAdd out (b * O : Nat) table (idx * O) 1 O))

/-- thinc/backends/numpy_ops.pyx:484-499 `NumpyOps.gather_add`. -/
def gatherAdd (table : Mat K) (indices : Mat Int) : Except PyErr (Mat K) := do
  let t ← table.pointer
  let ix ← indices.pointer
  let out ← cpuGatherAdd (Mat.zeros indices.rows table.cols : Mat K).buf t ix table.rows table.cols
    indices.rows indices.cols
  pure (out.toMat indices.rows table.cols)

/-- A numpy index into an axis of length `n`: negative ones count from the end. -/
def npIndex (n : Nat) (i : Int) : Except PyErr Nat :=
  if 0 ≤ i ∧ i < n then .ok i.toNat
  else if i < 0 ∧ -(n : Int) ≤ i then .ok (i + n).toNat
  else .error .indexError

/-- thinc/backends/ops.py:1378-1379 `Ops.gather_add`: `table[indices].sum(axis=1)`. -/
def opsGatherAdd (table : Mat K) (indices : Mat Int) : Except PyErr (Mat K) :=
  if ∀ i < indices.rows * indices.cols, ∃ j < table.rows, npIndex table.rows (indices.val i) = .ok j then
    .ok ⟨indices.rows, table.cols, fun c =>
      ((List.range indices.cols).map (fun k =>
        match npIndex table.rows (indices.at (c / table.cols) k) with
        | .ok j => table.at j (c % table.cols)
        | .error _ => 0)).sum⟩
  else .error .indexError

/-- thinc/backends/numpy_ops.pyx:588-597 `cpu_scatter_add`: negative ids are skipped, the upper
bound is not checked. -/
def cpuScatterAdd (dest : Buf K) (indices : List Int) (src : Buf K) (nrCol : Nat) : Except PyErr (Buf K) := do
  let s ← forM' indices (dest, 0) (fun (s : Buf K × Nat) id => do
    if id ≥ 0 then
      let dest ← vecAdd s.1 (id * nrCol) src (s.2 * nrCol : Nat) 1 nrCol
      pure (dest, s.2 + 1)
    else pure (s.1, s.2 + 1))
  pure s.1

/-- `numpy.add.at(table, indices, values)` for 1-d `indices` and 2-d `table` and `values`: the values
are broadcast to one row per index, all indices are checked first, then row after row is added. -/
def addAt (table : Mat K) (indices : List Int) (values : Mat K) : Except PyErr (Mat K) :=
  if ¬ ((values.rows = indices.length ∨ values.rows = 1) ∧ (values.cols = table.cols ∨ values.cols = 1)) then
    .error .valueError
  else if ¬ indices.all (fun i => decide (-(table.rows : Int) ≤ i ∧ i < table.rows)) then .error .indexError
  else
    .ok ⟨table.rows, table.cols, (indices.zipIdx).foldl (fun v (p : Int × Nat) =>
      let row := (if p.1 < 0 then p.1 + table.rows else p.1).toNat
      let vr := if values.rows = 1 then 0 else p.2
      fun c => if row * table.cols ≤ c ∧ c < row * table.cols + table.cols then
          v c + values.at vr (if values.cols = 1 then 0 else c - row * table.cols)
        else v c) table.val⟩

/-- thinc/backends/numpy_ops.pyx:501-517 `NumpyOps.scatter_add`, as the new content of `table`.
`fast` says that the arrays are C-contiguous with the dtypes float32, int32, float32; the number of
dimensions is fixed here (1-d indices, 2-d table and values).  The generic
thinc/backends/ops.py:1381-1384 is the case `fast = false`. -/
def scatterAdd (fast : Bool) (table : Mat K) (indices : List Int) (values : Mat K) : Except PyErr (Mat K) :=
  if fast ∧ values.rows = indices.length ∧ values.cols = table.cols then do
    let b ← cpuScatterAdd table.buf indices values.buf table.cols
    pure (b.toMat table.rows table.cols)
  else addAt table indices values

/-- Column `k` of an index matrix, `keys.T[k]`. -/
def Mat.column (x : Mat Int) (k : Nat) : List Int := (List.range x.rows).map (fun b => x.at b k)

/-- thinc/layers/hashembed.py:86-89, the gradient of the table in `HashEmbed`: a zero array into which
each column of the keys is scattered. -/
def scatterColumns (fast : Bool) (rows cols : Nat) (keys : Mat Int) (d : Mat K) : Except PyErr (Mat K) :=
  forN keys.cols (Mat.zeros rows cols) (fun dE k => scatterAdd fast dE (keys.column k) d)

end Thinc
