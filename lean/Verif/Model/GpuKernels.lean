import Verif.Model.Gpu
import Verif.Model.Maxout
import Mathlib.Order.Lattice
import Mathlib.Order.MinMax
/-!
# The CUDA kernels over sequences and tables, and the functions that launch them

Arrays are passed to a kernel by number, in the order of its pointer arguments.  Each kernel is one loop over items; its body is given
as the program for one item.  In the functions that launch them, the check of the dtype is left out, and so is the choice between the
`float` and the `double` variant.
-/
namespace Thinc.Gpu
variable {α : Type}

/-! ## Kernels -/

/-- thinc/backends/_custom_kernels.cu:32-40, the loop body of `gather_add`. -/
def gatherAddBody [Add α] (out table indices : Nat) (O K : Nat) (_ : Unit) (b : Nat) : Prog α Unit :=
  loop K () (fun _ k => do
    let idx ← readInt indices (b * K + k : Nat)
    loop O () (fun _ o => do
      let x ← readNum out (b * O + o : Nat)
      let y ← readNum table (idx * O + o)
      writeNum out (b * O + o : Nat) (x + y)))

/-- thinc/backends/_custom_kernels.cu:91-96 and 350-355 `for (; seq < nL; ++seq) …`: go on to the sequence in which `b` lies.  The local
variables are the number of the sequence and its first row. -/
def findSeq (lengths nL b : Nat) : Nat → Nat × Int → Prog α (Nat × Int)
  | 0, s => .ret s
  | fuel + 1, s =>
    if s.1 < nL then do
      let l ← readInt lengths s.1
      if (b : Int) < s.2 + l then pure s else findSeq lengths nL b fuel (s.1 + 1, s.2 + l)
    else .ret s

/-- thinc/backends/_custom_kernels.cu:88-120, the loop body of `seq2col`. -/
def seq2colBody (out X lengths : Nat) (nW I nL : Nat) (s : Nat × Int) (b : Nat) : Prog α (Nat × Int) := do
  let s ← findSeq lengths nL b nL s
  let l ← readInt lengths s.1
  let seqEnd := s.2 + l
  let windowStart : Int := b - nW
  let windowEnd : Int := b + nW + 1
  let xStart := max s.2 windowStart
  let xEnd := min seqEnd windowEnd
  let nElems := xEnd - xStart
  let outOffset := xStart - windowStart
  let _ ← loop (nElems * I).toNat () (fun _ i => do
    let x ← readNum X (xStart * I + i)
    writeNum out ((b * I * (nW * 2 + 1) : Nat) + outOffset * I + i) x)
  pure s

/-- thinc/backends/_custom_kernels.cu:347-387, the loop body of `backprop_seq2col`. -/
def backpropSeq2colBody [Add α] (dSeqs dCols lengths : Nat) (nW I nL : Nat) (s : Nat × Int) (b : Nat) : Prog α (Nat × Int) := do
  let s ← findSeq lengths nL b nL s
  let l ← readInt lengths s.1
  let seqEnd := s.2 + l
  let windowStart : Int := b - nW
  let windowEnd : Int := b + nW + 1
  let dStart := max s.2 windowStart
  let dEnd := min seqEnd windowEnd
  let _ ← loop (dEnd - dStart).toNat () (fun _ j => do
    let bw : Int := dStart + j
    let position : Int := 2 * nW - (bw - windowStart)
    let start : Int := bw * I * (nW * 2 + 1 : Nat) + position * I
    loop I () (fun _ i => do
      let x ← readNum dSeqs (b * I + i : Nat)
      let y ← readNum dCols (start + i)
      writeNum dSeqs (b * I + i : Nat) (x + y)))
  pure s

/-- thinc/backends/_custom_kernels.cu:130-139, the loop body of `pad`.  `seqs` is the array of pointers to the sequences. -/
def padBody [Zero α] (out : Nat) (seqs : Nat → Nat) (lengths stride N L : Nat) (_ : Unit) (i : Nat) : Prog α Unit :=
  loop N () (fun _ j => do
    let l ← readInt lengths j
    if (i : Int) < l * stride then do
      let x ← readNum (seqs j) i
      writeNum out (j * L * stride + i : Nat) x
    else writeNum out (j * L * stride + i : Nat) 0)

/-- thinc/backends/_custom_kernels.cu:148-165, the loop body of `maxout`. -/
def maxoutBody [LinearOrder α] (best which cands P : Nat) (_ : Unit) (bo : Nat) : Prog α Unit := do
  let x ← readNum cands (bo * P : Nat)
  let r ← loop (P - 1) (x, 0) (fun r i => do
    let y ← readNum cands (bo * P + (i + 1) : Nat)
    pure (if y > r.1 then (y, i + 1) else r))
  writeInt which bo r.2
  writeNum best bo r.1

/-- thinc/backends/_custom_kernels.cu:499-507, the loop body of `backprop_maxout`. -/
def backpropMaxoutBody (dX dY which O P : Nat) (_ : Unit) (b : Nat) : Prog α Unit :=
  loop O () (fun _ i => do
    let w ← readInt which (b * O + i : Nat)
    let y ← readNum dY (b * O + i : Nat)
    writeNum dX ((b * O * P : Nat) + (i * P + w)) y)

/-- thinc/backends/_custom_kernels.cu:265-268 and 297-299 `for (int i=0; i < b; ++i) t += lengths[i]`. -/
def startOf (lengths b : Nat) : Prog α Int :=
  loop b (0 : Int) (fun t i => do
    let l ← readInt lengths i
    pure (t + l))

/-- thinc/backends/_custom_kernels.cu:261-280, the loop body of `reduce_sum`. -/
def reduceSumBody [Add α] (out X lengths O : Nat) (_ : Unit) (b : Nat) : Prog α Unit := do
  let t ← startOf lengths b
  let length ← readInt lengths b
  loop length.toNat () (fun _ i =>
    loop O () (fun _ j => do
      let x ← readNum out (b * O + j : Nat)
      let y ← readNum X ((t + i) * O + j)
      writeNum out (b * O + j : Nat) (x + y)))

/-- thinc/backends/_custom_kernels.cu:290-321, the loop body of `reduce_max`. -/
def reduceMaxBody [LinearOrder α] (maxes which X lengths O : Nat) (_ : Unit) (b : Nat) : Prog α Unit := do
  let t ← startOf lengths b
  let _ ← loop O () (fun _ i => do
    let x ← readNum X (t * O + i)
    writeNum maxes (b * O + i : Nat) x
    writeInt which (b * O + i : Nat) 0)
  let length ← readInt lengths b
  loop (length.toNat - 1) () (fun _ i =>
    loop O () (fun _ j => do
      let x ← readNum X ((t + (i + 1 : Nat)) * O + j)
      let y ← readNum maxes (b * O + j : Nat)
      if x > y then do
        writeNum maxes (b * O + j : Nat) x
        writeInt which (b * O + j : Nat) (i + 1 : Nat)
      else pure ()))

/-- thinc/backends/_custom_kernels.cu:573-577, 600-604 and 634-638 `while ((b < B) && (seq_start+lengths[b]) <= t) …`.  The local variables
are the number of the sequence and its first row. -/
def advance (lengths B t : Nat) : Nat → Nat × Int → Prog α (Nat × Int)
  | 0, s => .ret s
  | fuel + 1, s =>
    if s.1 < B then do
      let l ← readInt lengths s.1
      if s.2 + l ≤ t then advance lengths B t fuel (s.1 + 1, s.2 + l) else pure s
    else .ret s

/-- thinc/backends/_custom_kernels.cu:570-585, the loop body of `backprop_reduce_sum`. -/
def backpropReduceSumBody (dX dSum lengths B O : Nat) (s : Nat × Int) (t : Nat) : Prog α (Nat × Int) := do
  let s ← advance lengths B t B s
  let l ← readInt lengths s.1
  if l = 0 then pure s else do
    let _ ← loop O () (fun _ i => do
      let x ← readNum dSum (s.1 * O + i : Nat)
      writeNum dX (t * O + i : Nat) x)
    pure s

/-- thinc/backends/_custom_kernels.cu:597-615, the loop body of `backprop_reduce_mean`. -/
def backpropReduceMeanBody [Div α] [IntCast α] (dX dMean lengths B O : Nat) (s : Nat × Int) (t : Nat) : Prog α (Nat × Int) := do
  let s ← advance lengths B t B s
  let l ← readInt lengths s.1
  if l = 0 then pure s else do
    let l ← readInt lengths s.1
    let _ ← loop O () (fun _ i => do
      let x ← readNum dMean (s.1 * O + i : Nat)
      writeNum dX (t * O + i : Nat) (x / (l : α)))
    pure s

/-- thinc/backends/_custom_kernels.cu:627-657, the loop body of `backprop_reduce_max`. -/
def backpropReduceMaxBody (dX dMaxes which lengths B O : Nat) (s : Nat × Int) (t : Nat) : Prog α (Nat × Int) := do
  let s ← advance lengths B t B s
  let l ← readInt lengths s.1
  if l = 0 then pure s else do
    let indexOfT : Int := t - s.2
    let _ ← loop O () (fun _ i => do
      let w ← readInt which (s.1 * O + i : Nat)
      if w = indexOfT then do
        let x ← readNum dMaxes (s.1 * O + i : Nat)
        writeNum dX (t * O + i : Nat) x
      else pure ())
    pure s

/-! ## Launching -/

/-- The arrays that are passed to a kernel. -/
def memOf (as : List (Nat × (Nat → Cell α))) : Mem α :=
  ⟨fun p => (as.getD p (0, fun _ => .int 0)).1, fun p => (as.getD p (0, fun _ => .int 0)).2⟩

/-- A contiguous array of floats. -/
def nums (size : Nat) (val : Nat → α) : Nat × (Nat → Cell α) := (size, fun k => .num (val k))

/-- A contiguous array of ints. -/
def ints (size : Nat) (val : Nat → Int) : Nat × (Nat → Cell α) := (size, fun k => .int (val k))

/-- An array of sequence lengths. -/
def lens (ls : List Int) : Nat × (Nat → Cell α) := ints ls.length (fun k => ls.getD k 0)

/-- A kernel and its arguments. -/
structure Launch (α : Type) where
  kernel : Kernel α
  mem : Mem α

/-- thinc/backends/_custom_kernels.py:835-840 `_check_lengths`. -/
def gpuCheckLengths (lengths : List Int) (nElems : Nat) (minLength : Int) : Except PyErr Unit :=
  if ¬ lengths.all (fun l => minLength ≤ l) then .error .valueError
  else if lengths.sum ≠ nElems then .error .indexError
  else .ok ()

/-- thinc/backends/_custom_kernels.py:339-344 `check_seq2col_lengths`. -/
def gpuSeq2colLengths (lengths : Option (List Int)) (B : Nat) : Except PyErr (List Int) :=
  match lengths with
  | none => .ok [(B : Int)]
  | some ls => do
    gpuCheckLengths ls B 0
    return ls

/-- The conversion to 32-bit integers of `indices.astype("int32")`. -/
def toInt32 (k : Int) : Int := (k + 2 ^ 31) % 2 ^ 32 - 2 ^ 31

/-- thinc/backends/_custom_kernels.py:279-306 `gather_add`, with `_check_indices` (843-847). -/
def gpuGatherAdd [Add α] [Zero α] (table : Mat α) (indices : Mat Int) : Except PyErr (Launch α) :=
  let idx : Nat → Int := fun k => toInt32 (indices.val k)
  if (List.range (indices.rows * indices.cols)).all (fun k => 0 ≤ idx k ∧ idx k < table.rows) then
    .ok ⟨grid indices.rows () (gatherAddBody 0 1 2 table.cols indices.cols),
      memOf [nums (indices.rows * table.cols) (fun _ => 0), nums (table.rows * table.cols) table.val,
        ints (indices.rows * indices.cols) idx]⟩
  else .error .indexError

/-- thinc/backends/_custom_kernels.py:347-369 `seq2col`.  No kernel is launched for empty arrays. -/
def gpuSeq2col [Zero α] (seq : Mat α) (nW : Nat) (lengths : Option (List Int)) : Except PyErr (Launch α) := do
  let ls ← gpuSeq2colLengths lengths seq.rows
  let mem := memOf [nums (seq.rows * (seq.cols * (nW * 2 + 1))) (fun _ => 0), nums (seq.rows * seq.cols) seq.val, lens ls]
  if seq.rows * seq.cols ≠ 0 ∧ ls.length ≠ 0 then
    return ⟨grid seq.rows (0, 0) (seq2colBody 0 1 2 nW seq.cols ls.length), mem⟩
  else return ⟨fun _ _ => .ret (), mem⟩

/-- thinc/backends/_custom_kernels.py:502-524 `backprop_seq2col`. -/
def gpuBackpropSeq2col [Add α] [Zero α] (dY : Mat α) (nW : Nat) (lengths : Option (List Int)) : Except PyErr (Launch α) := do
  let I := dY.cols / (nW * 2 + 1)
  let ls ← gpuSeq2colLengths lengths dY.rows
  let mem := memOf [nums (dY.rows * I) (fun _ => 0), nums (dY.rows * dY.cols) dY.val, lens ls]
  if dY.rows * dY.cols ≠ 0 ∧ ls.length ≠ 0 then
    return ⟨grid dY.rows (0, 0) (backpropSeq2colBody 0 1 2 nW I ls.length), mem⟩
  else return ⟨fun _ _ => .ret (), mem⟩

/-- thinc/backends/_custom_kernels.py:372-390 `maxout`; `junk` and `junkW` are what the allocated arrays happen to contain. -/
def gpuMaxout [LinearOrder α] (junk : Nat → α) (junkW : Nat → Int) (X : Cube α) : Launch α :=
  ⟨grid (X.d0 * X.d1) () (maxoutBody 0 1 2 X.d2),
    memOf [nums (X.d0 * X.d1) junk, ints (X.d0 * X.d1) junkW, nums (X.d0 * X.d1 * X.d2) X.val]⟩

/-- thinc/backends/_custom_kernels.py:661-680 `backprop_maxout`, with `_check_which_maxout` (850-858). -/
def gpuBackpropMaxout [Zero α] (dY : Mat α) (which : Mat Int) (P : Nat) : Except PyErr (Launch α) :=
  if ¬ (which.rows = dY.rows ∧ which.cols = dY.cols) then .error .valueError
  else if (List.range (which.rows * which.cols)).all (fun k => 0 ≤ which.val k ∧ which.val k < P) then
    .ok ⟨grid dY.rows () (backpropMaxoutBody 0 1 2 dY.cols P),
      memOf [nums (dY.rows * dY.cols * P) (fun _ => 0), nums (dY.rows * dY.cols) dY.val, ints (which.rows * which.cols) which.val]⟩
  else .error .indexError

/-- thinc/backends/_custom_kernels.py:412-432 `reduce_sum`. -/
def gpuReduceSum [Add α] [Zero α] (X : Mat α) (lengths : List Int) : Except PyErr (Launch α) := do
  gpuCheckLengths lengths X.rows 0
  return ⟨grid lengths.length () (reduceSumBody 0 1 2 X.cols),
    memOf [nums (lengths.length * X.cols) (fun _ => 0), nums (X.rows * X.cols) X.val, lens lengths]⟩

/-- thinc/backends/_custom_kernels.py:456 `out /= lengths.reshape((-1, 1)) + 1e-10`, the last step of `reduce_mean` (435-457), whose
kernel launch is that of `reduce_sum`: the value that row `b` of the result has when the kernel left `x` there. -/
def gpuReduceMeanDivide [Div α] [Add α] [IntCast α] (eps : α) (lengths : List Int) (b : Nat) (x : α) : α := x / ((lengths.getD b 0 : Int) + eps)

/-- thinc/backends/_custom_kernels.py:460-482 `reduce_max`. -/
def gpuReduceMax [LinearOrder α] (junk : Nat → α) (junkW : Nat → Int) (X : Mat α) (lengths : List Int) : Except PyErr (Launch α) := do
  gpuCheckLengths lengths X.rows 1
  return ⟨grid lengths.length () (reduceMaxBody 0 1 2 3 X.cols),
    memOf [nums (lengths.length * X.cols) junk, ints (lengths.length * X.cols) junkW, nums (X.rows * X.cols) X.val, lens lengths]⟩

/-- thinc/backends/_custom_kernels.py:705-724 `backprop_reduce_sum`.  `T` is `int(lengths.sum())`; that the lengths add up to `T` holds
by itself.  That `d_sums` has a row for each sequence is not checked. -/
def gpuBackpropReduceSum (junk : Nat → α) (d : Mat α) (lengths : List Int) : Except PyErr (Launch α) := do
  gpuCheckLengths lengths lengths.sum.toNat 0
  return ⟨grid lengths.sum.toNat (0, 0) (backpropReduceSumBody 0 1 2 lengths.length d.cols),
    memOf [nums (lengths.sum.toNat * d.cols) junk, nums (d.rows * d.cols) d.val, lens lengths]⟩

/-- thinc/backends/_custom_kernels.py:727-746 `backprop_reduce_mean`. -/
def gpuBackpropReduceMean [Div α] [IntCast α] (junk : Nat → α) (d : Mat α) (lengths : List Int) : Except PyErr (Launch α) := do
  gpuCheckLengths lengths lengths.sum.toNat 0
  return ⟨grid lengths.sum.toNat (0, 0) (backpropReduceMeanBody 0 1 2 lengths.length d.cols),
    memOf [nums (lengths.sum.toNat * d.cols) junk, nums (d.rows * d.cols) d.val, lens lengths]⟩

/-- thinc/backends/_custom_kernels.py:749-772 `backprop_reduce_max`, with `_check_which_reduce_max` (876-883). -/
def gpuBackpropReduceMax [Zero α] (d : Mat α) (which : Mat Int) (lengths : List Int) : Except PyErr (Launch α) := do
  gpuCheckLengths lengths lengths.sum.toNat 1
  if ¬ (which.rows = lengths.length ∧ which.cols = d.cols) then .error .valueError
  else if (List.range which.rows).all (fun b => (List.range which.cols).all (fun o => 0 ≤ which.at b o ∧ which.at b o < lengths.getD b 0)) then
    .ok ⟨grid lengths.sum.toNat (0, 0) (backpropReduceMaxBody 0 1 2 3 lengths.length d.cols),
      memOf [nums (lengths.sum.toNat * d.cols) (fun _ => 0), nums (d.rows * d.cols) d.val, ints (which.rows * which.cols) which.val,
        lens lengths]⟩
  else .error .indexError

/-- thinc/backends/_custom_kernels.py:189-244 `pad` for sequences whose rows have `stride` elements, after the checks of
thinc/backends/cupy_ops.py:104-128 (same shape of the rows, at least one sequence).  `junk` is what the allocated result happens to
contain; the sequences are the arrays 2, 3, …. -/
def gpuPad [Zero α] (junk : Nat → α) (seqs : List (Mat α)) (stride : Nat) (roundTo : Int) : Except PyErr (Nat × Launch α) :=
  if roundTo < 1 then .error .valueError
  else
    let lengths : List Nat := seqs.map Mat.rows
    let maxLen := lengths.foldl max 0
    let L := maxLen + (-(maxLen : Int) % roundTo).toNat
    .ok (L, ⟨grid (L * stride) () (padBody 0 (fun j => j + 2) 1 stride seqs.length L),
      memOf (nums (seqs.length * L * stride) junk :: lens (lengths.map Int.ofNat) :: seqs.map (fun s => nums (s.rows * s.cols) s.val))⟩)

end Thinc.Gpu
