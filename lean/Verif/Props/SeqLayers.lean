import Verif.Lemmas.Rows
/-!
# C80: the sequence wrappers and conversion layers have exact gradients
-/
namespace Thinc
open Spec Spec.Tensor

section
variable {N : ℕ} {sh : Fin N → ℕ × ℕ} {train : Bool} {θ : Params sh} {ls : List ℕ} {m k : ℕ}

theorem ne_of_sum_pos (hn : 0 < ls.sum) : ls ≠ [] := by rintro rfl; simp at hn

/-! ### Conversion layers -/

/-- `list2ragged` keeps the rows, with exact gradients, for lists of arrays with at least one row. -/
theorem C80_list2ragged (hm : 0 < m) (hn : 0 < ls.sum) (x : Fin ls.sum → Fin m → ℝ) :
    Exact (sh := sh) list2raggedL train (Kind.seqs ls m) (Kind.ragged ls m) (fun p => p.2) θ x := by
  refine exact_convert (A := fun x => x) (IsVJP_id x) fun P v hv => ?_
  obtain ⟨seqs, e1, hs⟩ := arrays_of hv
  apply Exists.intro
  apply Exists.intro
  refine ⟨?_, ofRagged_of hm hn x, ?_⟩
  · simp only [list2raggedL, e1, bind, Except.bind, flatten_of hm hs (ne_of_sum_pos hn), lens_asList hs, pure, Except.pure]
    rfl
  · intro dv dy G hdv
    obtain ⟨dseqs, e2, hd⟩ := unflatten_of ls dy
    refine ⟨Val.ofArrays (asList m dseqs), ?_, ofArrays_of hd⟩
    simp only [asRagged_of hdv, e2]

/-- `ragged2list` keeps the rows, with exact gradients. -/
theorem C80_ragged2list (hm : 0 < m) (hn : 0 < ls.sum) (x : Fin ls.sum → Fin m → ℝ) :
    Exact (sh := sh) ragged2listL train (Kind.ragged ls m) (Kind.seqs ls m) (fun p => p.2) θ x := by
  refine exact_convert (A := fun x => x) (IsVJP_id x) fun P v hv => ?_
  obtain ⟨seqs, e1, hs⟩ := unflatten_of ls x
  apply Exists.intro
  apply Exists.intro
  refine ⟨?_, ofArrays_of hs, ?_⟩
  · simp only [ragged2listL, asRagged_of hv, bind, Except.bind, Ragged.dataXd, e1, pure, Except.pure]
    rfl
  · intro dv dy G hdv
    obtain ⟨dseqs, e2, hd⟩ := arrays_of (hdv : (Kind.seqs ls m).val dv dy)
    refine ⟨_, ?_, ofRagged_of hm hn dy⟩
    simp only [e2, flatten_of hm hd (ne_of_sum_pos hn)]

/-- `list2array` keeps the rows, with exact gradients, also if no array has rows. -/
theorem C80_list2array (hm : 0 < m) (hne : ls ≠ []) (x : Fin ls.sum → Fin m → ℝ) :
    Exact (sh := sh) list2arrayL train (Kind.seqs ls m) (Kind.arr ls.sum m) (fun p => p.2) θ x := by
  refine exact_convert (A := fun x => x) (IsVJP_id x) fun P v hv => ?_
  obtain ⟨seqs, e1, hs⟩ := arrays_of hv
  apply Exists.intro
  apply Exists.intro
  refine ⟨?_, ⟨_, rfl, toMat_of x⟩, ?_⟩
  · simp only [list2arrayL, e1, bind, Except.bind, flatten_of hm hs hne, lens_asList hs, pure, Except.pure]
    rfl
  · rintro dv dy G ⟨D, rfl, hD⟩
    obtain ⟨dseqs, e2, hd⟩ := unflatten_of ls dy
    refine ⟨Val.ofArrays (asList m dseqs), ?_, ofArrays_of hd⟩
    simp only [Val.asArr, toArr_of hD, e2]

/-! ### with_array -/

/-- `with_array(layer)` on a list of arrays computes what the layer computes on all their rows, with exact gradients.  The
gradient of the output and of the input are lists of arrays as well. -/
theorem C80_with_array_list (hm : 0 < m) (hk : 0 < k) (hne : ls ≠ []) {L : Layer}
    {f : Params sh × (Fin ls.sum → Fin m → ℝ) → Fin ls.sum → Fin k → ℝ} {x : Fin ls.sum → Fin m → ℝ}
    (h : Exact L train (Kind.arr ls.sum m) (Kind.arr ls.sum k) f θ x) :
    Exact (withArray2dL L 0) train (Kind.seqs ls m) (Kind.seqs ls k) f θ x := by
  refine exact_repack h fun P v hv => ?_
  obtain ⟨seqs, e1, hs⟩ := arrays_of hv
  refine ⟨.arr (Arr.toMat ⟨[m], rowsOf x⟩), ⟨_, rfl, toMat_of x⟩, ?_⟩
  rintro y cb ey ⟨Y, rfl, hY⟩
  obtain ⟨yseqs, e2, hy⟩ := unflatten_of ls (f (θ, x))
  have hd : withArray2dL L 0 train P v = withArrayListL L 0 train P v := by
    obtain ⟨As, rfl, _⟩ := hv
    rfl
  rw [hd]
  apply Exists.intro
  apply Exists.intro
  refine ⟨?_, ofArrays_of hy, ?_⟩
  · simp only [withArrayListL, e1, bind, Except.bind, flatten_of hm hs hne, lens_asList hs, ey, Val.asArr, toArr_of hY, e2, pure,
      Except.pure]
    rfl
  · intro dv dy G hdv
    obtain ⟨dseqs, e3, hds⟩ := arrays_of (hdv : (Kind.seqs ls k).val dv dy)
    refine ⟨.arr (Arr.toMat ⟨[k], rowsOf dy⟩), ⟨_, rfl, toMat_of dy⟩, ?_⟩
    rintro dx dxe G' ec ⟨D, rfl, hD⟩
    obtain ⟨xseqs, e4, hx⟩ := unflatten_of ls dxe
    refine ⟨Val.ofArrays (asList m xseqs), ?_, ofArrays_of hx⟩
    simp only [e3, flatten_of hk hds hne, ec, toArr_of hD, e4]

/-- `with_array(layer)` on a `Ragged`. -/
theorem C80_with_array_ragged (hm : 0 < m) (hk : 0 < k) (hn : 0 < ls.sum) (pad : ℕ) {L : Layer}
    {f : Params sh × (Fin ls.sum → Fin m → ℝ) → Fin ls.sum → Fin k → ℝ} {x : Fin ls.sum → Fin m → ℝ}
    (h : Exact L train (Kind.arr ls.sum m) (Kind.arr ls.sum k) f θ x) :
    Exact (withArray2dL L pad) train (Kind.ragged ls m) (Kind.ragged ls k) f θ x := by
  refine exact_repack h fun P v hv => ?_
  refine ⟨.arr (Arr.toMat ⟨[m], rowsOf x⟩), ⟨_, rfl, toMat_of x⟩, ?_⟩
  rintro y cb ey ⟨Y, rfl, hY⟩
  have hd : withArray2dL L pad train P v = withArrayRaggedL L train P v := by
    obtain ⟨A, rfl, _⟩ := hv
    rfl
  rw [hd]
  apply Exists.intro
  apply Exists.intro
  refine ⟨?_, ofRagged_of hk hn (f (θ, x)), ?_⟩
  · simp only [withArrayRaggedL, asRagged_of hv, Ragged.dataXd, bind, Except.bind, ey, Val.asArr, toArr_of hY, pure, Except.pure]
    rfl
  · intro dv dy G hdv
    refine ⟨.arr (Arr.toMat ⟨[k], rowsOf dy⟩), ⟨_, rfl, toMat_of dy⟩, ?_⟩
    rintro dx dxe G' ec ⟨D, rfl, hD⟩
    refine ⟨_, ?_, ofRagged_of hm hn dxe⟩
    simp only [asRagged_of hdv, ec, toArr_of hD]

/-- `with_array2d(layer)` on a `Padded`: the layer is applied to all cells, also those of the padding. -/
theorem C80_with_array2d_padded (pad : ℕ) {n steps : ℕ} {sizeAtT lengths indices : List ℕ} {L : Layer}
    {f : Params sh × (Fin n → Fin m → ℝ) → Fin n → Fin k → ℝ} {x : Fin n → Fin m → ℝ}
    (h : Exact L train (Kind.arr n m) (Kind.arr n k) f θ x) :
    Exact (withArray2dL L pad) train (Kind.padded n m steps sizeAtT lengths indices)
      (Kind.padded n k steps sizeAtT lengths indices) f θ x := by
  refine exact_repack h ?_
  rintro P _ ⟨A, rfl, hA⟩
  refine ⟨.arr A, ⟨_, rfl, hA⟩, ?_⟩
  rintro y cb ey ⟨Y, rfl, hY⟩
  have hr : reshapeCells Y A.rows = .ok Y := if_pos (hY.1.trans hA.1.symm)
  have hd : withArray2dL L pad train P (.padded A steps sizeAtT lengths indices) =
      withArray2dPaddedL L train P (.padded A steps sizeAtT lengths indices) := rfl
  rw [hd]
  apply Exists.intro
  apply Exists.intro
  refine ⟨?_, ⟨Y, rfl, hY⟩, ?_⟩
  · simp only [withArray2dPaddedL, Val.paddedParts, bind, Except.bind, ey, Val.asArr, hr, pure, Except.pure]
    rfl
  · rintro dv dy G ⟨D, rfl, hD⟩
    refine ⟨.arr D, ⟨_, rfl, hD⟩, ?_⟩
    rintro dx dxe G' ec ⟨D', rfl, hD'⟩
    have hr' : reshapeCells D' D.rows = .ok D' := if_pos (hD'.1.trans hD.1.symm)
    refine ⟨_, ?_, ⟨D', rfl, hD'⟩⟩
    simp only [ec, hr']

/-- `with_array(layer)` on an array is the layer. -/
theorem C80_with_array_array (L : Layer) (pad : ℕ) (P : ParamVals) (A : Mat ℝ) :
    withArray2dL L pad train P (.arr A) = L train P (.arr A) := rfl

/-! ### with_list and with_ragged -/

/-- `with_list(layer)` on a `Ragged`. -/
theorem C80_with_list_ragged (hm : 0 < m) (hk : 0 < k) (hn : 0 < ls.sum) {L : Layer}
    {f : Params sh × (Fin ls.sum → Fin m → ℝ) → Fin ls.sum → Fin k → ℝ} {x : Fin ls.sum → Fin m → ℝ}
    (h : Exact L train (Kind.seqs ls m) (Kind.seqs ls k) f θ x) :
    Exact (withListL L) train (Kind.ragged ls m) (Kind.ragged ls k) f θ x := by
  refine exact_repack h fun P v hv => ?_
  obtain ⟨seqs, e1, hs⟩ := unflatten_of ls x
  refine ⟨Val.ofArrays (asList m seqs), ofArrays_of hs, ?_⟩
  intro y cb ey hy
  obtain ⟨yseqs, e2, hys⟩ := arrays_of hy
  have hd : withListL L train P v = withListRaggedL L train P v := by
    obtain ⟨A, rfl, _⟩ := hv
    rfl
  rw [hd]
  apply Exists.intro
  apply Exists.intro
  refine ⟨?_, ofRagged_of hk hn (f (θ, x)), ?_⟩
  · simp only [withListRaggedL, asRagged_of hv, bind, Except.bind, e1, ey, e2, flatten_of hk hys (ne_of_sum_pos hn), pure,
      Except.pure]
    rfl
  · intro dv dy G hdv
    obtain ⟨dseqs, e3, hds⟩ := unflatten_of ls dy
    refine ⟨Val.ofArrays (asList k dseqs), ofArrays_of hds, ?_⟩
    intro dx dxe G' ec hdx
    obtain ⟨xseqs, e4, hxs⟩ := arrays_of (hdx : (Kind.seqs ls m).val dx dxe)
    refine ⟨_, ?_, ofRagged_of hm hn dxe⟩
    simp only [asRagged_of hdv, e3, ec, e4, flatten_of hm hxs (ne_of_sum_pos hn)]

/-- `with_list(layer)` on a list is the layer. -/
theorem C80_with_list_list (L : Layer) (P : ParamVals) (vs : List Val) :
    withListL L train P (.list vs) = L train P (.list vs) := rfl

/-- `with_ragged(layer)` on a list of arrays. -/
theorem C80_with_ragged_list (hm : 0 < m) (hk : 0 < k) (hn : 0 < ls.sum) {L : Layer}
    {f : Params sh × (Fin ls.sum → Fin m → ℝ) → Fin ls.sum → Fin k → ℝ} {x : Fin ls.sum → Fin m → ℝ}
    (h : Exact L train (Kind.ragged ls m) (Kind.ragged ls k) f θ x) :
    Exact (withRaggedL L) train (Kind.seqs ls m) (Kind.seqs ls k) f θ x := by
  refine exact_repack h fun P v hv => ?_
  obtain ⟨seqs, e1, hs⟩ := arrays_of hv
  refine ⟨_, ofRagged_of hm hn x, ?_⟩
  intro y cb ey hy
  obtain ⟨yseqs, e2, hys⟩ := unflatten_of ls (f (θ, x))
  have hd : withRaggedL L train P v = withRaggedListL L train P v := by
    obtain ⟨As, rfl, _⟩ := hv
    rfl
  rw [hd]
  apply Exists.intro
  apply Exists.intro
  refine ⟨?_, ofArrays_of hys, ?_⟩
  · simp only [withRaggedListL, e1, bind, Except.bind, flatten_of hm hs (ne_of_sum_pos hn), lens_asList hs, ey, asRagged_of hy,
      e2, pure, Except.pure]
    rfl
  · intro dv dy G hdv
    obtain ⟨dseqs, e3, hds⟩ := arrays_of (hdv : (Kind.seqs ls k).val dv dy)
    refine ⟨_, ofRagged_of hk hn dy, ?_⟩
    intro dx dxe G' ec hdx
    obtain ⟨xseqs, e4, hxs⟩ := unflatten_of ls dxe
    refine ⟨Val.ofArrays (asList m xseqs), ?_, ofArrays_of hxs⟩
    simp only [e3, flatten_of hk hds (ne_of_sum_pos hn), ec, asRagged_of hdx, e4]

/-- `with_ragged(layer)` on a `Ragged` is the layer. -/
theorem C80_with_ragged_ragged (L : Layer) (P : ParamVals) (A : Mat ℝ) :
    withRaggedL L train P (.ragged A ls) = L train P (.ragged A ls) := rfl

end
end Thinc
