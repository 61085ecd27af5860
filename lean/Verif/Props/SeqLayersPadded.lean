import Verif.Props.SeqLayers
import Verif.Lemmas.BatchPlaces
import Verif.Props.Linear
/-!
# C80, continued: padding rows and padded batches

`ix` is the order of the columns that `list2padded` uses (`IsOrder` determines it), and `place` says where each row goes.
-/
namespace Thinc
open Spec Spec.Tensor

section
variable {N : ℕ} {sh : Fin N → ℕ × ℕ} {train : Bool} {θ : Params sh} {ls ix : List ℕ} {m k : ℕ}

/-- `with_array(layer, pad=pad)` on a list of arrays: the layer sees the sequences with `pad` blank rows before each one and after
the last one, and its output for the blank rows is dropped. -/
theorem C80_with_array_list_pad (hm : 0 < m) (hk : 0 < k) (hne : ls ≠ []) (pad : ℕ)
    (place : Fin ls.sum → Fin (blankedRows pad ls)) (hplace : ∀ r, (place r : ℕ) = blankedPlace pad ls r) {L : Layer}
    {f : Params sh × (Fin (blankedRows pad ls) → Fin m → ℝ) → Fin (blankedRows pad ls) → Fin k → ℝ} {x : Fin ls.sum → Fin m → ℝ}
    (h : Exact L train (Kind.arr (blankedRows pad ls) m) (Kind.arr (blankedRows pad ls) k) f θ (spread place x)) :
    Exact (withArray2dL L pad) train (Kind.seqs ls m) (Kind.seqs ls k)
      (fun p => collect place (f (p.1, spread place p.2))) θ x := by
  obtain rfl : place = blankedAt pad ls := funext fun r => Fin.ext (hplace r)
  refine exact_wrap (A := spread (blankedAt pad ls)) (B := collect (blankedAt pad ls)) (IsVJP_spread _ x) (IsVJP_collect _ _) h
    fun P v hv => ?_
  obtain ⟨seqs, e1, hs⟩ := arrays_of hv
  refine ⟨.arr (Arr.toMat ⟨[m], rowsOf (spread (blankedAt pad ls) x)⟩), ⟨_, rfl, toMat_of _⟩, ?_⟩
  rintro y cb ey ⟨Y, rfl, hY⟩
  obtain ⟨yseqs, e2, hy⟩ := unflatten_pad_of pad ls (f (θ, spread (blankedAt pad ls) x))
  have hd : withArray2dL L pad train P v = withArrayListL L pad train P v := by
    obtain ⟨As, rfl, _⟩ := hv
    rfl
  rw [hd]
  apply Exists.intro
  apply Exists.intro
  refine ⟨?_, ofArrays_of hy, ?_⟩
  · simp only [withArrayListL, e1, bind, Except.bind, flatten_pad_of hm pad hs hne, lens_asList hs, ey, Val.asArr, toArr_of hY, e2,
      pure, Except.pure]
    rfl
  · intro dv dy G hdv
    obtain ⟨dseqs, e3, hds⟩ := arrays_of (hdv : (Kind.seqs ls k).val dv dy)
    refine ⟨.arr (Arr.toMat ⟨[k], rowsOf (spread (blankedAt pad ls) dy)⟩), ⟨_, rfl, toMat_of _⟩, ?_⟩
    rintro dx dxe G' ec ⟨D, rfl, hD⟩
    obtain ⟨xseqs, e4, hx⟩ := unflatten_pad_of pad ls dxe
    refine ⟨Val.ofArrays (asList m xseqs), ?_, ofArrays_of hx⟩
    simp only [e3, flatten_pad_of hk pad hds hne, ec, toArr_of hD, e4]

/-! ### list2padded and padded2list -/

/-- `list2padded` puts the rows at their places, and zeros into the padding; its gradient takes the rows back. -/
theorem C80_list2padded (hne : ls ≠ []) (ho : IsOrder ls ix) (place : Fin ls.sum → Fin (maxLength ls * ls.length))
    (hp : IsBatchPlace ls ix place) (x : Fin ls.sum → Fin m → ℝ) :
    Exact (sh := sh) list2paddedL train (Kind.seqs ls m) (Kind.batch ls ix m) (fun p => spread place p.2) θ x := by
  refine exact_convert (IsVJP_spread place x) fun P v hv => ?_
  obtain ⟨seqs, e1, hs⟩ := arrays_of hv
  obtain ⟨p, e2, hpv⟩ := pad_of ho hp hne hs
  apply Exists.intro
  apply Exists.intro
  refine ⟨?_, hpv, ?_⟩
  · simp only [list2paddedL, e1, bind, Except.bind, e2, pure, Except.pure]
    rfl
  · intro dv dy G hdv
    obtain ⟨q, dseqs, e3, e4, hd⟩ := unpad_of ho hp (hdv : (Kind.batch ls ix m).val dv dy)
    refine ⟨Val.ofArrays (asList m dseqs), ?_, ofArrays_of hd⟩
    simp only [e3, e4]

/-- `padded2list` takes the rows from their places; the gradient of the padding is zero. -/
theorem C80_padded2list (hne : ls ≠ []) (ho : IsOrder ls ix) (place : Fin ls.sum → Fin (maxLength ls * ls.length))
    (hp : IsBatchPlace ls ix place) (y : Fin (maxLength ls * ls.length) → Fin m → ℝ) :
    Exact (sh := sh) padded2listL train (Kind.batch ls ix m) (Kind.seqs ls m) (fun p => collect place p.2) θ y := by
  refine exact_convert (IsVJP_collect place y) fun P v hv => ?_
  obtain ⟨p, seqs, e1, e2, hs⟩ := unpad_of ho hp hv
  apply Exists.intro
  apply Exists.intro
  refine ⟨?_, ofArrays_of hs, ?_⟩
  · simp only [padded2listL, e1, bind, Except.bind, e2, pure, Except.pure]
    rfl
  · intro dv dy G hdv
    obtain ⟨dseqs, e3, hd⟩ := arrays_of (hdv : (Kind.seqs ls m).val dv dy)
    obtain ⟨q, e4, hq⟩ := pad_of ho hp hne hd
    refine ⟨Val.ofPadded q, ?_, hq⟩
    simp only [e3, e4]

/-! ### The wrappers on padded batches -/

/-- `with_list(layer)` on a `Padded`. -/
theorem C80_with_list_padded (hne : ls ≠ []) (ho : IsOrder ls ix) (place : Fin ls.sum → Fin (maxLength ls * ls.length))
    (hp : IsBatchPlace ls ix place) {L : Layer} {f : Params sh × (Fin ls.sum → Fin m → ℝ) → Fin ls.sum → Fin k → ℝ}
    {x : Fin (maxLength ls * ls.length) → Fin m → ℝ}
    (h : Exact L train (Kind.seqs ls m) (Kind.seqs ls k) f θ (collect place x)) :
    Exact (withListL L) train (Kind.batch ls ix m) (Kind.batch ls ix k)
      (fun p => spread place (f (p.1, collect place p.2))) θ x := by
  refine exact_wrap (A := collect place) (B := spread place) (IsVJP_collect place x) (IsVJP_spread place _) h fun P v hv => ?_
  obtain ⟨p, seqs, e1, e2, hs⟩ := unpad_of ho hp hv
  refine ⟨Val.ofArrays (asList m seqs), ofArrays_of hs, ?_⟩
  intro y cb ey hy
  obtain ⟨yseqs, e3, hys⟩ := arrays_of hy
  obtain ⟨q, e4, hq⟩ := pad_of ho hp hne hys
  have hd : withListL L train P v = withListPaddedL L train P v := by
    obtain ⟨A, rfl, _⟩ := hv
    rfl
  rw [hd]
  apply Exists.intro
  apply Exists.intro
  refine ⟨?_, hq, ?_⟩
  · simp only [withListPaddedL, e1, bind, Except.bind, e2, ey, e3, e4, pure, Except.pure]
    rfl
  · intro dv dy G hdv
    obtain ⟨dp, dseqs, e5, e6, hds⟩ := unpad_of ho hp (hdv : (Kind.batch ls ix k).val dv dy)
    refine ⟨Val.ofArrays (asList k dseqs), ofArrays_of hds, ?_⟩
    intro dx dxe G' ec hdx
    obtain ⟨xseqs, e7, hxs⟩ := arrays_of (hdx : (Kind.seqs ls m).val dx dxe)
    obtain ⟨xp, e8, hxp⟩ := pad_of ho hp hne hxs
    refine ⟨Val.ofPadded xp, ?_, hxp⟩
    simp only [e5, e6, ec, e7, e8]

/-- `with_ragged(layer)` on a `Padded`. -/
theorem C80_with_ragged_padded (hm : 0 < m) (hk : 0 < k) (hn : 0 < ls.sum) (ho : IsOrder ls ix)
    (place : Fin ls.sum → Fin (maxLength ls * ls.length)) (hp : IsBatchPlace ls ix place) {L : Layer}
    {f : Params sh × (Fin ls.sum → Fin m → ℝ) → Fin ls.sum → Fin k → ℝ} {x : Fin (maxLength ls * ls.length) → Fin m → ℝ}
    (h : Exact L train (Kind.ragged ls m) (Kind.ragged ls k) f θ (collect place x)) :
    Exact (withRaggedL L) train (Kind.batch ls ix m) (Kind.batch ls ix k)
      (fun p => spread place (f (p.1, collect place p.2))) θ x := by
  have hne := ne_of_sum_pos hn
  refine exact_wrap (A := collect place) (B := spread place) (IsVJP_collect place x) (IsVJP_spread place _) h fun P v hv => ?_
  obtain ⟨p, seqs, e1, e2, hs⟩ := unpad_of ho hp hv
  refine ⟨_, ofRagged_of hm hn (collect place x), ?_⟩
  intro y cb ey hy
  obtain ⟨yseqs, e3, hys⟩ := unflatten_of ls (f (θ, collect place x))
  obtain ⟨q, e4, hq⟩ := pad_of ho hp hne hys
  have hd : withRaggedL L train P v = withRaggedPaddedL L train P v := by
    obtain ⟨A, rfl, _⟩ := hv
    rfl
  rw [hd]
  apply Exists.intro
  apply Exists.intro
  refine ⟨?_, hq, ?_⟩
  · simp only [withRaggedPaddedL, e1, bind, Except.bind, e2, flatten_of hm hs hne, lens_asList hs, ey, asRagged_of hy, e3, e4, pure,
      Except.pure]
    rfl
  · intro dv dy G hdv
    obtain ⟨dp, dseqs, e5, e6, hds⟩ := unpad_of ho hp (hdv : (Kind.batch ls ix k).val dv dy)
    refine ⟨_, ofRagged_of hk hn (collect place dy), ?_⟩
    intro dx dxe G' ec hdx
    obtain ⟨xseqs, e7, hxs⟩ := unflatten_of ls dxe
    obtain ⟨xp, e8, hxp⟩ := pad_of ho hp hne hxs
    refine ⟨Val.ofPadded xp, ?_, hxp⟩
    simp only [e5, e6, flatten_of hk hds hne, ec, asRagged_of hdx, e7, e8]

/-- `with_padded(layer)` on a list of arrays. -/
theorem C80_with_padded_list (hne : ls ≠ []) (ho : IsOrder ls ix) (place : Fin ls.sum → Fin (maxLength ls * ls.length))
    (hp : IsBatchPlace ls ix place) {L : Layer}
    {f : Params sh × (Fin (maxLength ls * ls.length) → Fin m → ℝ) → Fin (maxLength ls * ls.length) → Fin k → ℝ}
    {x : Fin ls.sum → Fin m → ℝ} (h : Exact L train (Kind.batch ls ix m) (Kind.batch ls ix k) f θ (spread place x)) :
    Exact (withPaddedL L) train (Kind.seqs ls m) (Kind.seqs ls k)
      (fun p => collect place (f (p.1, spread place p.2))) θ x := by
  refine exact_wrap (A := spread place) (B := collect place) (IsVJP_spread place x) (IsVJP_collect place _) h fun P v hv => ?_
  obtain ⟨seqs, e1, hs⟩ := arrays_of hv
  obtain ⟨p, e2, hpv⟩ := pad_of ho hp hne hs
  refine ⟨Val.ofPadded p, hpv, ?_⟩
  intro y cb ey hy
  obtain ⟨q, yseqs, e3, e4, hys⟩ := unpad_of ho hp hy
  have hd : withPaddedL L train P v = withPaddedListL L train P v := by
    obtain ⟨As, rfl, _⟩ := hv
    rfl
  rw [hd]
  apply Exists.intro
  apply Exists.intro
  refine ⟨?_, ofArrays_of hys, ?_⟩
  · simp only [withPaddedListL, e1, bind, Except.bind, e2, ey, e3, e4, pure, Except.pure]
    rfl
  · intro dv dy G hdv
    obtain ⟨dseqs, e5, hds⟩ := arrays_of (hdv : (Kind.seqs ls k).val dv dy)
    obtain ⟨dp, e6, hdp⟩ := pad_of ho hp hne hds
    refine ⟨Val.ofPadded dp, hdp, ?_⟩
    intro dx dxe G' ec hdx
    obtain ⟨xp, xseqs, e7, e8, hxs⟩ := unpad_of ho hp (hdx : (Kind.batch ls ix m).val dx dxe)
    refine ⟨Val.ofArrays (asList m xseqs), ?_, ofArrays_of hxs⟩
    simp only [e5, e6, ec, e7, e8]

/-- `with_padded(layer)` on a `Ragged`. -/
theorem C80_with_padded_ragged (hm : 0 < m) (hk : 0 < k) (hn : 0 < ls.sum) (ho : IsOrder ls ix)
    (place : Fin ls.sum → Fin (maxLength ls * ls.length)) (hp : IsBatchPlace ls ix place) {L : Layer}
    {f : Params sh × (Fin (maxLength ls * ls.length) → Fin m → ℝ) → Fin (maxLength ls * ls.length) → Fin k → ℝ}
    {x : Fin ls.sum → Fin m → ℝ} (h : Exact L train (Kind.batch ls ix m) (Kind.batch ls ix k) f θ (spread place x)) :
    Exact (withPaddedL L) train (Kind.ragged ls m) (Kind.ragged ls k)
      (fun p => collect place (f (p.1, spread place p.2))) θ x := by
  have hne := ne_of_sum_pos hn
  refine exact_wrap (A := spread place) (B := collect place) (IsVJP_spread place x) (IsVJP_collect place _) h fun P v hv => ?_
  obtain ⟨seqs, e1, hs⟩ := unflatten_of ls x
  obtain ⟨p, e2, hpv⟩ := pad_of ho hp hne hs
  refine ⟨Val.ofPadded p, hpv, ?_⟩
  intro y cb ey hy
  obtain ⟨q, yseqs, e3, e4, hys⟩ := unpad_of ho hp hy
  have hd : withPaddedL L train P v = withPaddedRaggedL L train P v := by
    obtain ⟨A, rfl, _⟩ := hv
    rfl
  rw [hd]
  apply Exists.intro
  apply Exists.intro
  refine ⟨?_, ofRagged_of hk hn (collect place (f (θ, spread place x))), ?_⟩
  · simp only [withPaddedRaggedL, asRagged_of hv, bind, Except.bind, e1, e2, ey, e3, e4, flatten_of hk hys hne, pure, Except.pure]
    rfl
  · intro dv dy G hdv
    obtain ⟨dseqs, e5, hds⟩ := unflatten_of ls dy
    obtain ⟨dp, e6, hdp⟩ := pad_of ho hp hne hds
    refine ⟨Val.ofPadded dp, hdp, ?_⟩
    intro dx dxe G' ec hdx
    obtain ⟨xp, xseqs, e7, e8, hxs⟩ := unpad_of ho hp (hdx : (Kind.batch ls ix m).val dx dxe)
    refine ⟨_, ?_, ofRagged_of hm hn (collect place dxe)⟩
    simp only [asRagged_of hdv, e5, e6, ec, e7, e8, flatten_of hm hxs hne]

/-- `with_padded(layer)` on a `Padded` is the layer. -/
theorem C80_with_padded_padded (L : Layer) (P : ParamVals) (A : Mat ℝ) (steps : ℕ) (sizeAtT lengths indices : List ℕ) :
    withPaddedL L train P (.padded A steps sizeAtT lengths indices) = L train P (.padded A steps sizeAtT lengths indices) := rfl

/-- The order of the columns and the places exist, for all lengths, and there is one order only. -/
theorem C80_places (ls : List ℕ) : ∃ ix, IsOrder ls ix ∧ (∀ jx, IsOrder ls jx → jx = ix) ∧
    ∃ place, IsBatchPlace ls ix place ∧ Function.Injective place :=
  have h := isOrder_sort ls
  have ⟨place, hp⟩ := place_exists h
  ⟨_, h, fun _ hj => isOrder_unique hj h, place, hp, place_inj h hp⟩

/-! ### Concrete cases -/

/-- `with_array(Linear(nO=3), pad=1)` on three sequences with two, no and one rows of width 2: the rows go to places 1, 2 and 4
of six. -/
example (W b : Fin N) (hW : sh W = (3, 2)) (hb : sh b = (1, 3)) (x : Fin [2, 0, 1].sum → Fin 2 → ℝ) :
    ∃ place : Fin [2, 0, 1].sum → Fin (blankedRows 1 [2, 0, 1]), blankedRows 1 [2, 0, 1] = 6 ∧ (place ⟨0, by decide⟩ : ℕ) = 1 ∧
      (place ⟨1, by decide⟩ : ℕ) = 2 ∧ (place ⟨2, by decide⟩ : ℕ) = 4 ∧
      Exact (withArray2dL (linear W b) 1) train (Kind.seqs [2, 0, 1] 2) (Kind.seqs [2, 0, 1] 3)
        (fun p => collect place (affine (spread place p.2) (p.1.get W hW) (p.1.vec b hb))) θ x :=
  ⟨blankedAt 1 [2, 0, 1], rfl, rfl, rfl, rfl,
    C80_with_array_list_pad (by decide) (by decide) (by decide) 1 _ (fun _ => rfl) (C56_linear W b hW hb train θ _)⟩

/-- Three sequences with one, three and three rows: the columns are the sequences 2, 1, 0. -/
example : IsOrder [1, 3, 3] [2, 1, 0] := ⟨by decide, by decide⟩

/-- `with_padded(with_array2d(Linear))` on a list of arrays, and `with_list(with_array(Linear))` on a `Padded`. -/
example (W b : Fin N) (hW : sh W = (k, m)) (hb : sh b = (1, k)) (hm : 0 < m) (hk : 0 < k) (ls : List ℕ) (hne : ls ≠ [])
    (x : Fin ls.sum → Fin m → ℝ) (y : Fin (maxLength ls * ls.length) → Fin m → ℝ) : ∃ ix place,
    Exact (withPaddedL (withArray2dL (linear W b) 0)) train (Kind.seqs ls m) (Kind.seqs ls k)
        (fun p => collect place (affine (spread place p.2) (p.1.get W hW) (p.1.vec b hb))) θ x ∧
      Exact (withListL (withArray2dL (linear W b) 0)) train (Kind.batch ls ix m) (Kind.batch ls ix k)
        (fun p => spread place (affine (collect place p.2) (p.1.get W hW) (p.1.vec b hb))) θ y := by
  obtain ⟨ix, ho, _, place, hp, _⟩ := C80_places ls
  exact ⟨ix, place, C80_with_padded_list hne ho place hp (C80_with_array2d_padded 0 (C56_linear W b hW hb train θ _)),
    C80_with_list_padded hne ho place hp (C80_with_array_list hm hk hne (C56_linear W b hW hb train θ _))⟩

/-- Why rows are needed: a list with one array without rows, of any width, becomes a `Ragged` of width 0. -/
theorem C80_no_rows_lose_width (P : ParamVals) (A : Mat ℝ) (hA : A.rows = 0) :
    ∃ B cb, list2raggedL train P (.list [.arr A]) = .ok (.ragged B [0], cb) ∧ B.cols = 0 := by
  have e : A.toArr = ⟨[A.cols], []⟩ := by simp [Mat.toArr, hA]
  have e1 : (Val.list [Val.arr A]).arrays = .ok [⟨[A.cols], []⟩] := by rw [← e]; rfl
  have e2 : opsFlatten [(⟨[A.cols], []⟩ : Arr ℝ)] 0 = .ok ⟨[A.cols], []⟩ := by simp [opsFlatten, Arr.size, Arr.len, Arr.zeros]
  refine ⟨Arr.toMat ⟨[0], []⟩, ?_⟩
  have e3 : Ragged.make (⟨[A.cols], []⟩ : Arr ℝ) [0] = ⟨⟨[0], []⟩, [0], [A.cols]⟩ := by simp [Ragged.make, Arr.size, Arr.len]
  apply Exists.intro
  refine And.intro ?_ (by simp [Arr.toMat, Mat.ofFn])
  simp only [list2raggedL, e1, bind, Except.bind, e2, List.map_cons, List.map_nil, pure, Except.pure]
  rw [show Arr.len (⟨[A.cols], []⟩ : Arr ℝ) = 0 from rfl, e3]
  rfl

end
end Thinc
