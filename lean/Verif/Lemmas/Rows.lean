import Verif.Spec.Rows
import Verif.Model.SeqLayers
import Verif.Lemmas.Columns
import Verif.Props.WithLayers
import Verif.Props.ConcatenateSeqs
/-! # Arrays as lists of rows -/
namespace Thinc
open Spec Spec.Tensor

section
variable {n m : ℕ} {α : Type}

/-- The rows as lists. -/
def rowsOf (x : Fin n → Fin m → α) : List (List α) := List.ofFn fun i => List.ofFn (x i)

theorem length_rowsOf (x : Fin n → Fin m → α) : (rowsOf x).length = n := by simp [rowsOf]

theorem rowsOf_getElem? (x : Fin n → Fin m → α) (i : Fin n) : (rowsOf x)[(i : ℕ)]? = some (List.ofFn (x i)) := by
  simp [rowsOf]

theorem rowsOf_inj {x y : Fin n → Fin m → α} (h : rowsOf x = rowsOf y) : x = y := by
  unfold rowsOf at h
  have h1 := List.ofFn_injective h
  funext i
  exact List.ofFn_injective (congrFun h1 i)

theorem rowsOf_eq {rows : List (List α)} {x : Fin n → Fin m → α} (hl : rows.length = n)
    (h : ∀ i : Fin n, rows[(i : ℕ)]? = some (List.ofFn (x i))) : rows = rowsOf x := by
  refine List.ext_getElem? fun i => ?_
  by_cases hi : i < n
  · rw [h ⟨i, hi⟩, rowsOf_getElem? x ⟨i, hi⟩]
  · rw [List.getElem?_eq_none (by omega), List.getElem?_eq_none (by rw [length_rowsOf]; omega)]

theorem toArr_of {A : Mat α} {x : Fin n → Fin m → α} (h : IsMat A x) : A.toArr = ⟨[m], rowsOf x⟩ := by
  unfold Mat.toArr
  rw [h.2.1]
  congr 1
  refine rowsOf_eq (by simp [h.1]) fun i => ?_
  rw [h.1, List.getElem?_map, List.getElem?_range i.2, Option.map_some]
  congr 1
  refine List.ext_getElem (by simp) fun j h1 h2 => ?_
  simp only [List.getElem_map, List.getElem_range, List.getElem_ofFn]
  exact h.2.2 i ⟨j, by simpa using h2⟩

theorem toMat_of [Zero α] (x : Fin n → Fin m → α) : IsMat (Arr.toMat ⟨[m], rowsOf x⟩) x := by
  unfold Arr.toMat Arr.len
  simp only [length_rowsOf, List.prod_cons, List.prod_nil, Nat.mul_one]
  refine isMat_ofFn' _ _ fun i j => ?_
  simp [List.getD_eq_getElem?_getD, rowsOf_getElem?]

/-- These sequences, one after the other, are the rows of `x`. -/
def SeqRows (seqs : List (List (List α))) (ls : List ℕ) (x : Fin ls.sum → Fin m → α) : Prop :=
  lens seqs = ls ∧ seqs.flatten = rowsOf x

theorem exists_cut {β : Type} (ls : List ℕ) (rows : List β) (h : rows.length = ls.sum) :
    ∃ seqs : List (List β), seqs.map List.length = ls ∧ seqs.flatten = rows := by
  induction ls generalizing rows with
  | nil => exact ⟨[], rfl, (List.length_eq_zero_iff.1 (by simpa using h)).symm⟩
  | cons l ls ih =>
    rw [List.sum_cons] at h
    obtain ⟨seqs, h1, h2⟩ := ih (rows.drop l) (by simp; omega)
    exact ⟨rows.take l :: seqs, by simp [h1]; omega, by simp [h2]⟩

theorem exists_seqRows (ls : List ℕ) (x : Fin ls.sum → Fin m → α) : ∃ seqs, SeqRows seqs ls x :=
  exists_cut ls (rowsOf x) (length_rowsOf x)

theorem flatten_getElem? {β : Type} (seqs : List (List β)) (b t : ℕ) (hb : b < seqs.length) (ht : t < seqs[b].length) :
    seqs.flatten[((seqs.map List.length).take b).sum + t]? = some (seqs[b][t]) := by
  induction seqs generalizing b with
  | nil => simp at hb
  | cons s seqs ih =>
    cases b with
    | zero =>
      simp only [List.getElem_cons_zero] at ht ⊢
      simp only [List.take_zero, List.sum_nil, Nat.zero_add, List.flatten_cons]
      rw [List.getElem?_append_left ht, List.getElem?_eq_getElem ht]
    | succ b =>
      simp only [List.getElem_cons_succ] at ht ⊢
      simp only [List.map_cons, List.take_succ_cons, List.sum_cons, List.flatten_cons]
      rw [List.getElem?_append_right (by omega), ← ih b (by simpa using hb) ht]
      congr 1
      omega

theorem cutUnique {β : Type} : ∀ {s t : List (List β)}, s.map List.length = t.map List.length → s.flatten = t.flatten → s = t
  | [], [], _, _ => rfl
  | [], _ :: _, h, _ => by simp at h
  | _ :: _, [], h, _ => by simp at h
  | a :: s, b :: t, h, e => by
    simp only [List.map_cons, List.cons.injEq] at h
    simp only [List.flatten_cons] at e
    obtain ⟨rfl, e2⟩ := List.append_inj e h.1
    rw [cutUnique h.2 e2]

theorem parts_of {As : List (Mat α)} {ls : List ℕ} {x : Fin ls.sum → Fin m → α} (h : IsParts As ls x) :
    ∃ seqs, As.map Mat.toArr = asList m seqs ∧ SeqRows seqs ls x := by
  obtain ⟨seqs, h1, h2⟩ := exists_seqRows ls x
  refine ⟨seqs, ?_, h1, h2⟩
  obtain ⟨hl, hc, hx⟩ := h
  have hlen : As.length = seqs.length := by
    rw [← List.length_map (f := Mat.rows), hl, ← h1]; simp [lens]
  refine List.ext_getElem (by simp [asList, hlen]) fun b hb1 hb2 => ?_
  have hbA : b < As.length := by simpa using hb1
  have hbS : b < seqs.length := by omega
  simp only [asList, List.getElem_map]
  have hrows : As[b].rows = seqs[b].length := by
    have e : (As.map Mat.rows)[b]? = (seqs.map List.length)[b]? := by rw [hl]; exact congrArg (·[b]?) h1.symm
    simpa [hbA, hbS] using e
  unfold Mat.toArr
  rw [hc _ (List.getElem_mem hbA)]
  congr 1
  refine List.ext_getElem (by simp [hrows]) fun t ht1 ht2 => ?_
  simp only [List.getElem_map, List.getElem_range]
  have e := flatten_getElem? seqs b t hbS ht2
  have hle := take_sum_le ls b (by rw [← h1]; simpa [lens] using hbS)
  have hlb : ls[b]'(by rw [← h1]; simpa [lens] using hbS) = seqs[b].length := by simp [← h1, lens]
  have hr : (ls.take b).sum + t < ls.sum := by omega
  rw [show seqs.map List.length = ls from h1, h2, rowsOf_getElem? x ⟨_, hr⟩] at e
  rw [← Option.some.inj e]
  refine List.ext_getElem (by simp) fun j hj1 hj2 => ?_
  simp only [List.getElem_map, List.getElem_range, List.getElem_ofFn]
  exact hx b hbA t ⟨_, hr⟩ ⟨j, by simpa using hj2⟩ (by omega) rfl

theorem parts_toMat [Zero α] {seqs : List (List (List α))} {ls : List ℕ} {x : Fin ls.sum → Fin m → α} (h : SeqRows seqs ls x) :
    IsParts ((asList m seqs).map Arr.toMat) ls x := by
  obtain ⟨rfl, h2⟩ := h
  refine ⟨?_, ?_, ?_⟩
  · simp only [asList, List.map_map]
    exact List.map_congr_left fun s _ => rfl
  · intro A hA
    simp only [asList, List.map_map, List.mem_map] at hA
    obtain ⟨s, _, rfl⟩ := hA
    simp [Arr.toMat, Mat.ofFn]
  · intro b hb t i j ht hi
    have hbS : b < seqs.length := by simpa [asList] using hb
    simp only [asList, List.getElem_map] at ht ⊢
    have ht' : t < seqs[b].length := by simpa [Arr.toMat, Mat.ofFn, Arr.len] using ht
    have e := flatten_getElem? seqs b t hbS ht'
    rw [h2, show (List.take b (seqs.map List.length)).sum + t = ((i : ℕ)) from hi.symm, rowsOf_getElem? x i] at e
    have e' := (Option.some.inj e).symm
    unfold Arr.toMat
    simp only [List.prod_cons, List.prod_nil, Nat.mul_one]
    rw [ofFn_at _ _ _ _ _ j.2]
    simp [List.getD_eq_getElem?_getD, ht', e']

/-! ### Values -/

theorem arrays_of {v : Val} {ls : List ℕ} {x : Fin ls.sum → Fin m → ℝ} (h : (Kind.seqs ls m).val v x) :
    ∃ seqs, v.arrays = .ok (asList m seqs) ∧ SeqRows seqs ls x := by
  obtain ⟨As, rfl, hA⟩ := h
  obtain ⟨seqs, e, hs⟩ := parts_of hA
  refine ⟨seqs, ?_, hs⟩
  simp only [Val.arrays, Val.items, bind, Except.bind, mapM_asArr, pure, Except.pure, e]

theorem ofArrays_of {seqs : List (List (List ℝ))} {ls : List ℕ} {x : Fin ls.sum → Fin m → ℝ} (h : SeqRows seqs ls x) :
    (Kind.seqs ls m).val (Val.ofArrays (asList m seqs)) x :=
  ⟨_, by unfold Val.ofArrays; rw [List.map_map]; rfl, parts_toMat h⟩

theorem seqRows_ne {seqs : List (List (List α))} {ls : List ℕ} {x : Fin ls.sum → Fin m → α} (h : SeqRows seqs ls x)
    (hne : ls ≠ []) : seqs ≠ [] := by
  rintro rfl
  exact hne (by simpa [lens] using h.1.symm)

theorem asRagged_of {v : Val} {ls : List ℕ} {x : Fin ls.sum → Fin m → ℝ} (h : (Kind.ragged ls m).val v x) :
    v.asRagged = .ok ⟨⟨[m], rowsOf x⟩, ls, [m]⟩ := by
  obtain ⟨A, rfl, hA⟩ := h
  simp only [Val.asRagged, toArr_of hA, hA.2.1]

theorem ofRagged_of {ls : List ℕ} (hm : 0 < m) (hn : 0 < ls.sum) (x : Fin ls.sum → Fin m → ℝ) :
    (Kind.ragged ls m).val (Val.ofRagged (Ragged.make ⟨[m], rowsOf x⟩ ls)) x := by
  have : (⟨[m], rowsOf x⟩ : Arr ℝ).size ≠ 0 := by
    simp only [Arr.size, Arr.len, length_rowsOf, List.prod_cons, List.prod_nil, Nat.mul_one]
    exact Nat.mul_ne_zero (by omega) (by omega)
  unfold Ragged.make
  rw [if_pos this]
  exact ⟨_, rfl, by simpa using toMat_of x⟩

theorem flatten_of [Zero α] (hm : 0 < m) {seqs : List (List (List α))} {ls : List ℕ} {x : Fin ls.sum → Fin m → α} (h : SeqRows seqs ls x)
    (hne : ls ≠ []) : opsFlatten (asList m seqs) 0 = .ok ⟨[m], rowsOf x⟩ := by
  rw [flatten_asList0 m (by omega) seqs (seqRows_ne h hne), h.2]

theorem unflatten_of (ls : List ℕ) (x : Fin ls.sum → Fin m → α) :
    ∃ seqs, opsUnflatten (⟨[m], rowsOf x⟩ : Arr α) ls 0 = .ok (asList m seqs) ∧ SeqRows seqs ls x := by
  obtain ⟨seqs, h1, h2⟩ := exists_seqRows ls x
  refine ⟨seqs, ?_, h1, h2⟩
  rw [← h2]
  have := unflatten_asList m seqs
  rw [h1] at this
  exact this

theorem lens_asList {seqs : List (List (List α))} {ls : List ℕ} {x : Fin ls.sum → Fin m → α} (h : SeqRows seqs ls x) :
    (asList m seqs).map Arr.len = ls := by
  rw [map_len_asList, h.1]

end

/-! ### Layers inside conversions -/

section
variable {N : ℕ} {sh : Fin N → ℕ × ℕ} {E F E' F' : Type} [NormedAddCommGroup E] [NormedSpace ℝ E] [Tensor E]
  [NormedAddCommGroup F] [NormedSpace ℝ F] [Tensor F] [NormedAddCommGroup E'] [NormedSpace ℝ E'] [Tensor E']
  [NormedAddCommGroup F'] [NormedSpace ℝ F'] [Tensor F'] {train : Bool} {θ : Params sh}

/-- A layer `W` that converts its input, calls `L`, and converts the output, and the same backwards. -/
theorem exact_wrap {L W : Layer} {K : Kind E} {M : Kind F} {K' : Kind E'} {M' : Kind F'} {f : Params sh × E → F}
    {A : E' → E} {A' : E → E'} {B : F → F'} {B' : F' → F} {x : E'} (hA : IsVJP A x A') (hB : IsVJP B (f (θ, A x)) B')
    (h : Exact L train K M f θ (A x))
    (hw : ∀ P v, K'.val v x → ∃ u, K.val u (A x) ∧ ∀ y cb, L train P u = .ok (y, cb) → M.val y (f (θ, A x)) →
      ∃ y' cb', W train P v = .ok (y', cb') ∧ M'.val y' (B (f (θ, A x))) ∧
        ∀ dv dy G, M'.grad dv dy → ∃ du, M.grad du (B' dy) ∧ ∀ dx dxe G', cb du G = .ok (dx, G') → K.grad dx dxe →
          ∃ dx', cb' dv G = .ok (dx', G') ∧ K'.grad dx' (A' dxe)) :
    Exact W train K' M' (fun p => B (f (p.1, A p.2))) θ x := by
  intro P v hP hv
  obtain ⟨u, hu, hcall⟩ := hw P v hv
  obtain ⟨y, cb, back, e, hy, hb, hc⟩ := h P u hP hu
  obtain ⟨y', cb', e', hy', hcb⟩ := hcall y cb e hy
  refine ⟨y', cb', fun dy => ((back (B' dy)).1, A' (back (B' dy)).2), e', hy', ?_, ?_⟩
  · have h0 : IsVJP (fun p : Params sh × E' => (p.1, A p.2)) (θ, x) (fun dy => (dy.1, A' dy.2)) := by
      refine IsVJP_congr₂ (IsVJP_prod (IsVJP_fst (θ, x)) (IsVJP_comp (f := fun p : Params sh × E' => p.2) hA
        (IsVJP_snd (θ, x)))) (fun _ => rfl) fun dy => ?_
      simp
    exact IsVJP_congr₂ (IsVJP_comp (f := fun p : Params sh × E' => f (p.1, A p.2)) hB
      (IsVJP_comp (f := fun p : Params sh × E' => (p.1, A p.2)) hb h0)) (fun _ => rfl) fun dy => rfl
  · intro dv dy G g hdv hG
    obtain ⟨du, hdu, hback⟩ := hcb dv dy G hdv
    obtain ⟨dx, G', ec, hdx, hG'⟩ := hc du (B' dy) G g hdu hG
    obtain ⟨dx', ec', hdx'⟩ := hback dx _ G' ec hdx
    exact ⟨dx', G', ec', hdx', hG'⟩

/-- The same if the numbers stay as they are. -/
theorem exact_repack {L W : Layer} {K : Kind E} {M : Kind F} {K' : Kind E} {M' : Kind F} {f : Params sh × E → F}
    {x : E} (h : Exact L train K M f θ x)
    (hw : ∀ P v, K'.val v x → ∃ u, K.val u x ∧ ∀ y cb, L train P u = .ok (y, cb) → M.val y (f (θ, x)) →
      ∃ y' cb', W train P v = .ok (y', cb') ∧ M'.val y' (f (θ, x)) ∧
        ∀ dv dy G, M'.grad dv dy → ∃ du, M.grad du dy ∧ ∀ dx dxe G', cb du G = .ok (dx, G') → K.grad dx dxe →
          ∃ dx', cb' dv G = .ok (dx', G') ∧ K'.grad dx' dxe) :
    Exact W train K' M' f θ x :=
  exact_wrap (A := fun x => x) (B := fun y => y) (IsVJP_id x) (IsVJP_id _) h hw

/-- A layer without parameters that converts its input. -/
theorem exact_convert {W : Layer} {K : Kind E} {M : Kind F} {A : E → F} {A' : F → E} {x : E} (hA : IsVJP A x A')
    (hw : ∀ P v, K.val v x → ∃ y cb, W train P v = .ok (y, cb) ∧ M.val y (A x) ∧
      ∀ dv dy G, M.grad dv dy → ∃ dx, cb dv G = .ok (dx, G) ∧ K.grad dx (A' dy)) :
    Exact W train K M (fun p => A p.2) θ x := by
  intro P v hP hv
  obtain ⟨y, cb, e, hy, hcb⟩ := hw P v hv
  refine ⟨y, cb, fun dy => (0, A' dy), e, hy,
    IsVJP_comp (f := fun p : Params sh × E => p.2) (x := (θ, x)) hA (IsVJP_snd _), ?_⟩
  intro dv dy G g hdv hG
  obtain ⟨dx, ec, hdx⟩ := hcb dv dy G hdv
  exact ⟨dx, G, ec, hdx, by simpa using hG⟩

end
end Thinc
