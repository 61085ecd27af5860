import Verif.Spec.Documents
import Verif.Props.Splitting
import Verif.Props.SeqLayers
import Verif.Props.WindowLayer
import Verif.Props.Attention

/-!
# C119: a document's output does not depend on the rest of its batch

Proved for the layers that turn batches of documents into batches of documents, and for their combinations; `PerDocument` is in
`Spec/Documents.lean`.  It does not hold for `with_array` around a layer that sees more of the array than the padding covers; since
the padding is not used at all for a `Ragged`, it fails there for every padding (`C119_with_array_ragged_violated`).
-/

namespace Thinc
open Spec Spec.Tensor

/-! ### Rows -/

theorem length_rowsList (A : Mat ℝ) : (rowsList A).length = A.rows := by simp [rowsList]

theorem toArr_rowsList (A : Mat ℝ) : A.toArr = ⟨[A.cols], rowsList A⟩ := rfl

theorem rowsList_width {A : Mat ℝ} {r : List ℝ} (h : r ∈ rowsList A) : r.length = A.cols := by
  obtain ⟨i, -, rfl⟩ := List.mem_map.1 h
  simp

theorem rowsList_toMat {m : ℕ} {rs : List (List ℝ)} (h : ∀ r ∈ rs, r.length = m) : rowsList (Arr.toMat ⟨[m], rs⟩) = rs := by
  have hc : (Arr.toMat (⟨[m], rs⟩ : Arr ℝ)).cols = m := by simp [Arr.toMat, Mat.ofFn]
  have hr : (Arr.toMat (⟨[m], rs⟩ : Arr ℝ)).rows = rs.length := by simp [Arr.toMat, Mat.ofFn, Arr.len]
  unfold rowsList
  rw [hc, hr]
  refine List.ext_getElem (by simp) fun i h1 h2 => ?_
  simp only [List.getElem_map, List.getElem_range]
  have hl := h _ (List.getElem_mem h2)
  refine List.ext_getElem (by simp [hl]) fun j h3 h4 => ?_
  simp only [List.getElem_map, List.getElem_range]
  unfold Arr.toMat
  simp only [List.prod_cons, List.prod_nil, Nat.mul_one]
  rw [ofFn_at _ _ _ _ _ (by omega)]
  simp [List.getD_eq_getElem?_getD, h2, h4]

theorem cols_toMat (m : ℕ) (rs : List (List ℝ)) : (Arr.toMat (⟨[m], rs⟩ : Arr ℝ)).cols = m := by simp [Arr.toMat, Mat.ofFn]

theorem rows_toMat (m : ℕ) (rs : List (List ℝ)) : (Arr.toMat (⟨[m], rs⟩ : Arr ℝ)).rows = rs.length := by simp [Arr.toMat, Mat.ofFn, Arr.len]

theorem isMat_cells (A : Mat ℝ) : IsMat A (fun (i : Fin A.rows) (j : Fin A.cols) => A.at i j) := ⟨rfl, rfl, fun _ _ => rfl⟩

theorem rowsList_of {n m : ℕ} {A : Mat ℝ} {x : Fin n → Fin m → ℝ} (h : IsMat A x) : rowsList A = rowsOf x :=
  congrArg Arr.rows (toArr_of h)

theorem flatten_ne {ds : List Doc} (h : ∃ d ∈ ds, d ≠ []) : ds.flatten ≠ [] := by
  obtain ⟨d, h1, h2⟩ := h
  intro h3
  exact h2 (List.flatten_eq_nil_iff.1 h3 d h1)

theorem ne_of_some {ds : List Doc} (h : ∃ d ∈ ds, d ≠ []) : ds ≠ [] := by
  rintro rfl
  simp at h

theorem sum_lengths (ds : List Doc) : (ds.map List.length).sum = ds.flatten.length := by simp [List.length_flatten]

theorem pos_sum {ds : List Doc} (h : ∃ d ∈ ds, d ≠ []) : 0 < (ds.map List.length).sum := by
  rw [sum_lengths]
  exact List.length_pos_of_ne_nil (flatten_ne h)

/-! ### Values -/

theorem arrays_docs {m : ℕ} {v : Val} {ds : List Doc} (h : IsDocs .list m v ds) : v.arrays = .ok (asList m ds) ∧ ∀ d ∈ ds, ∀ r ∈ d, r.length = m := by
  obtain ⟨As, rfl, hc, rfl⟩ := h
  constructor
  · simp only [Val.arrays, Val.items, bind, Except.bind, mapM_asArr, pure, Except.pure]
    congr 1
    unfold asList
    rw [List.map_map]
    exact List.map_congr_left fun A hA => by rw [toArr_rowsList, hc A hA]; rfl
  · intro d hd r hr
    obtain ⟨A, hA, rfl⟩ := List.mem_map.1 hd
    rw [rowsList_width hr, hc A hA]

theorem docs_ofArrays {m : ℕ} {ds : List Doc} (h : ∀ d ∈ ds, ∀ r ∈ d, r.length = m) : IsDocs .list m (Val.ofArrays (asList m ds)) ds := by
  refine ⟨(asList m ds).map Arr.toMat, by unfold Val.ofArrays; rw [List.map_map]; rfl, ?_, ?_⟩
  · intro A hA
    unfold asList at hA
    rw [List.map_map] at hA
    obtain ⟨d, -, rfl⟩ := List.mem_map.1 hA
    exact cols_toMat m d
  · unfold asList
    rw [List.map_map, List.map_map]
    conv_rhs => rw [← List.map_id ds]
    exact List.map_congr_left fun d hd => rowsList_toMat (h d hd)

theorem asRagged_docs {m : ℕ} {v : Val} {ds : List Doc} (h : IsDocs .ragged m v ds) :
    v.asRagged = .ok ⟨⟨[m], ds.flatten⟩, ds.map List.length, [m]⟩ ∧ ∀ d ∈ ds, ∀ r ∈ d, r.length = m := by
  obtain ⟨A, rfl, hc, hA⟩ := h
  refine ⟨by simp only [Val.asRagged, toArr_rowsList, hA, hc], fun d hd r hr => ?_⟩
  rw [← hc]
  exact rowsList_width (by rw [hA]; exact List.mem_flatten.2 ⟨d, hd, hr⟩)

theorem docs_ofRagged {m : ℕ} (hm : 0 < m) {ds : List Doc} (hne : ∃ d ∈ ds, d ≠ []) (h : ∀ d ∈ ds, ∀ r ∈ d, r.length = m) :
    IsDocs .ragged m (Val.ofRagged (Ragged.make ⟨[m], ds.flatten⟩ (ds.map List.length))) ds := by
  have hs : (⟨[m], ds.flatten⟩ : Arr ℝ).size ≠ 0 := by
    simp only [Arr.size, Arr.len, List.prod_cons, List.prod_nil, Nat.mul_one]
    exact Nat.mul_ne_zero (List.length_pos_of_ne_nil (flatten_ne hne)).ne' (by omega)
  unfold Ragged.make
  rw [if_pos hs]
  refine ⟨_, rfl, by simp [Arr.toMat, Mat.ofFn], ?_⟩
  simp only [List.prod_cons, List.prod_nil, Nat.mul_one]
  refine rowsList_toMat fun r hr => ?_
  obtain ⟨d, hd, hr⟩ := List.mem_flatten.1 hr
  exact h d hd r hr

/-! ### What it means -/

/-- A document gets the same output in two batches, whatever the other documents, their number and order are. -/
theorem C119_same_output {L : Layer} {train : Bool} {P : ParamVals} {a b : DocForm} {m k : ℕ} {full : Bool}
    (h : PerDocument L train P a m b k full) {v v' : Val} {ds ds' : List Doc} (hv : IsDocs a m v ds) (hv' : IsDocs a m v' ds')
    (h1 : ∃ d ∈ ds, d ≠ []) (h1' : ∃ d ∈ ds', d ≠ []) (h2 : full = true → ∀ d ∈ ds, d ≠ []) (h2' : full = true → ∀ d ∈ ds', d ≠ [])
    {i i' : ℕ} {d : Doc} (hi : ds[i]? = some d) (hi' : ds'[i']? = some d) :
    ∃ Y Y' cb cb' es es', L train P v = .ok (Y, cb) ∧ L train P v' = .ok (Y', cb') ∧ IsDocs b k Y es ∧ IsDocs b k Y' es' ∧
      es.length = ds.length ∧ es'.length = ds'.length ∧ ∃ e, es[i]? = some e ∧ es'[i']? = some e := by
  obtain ⟨F, -, -, hF⟩ := h
  obtain ⟨Y, cb, e, hY⟩ := hF v ds hv h1 h2
  obtain ⟨Y', cb', e', hY'⟩ := hF v' ds' hv' h1' h2'
  exact ⟨Y, Y', cb, cb', _, _, e, e', hY, hY', by simp, by simp, F d, by simp [hi], by simp [hi']⟩

/-! ### Combining -/

theorem C119_chain {L : Layer} {Ls : List Layer} (hne : Ls ≠ []) {train : Bool} {P : ParamVals} {a b c : DocForm} {m k l : ℕ} {full full' : Bool}
    (h1 : PerDocument L train P a m b k full) (h2 : PerDocument (chain Ls) train P b k c l full') (hc : b = .rows → c = .rows) :
    PerDocument (chain (L :: Ls)) train P a m c l (full || full') := by
  obtain ⟨F, hF0, hF1, hF⟩ := h1
  obtain ⟨G, hG0, hG1, hG⟩ := h2
  refine ⟨G ∘ F, fun d hd => hG0 _ (hF0 d hd), fun hr d => (hG1 hr _).trans (hF1 (fun h => hr (hc h)) d), fun v ds hv hs hf => ?_⟩
  obtain ⟨Y, cb, e, hY⟩ := hF v ds hv hs fun h => hf (by simp [h])
  obtain ⟨Z, cb', e', hZ⟩ := hG Y _ hY (by
      obtain ⟨d, h1, h2⟩ := hs
      exact ⟨F d, List.mem_map_of_mem h1, hF0 d h2⟩) fun h => by
    intro d' hd'
    obtain ⟨d, hd, rfl⟩ := List.mem_map.1 hd'
    exact hF0 d (hf (by simp [h]) d hd)
  refine ⟨Z, ?cb, ?h, by rw [← List.map_map]; exact hZ⟩
  case h =>
    rw [C51_composes L Ls hne]
    simp only [e, e', bind, Except.bind, pure, Except.pure]
    rfl

theorem C119_chain_one {L : Layer} {train : Bool} {P : ParamVals} {a b : DocForm} {m k : ℕ} {full : Bool}
    (h : PerDocument L train P a m b k full) : PerDocument (chain [L]) train P a m b k full := by
  rw [C51_one]; exact h

theorem C119_list2ragged {m : ℕ} (hm : 0 < m) (train : Bool) (P : ParamVals) : PerDocument list2raggedL train P .list m .ragged m false := by
  refine ⟨id, fun d h => h, fun _ _ => rfl, fun v ds hv hs _ => ?_⟩
  obtain ⟨e, hw⟩ := arrays_docs hv
  rw [List.map_id]
  refine ⟨_, ?cb, ?h, docs_ofRagged hm hs hw⟩
  case h =>
    simp only [list2raggedL, e, bind, Except.bind, pure, Except.pure, flatten_asList0 m (by omega) ds (ne_of_some hs), map_len_asList]
    rfl

theorem C119_ragged2list {m : ℕ} (train : Bool) (P : ParamVals) : PerDocument ragged2listL train P .ragged m .list m false := by
  refine ⟨id, fun d h => h, fun _ _ => rfl, fun v ds hv hs _ => ?_⟩
  obtain ⟨e, hw⟩ := asRagged_docs hv
  rw [List.map_id]
  refine ⟨_, ?cb, ?h, docs_ofArrays hw⟩
  case h =>
    simp only [ragged2listL, e, bind, Except.bind, pure, Except.pure, Ragged.dataXd, show opsUnflatten (⟨[m], ds.flatten⟩ : Arr ℝ) (ds.map List.length) 0 = .ok (asList m ds) from unflatten_asList m ds]
    rfl

/-! ### Layers that see a part of the array -/

theorem around_zero (rs : List (List ℝ)) (i : ℕ) : around 0 rs i = [rs[i]?] := by simp [around]

theorem map_around_zero (rs : List (List ℝ)) (φ : List (Option (List ℝ)) → List ℝ) :
    ((List.range rs.length).map fun i => φ (around 0 rs i)) = rs.map fun r => φ [some r] := by
  refine List.ext_getElem (by simp) fun i h1 h2 => ?_
  have h3 : i < rs.length := by simpa using h2
  simp [around_zero, h3]

/-- A layer that maps rows sees only the row itself. -/
theorem C119_maps_rows {N : ℕ} {sh : Fin N → ℕ × ℕ} {L : Layer} {train : Bool} {θ : Params sh} {i o : ℕ}
    {φ : Params sh → (Fin i → ℝ) → Fin o → ℝ} (h : MapsRows L train θ φ) {P : ParamVals} (hP : IsParams P θ) : Sees 0 L train P i o := by
  refine ⟨fun l => List.ofFn (φ θ fun j => ((l.headD none).getD []).getD j 0), ?_⟩
  rintro A hA rfl
  obtain ⟨B, cb, e, hB⟩ := h A.rows _ P A hA hP (isMat_cells A)
  refine ⟨B, cb, e, hB.2.1, ?_⟩
  rw [rowsList_of hB]
  have h1 := map_around_zero (rowsList A) fun l => List.ofFn (φ θ fun j => ((l.headD none).getD []).getD j 0)
  rw [length_rowsList A] at h1
  rw [h1, rowsList_of (isMat_cells A)]
  unfold rowsOf
  rw [List.map_ofFn]
  congr 1
  funext r
  simp only [Function.comp_apply, List.headD_cons, Option.getD_some]
  congr 2
  funext j
  simp [List.getD_eq_getElem?_getD]

/-- Two layers after each other see the sum of what they see. -/
theorem C119_sees_chain {L : Layer} {Ls : List Layer} (hne : Ls ≠ []) {train : Bool} {P : ParamVals} {w w' m k l : ℕ}
    (h1 : Sees w L train P m k) (h2 : Sees w' (chain Ls) train P k l) : Sees (w + w') (chain (L :: Ls)) train P m l := by
  obtain ⟨φ, hφ⟩ := h1
  obtain ⟨ψ, hψ⟩ := h2
  refine ⟨fun win => ψ ((List.range (2 * w' + 1)).map fun j => ((win[j + w]?).getD none).map fun _ => φ ((win.drop j).take (2 * w + 1))), ?_⟩
  intro A hA hm
  obtain ⟨B, cb, e, hB, rB⟩ := hφ A hA hm
  have hBr : B.rows = A.rows := by rw [← length_rowsList B, rB]; simp
  obtain ⟨C, cb', e', hC, rC⟩ := hψ B (by omega) hB
  refine ⟨C, ?cb, ?h, hC, ?_⟩
  case h =>
    rw [C51_composes L Ls hne]
    simp only [e, e', bind, Except.bind, pure, Except.pure]
    rfl
  rw [rC, hBr]
  refine List.map_congr_left fun i hi => ?_
  have hi : i < A.rows := by simpa using hi
  congr 1
  unfold around
  refine List.map_congr_left fun j hj => ?_
  have hj : j < 2 * w' + 1 := by simpa using hj
  rw [List.getElem?_map, List.getElem?_range (by omega)]
  simp only [Option.map_some, Option.getD_some]
  by_cases h : i + j < w'
  · rw [if_pos h, if_pos (by omega)]
    rfl
  · rw [if_neg h, if_neg (by omega), rB, show i + (j + w) - (w + w') = i + j - w' by omega]
    by_cases h' : i + j - w' < A.rows
    · rw [List.getElem?_map, List.getElem?_range h', List.getElem?_eq_getElem (by rw [length_rowsList]; exact h')]
      simp only [Option.map_some]
      congr 2
      refine List.ext_getElem (by simp [around]; omega) fun j' h3 h4 => ?_
      have h5 : j' < 2 * w + 1 := by simpa [around] using h3
      simp only [around, List.getElem_map, List.getElem_range, List.getElem_take, List.getElem_drop]
      by_cases h6 : i + j - w' + j' < w
      · rw [if_pos h6, if_pos (by omega)]
      · rw [if_neg h6, if_neg (by omega)]
        congr 1
        omega
    · rw [List.getElem?_eq_none (by simp; omega), List.getElem?_eq_none (by rw [length_rowsList]; omega)]
      rfl

theorem C119_sees_chain_one {L : Layer} {train : Bool} {P : ParamVals} {w m k : ℕ}
    (h : Sees w L train P m k) : Sees w (chain [L]) train P m k := by
  rw [C51_one]; exact h

/-- A residual connection sees what its layer sees. -/
theorem C119_sees_residual {L : Layer} {train : Bool} {P : ParamVals} {w m : ℕ} (h : Sees w L train P m m) : Sees w (residual L) train P m m := by
  obtain ⟨φ, hφ⟩ := h
  refine ⟨fun win => List.zipWith (· + ·) (((win[w]?).getD none).getD []) (φ win), ?_⟩
  intro A hA hm
  obtain ⟨B, cb, e, hB, rB⟩ := hφ A hA hm
  have hBr : B.rows = A.rows := by rw [← length_rowsList B, rB]; simp
  have hA' : IsMat A (fun (i : Fin A.rows) (j : Fin m) => A.at i j) := ⟨rfl, hm, fun _ _ => rfl⟩
  have hB' : IsMat B (fun (i : Fin A.rows) (j : Fin m) => B.at i j) := ⟨hBr, hB, fun _ _ => rfl⟩
  obtain ⟨Z, eZ, hZ⟩ := hA'.npBinary hB' (· + ·)
  refine ⟨Z, ?cb, ?h, hZ.2.1, ?_⟩
  case h =>
    simp only [residual, e, bind, Except.bind, pure, Except.pure, Val.add, eZ]
    rfl
  have rA := rowsList_of hA'
  have rB' := rowsList_of hB'
  rw [rowsList_of hZ]
  refine List.ext_getElem (by simp [rowsOf]) fun i h1 h2 => ?_
  have hi : i < A.rows := by simpa using h2
  have h3 : φ (around w (rowsList A) i) = List.ofFn fun j : Fin m => B.at i j := by
    have h4 : (rowsList B)[i]? = some (φ (around w (rowsList A) i)) := by rw [rB]; simp [hi]
    rw [rB', rowsOf_getElem? _ ⟨i, hi⟩] at h4
    exact (Option.some.inj h4).symm
  have h5 : ((around w (rowsList A) i)[w]?).getD none = some (List.ofFn fun j : Fin m => A.at i j) := by
    unfold around
    rw [List.getElem?_map, List.getElem?_range (by omega), Option.map_some, Option.getD_some, if_neg (by omega),
      show i + w - w = i by omega, rA, rowsOf_getElem? _ ⟨i, hi⟩]
  simp only [List.getElem_map, List.getElem_range, h3, h5, Option.getD_some]
  simp only [rowsOf, List.getElem_ofFn]
  refine List.ext_getElem (by simp) fun j h6 h7 => ?_
  simp

/-- After pooling, layers that see only the row. -/
theorem C119_rows {L : Layer} {train : Bool} {P : ParamVals} {m k : ℕ} (h : Sees 0 L train P m k) : PerDocument L train P .rows m .rows k false := by
  obtain ⟨φ, hφ⟩ := h
  refine ⟨fun d => d.map fun r => φ [some r], fun d hd => by simpa using hd, fun _ d => by simp, ?_⟩
  rintro v ds ⟨A, rfl, hm, rfl⟩ hs -
  have hA : 0 < A.rows := by
    obtain ⟨d, hd, -⟩ := hs
    obtain ⟨r, hr, -⟩ := List.mem_map.1 hd
    rw [← length_rowsList]
    exact List.length_pos_of_mem hr
  obtain ⟨B, cb, e, hB, rB⟩ := hφ A hA hm
  refine ⟨_, cb, e, B, rfl, hB, ?_⟩
  rw [rB, ← length_rowsList A, map_around_zero, List.map_map, List.map_map]
  rfl

/-- `with_array` on a `Ragged`, around a layer that sees only the row.  Missing: layers that see further (they get rows of other documents, see
`C119_with_array_ragged_violated`). -/
theorem C119_with_array_ragged_partial {L : Layer} {train : Bool} {P : ParamVals} {m k : ℕ} (hk : 0 < k) (pad : ℕ) (h : Sees 0 L train P m k) :
    PerDocument (withArray2dL L pad) train P .ragged m .ragged k false := by
  obtain ⟨φ, hφ⟩ := h
  refine ⟨fun d => d.map fun r => φ [some r], fun d hd => by simpa using hd, fun _ d => by simp, fun v ds hv hs _ => ?_⟩
  obtain ⟨e, hw⟩ := asRagged_docs hv
  have hw' : ∀ r ∈ ds.flatten, r.length = m := fun r hr => by
    obtain ⟨d, hd, hr⟩ := List.mem_flatten.1 hr
    exact hw d hd r hr
  obtain ⟨B, cb, e', hB, rB⟩ := hφ (Arr.toMat ⟨[m], ds.flatten⟩) (by rw [rows_toMat]; exact List.length_pos_of_ne_nil (flatten_ne hs)) (cols_toMat _ _)
  rw [rowsList_toMat hw', rows_toMat, map_around_zero] at rB
  have rB' : rowsList B = (ds.map fun d => d.map fun r => φ [some r]).flatten := by rw [rB, List.map_flatten]
  obtain ⟨A, rfl, -⟩ := hv
  have hout := docs_ofRagged (m := k) hk (ds := ds.map fun d => d.map fun r => φ [some r]) (by
      obtain ⟨d, h1, h2⟩ := hs
      exact ⟨_, List.mem_map_of_mem h1, by simpa using h2⟩) (by
      intro d hd r hr
      rw [← hB]
      exact rowsList_width (by rw [rB']; exact List.mem_flatten.2 ⟨d, hd, hr⟩))
  have hl : (ds.map fun d => d.map fun r => φ [some r]).map List.length = ds.map List.length := by simp [Function.comp_def]
  refine ⟨_, ?cb, ?h, hout⟩
  case h =>
    simp only [withArray2dL, withArrayRaggedL, e, bind, Except.bind, pure, Except.pure, Ragged.dataXd, e', Val.asArr, toArr_rowsList, hB, rB', hl]
    rfl

/-! ### with_array on a list -/

/-- `flatten` with padding, when there is a row. -/
def layDocs (pad : ℕ) (blank : List ℝ) : List Doc → List (List ℝ)
  | [] => List.replicate pad blank
  | s :: ss => if s = [] then layDocs pad blank ss else List.replicate pad blank ++ s ++ layDocs pad blank ss

theorem laidOut_layDocs (pad : ℕ) (blank : List ℝ) {ds : List Doc} (h : ∃ d ∈ ds, d ≠ []) : laidOut pad blank ds = layDocs pad blank ds := by
  have h1 : ∀ ds : List Doc, (ds.filter (fun s => !s.isEmpty)).flatMap (fun s => List.replicate pad blank ++ s) ++ List.replicate pad blank =
      layDocs pad blank ds := by
    intro ds
    induction ds with
    | nil => rfl
    | cons s ss ih =>
      cases s with
      | nil => simpa [layDocs] using ih
      | cons a s => simp [layDocs, ← ih]
  unfold laidOut
  rw [if_neg, h1]
  obtain ⟨d, h2, h3⟩ := h
  simp only [List.all_eq_true, not_forall]
  exact ⟨d, h2, by simpa using h3⟩

theorem layDocs_start (pad : ℕ) (blank : List ℝ) (ds : List Doc) : ∃ B, layDocs pad blank ds = List.replicate pad blank ++ B := by
  induction ds with
  | nil => exact ⟨[], by simp [layDocs]⟩
  | cons s ss ih =>
    unfold layDocs
    split
    · exact ih
    · exact ⟨_, by rw [List.append_assoc]⟩

theorem mem_layDocs {pad : ℕ} {blank r : List ℝ} {ds : List Doc} (h : r ∈ layDocs pad blank ds) : r = blank ∨ ∃ d ∈ ds, r ∈ d := by
  induction ds with
  | nil => exact .inl (List.eq_of_mem_replicate h)
  | cons s ss ih =>
    unfold layDocs at h
    split at h
    · rcases ih h with h | ⟨d, h1, h2⟩
      · exact .inl h
      · exact .inr ⟨d, by simp [h1], h2⟩
    · rcases List.mem_append.1 h with h | h
      · rcases List.mem_append.1 h with h | h
        · exact .inl (List.eq_of_mem_replicate h)
        · exact .inr ⟨s, by simp, h⟩
      · rcases ih h with h | ⟨d, h1, h2⟩
        · exact .inl h
        · exact .inr ⟨d, by simp [h1], h2⟩

theorem around_between {w pad t : ℕ} (hw : w ≤ pad) {A Z s Z' B : List (List ℝ)} (hZ : Z.length = pad) (hZ' : Z'.length = pad) (ht : t < s.length) :
    around w (A ++ (Z ++ s ++ (Z' ++ B))) (A.length + (pad + t)) = around w (Z ++ s ++ Z') (pad + t) := by
  unfold around
  refine List.map_congr_left fun j hj => ?_
  have hj : j < 2 * w + 1 := by simpa using hj
  rw [if_neg (by omega), if_neg (by omega), List.getElem?_append_right (by omega),
    show A.length + (pad + t) + j - w - A.length = pad + t + j - w by omega, ← List.append_assoc (Z ++ s) Z' B,
    List.getElem?_append_left (by simp only [List.length_append]; omega)]

/-- What a layer that sees `w` rows gives for the padded document. -/
noncomputable def overDoc (w pad : ℕ) (blank : List ℝ) (φ : List (Option (List ℝ)) → List ℝ) (d : Doc) : Doc :=
  (List.range d.length).map fun t => φ (around w (List.replicate pad blank ++ d ++ List.replicate pad blank) (pad + t))

theorem cut_layDocs {w pad : ℕ} (hw : w ≤ pad) (blank : List ℝ) (φ : List (Option (List ℝ)) → List ℝ) (ds : List Doc) (A : List (List ℝ)) :
    ∃ (segs : List (List (List ℝ))) (rest : List (List ℝ)), ((List.range (layDocs pad blank ds).length).map fun i => φ (around w (A ++ layDocs pad blank ds) (A.length + i))) =
        segs.flatten ++ rest ∧
      segs.map List.length = (ds.map List.length).map (fun l => if l > 0 then l + pad else 0) ∧
      segs.map (List.drop pad) = ds.map (overDoc w pad blank φ) := by
  induction ds generalizing A with
  | nil => exact ⟨[], _, (List.nil_append _).symm, rfl, rfl⟩
  | cons s ss ih =>
    by_cases hs : s = []
    · subst hs
      obtain ⟨segs, rest, h1, h2, h3⟩ := ih A
      exact ⟨[] :: segs, rest, by simpa [layDocs] using h1, by simp [h2], by simp [h3, overDoc]⟩
    · obtain ⟨segs, rest, h1, h2, h3⟩ := ih (A ++ (List.replicate pad blank ++ s))
      have hl : 0 < s.length := List.length_pos_of_ne_nil hs
      refine ⟨((List.range (pad + s.length)).map fun i => φ (around w (A ++ layDocs pad blank (s :: ss)) (A.length + i))) :: segs, rest, ?_, ?_, ?_⟩
      · have h4 : (layDocs pad blank (s :: ss)).length = (pad + s.length) + (layDocs pad blank ss).length := by
          simp [layDocs, hs, Nat.add_assoc]
        rw [h4, List.range_add, List.map_append, List.flatten_cons, List.append_assoc, ← h1]
        congr 1
        rw [List.map_map]
        refine List.map_congr_left fun i _ => ?_
        simp only [Function.comp_apply, layDocs, hs, if_false, List.append_assoc, List.length_append, List.length_replicate]
        congr 2
        omega
      · simp only [List.map_cons, h2, List.length_map, List.length_range, hl, if_true, gt_iff_lt]
        rw [Nat.add_comm]
      · simp only [List.map_cons, h3]
        congr 1
        rw [List.range_add, List.map_append, List.drop_left' (by simp), List.map_map]
        unfold overDoc
        refine List.map_congr_left fun t ht => ?_
        have ht : t < s.length := by simpa using ht
        simp only [Function.comp_apply]
        obtain ⟨B, hB⟩ := layDocs_start pad blank ss
        congr 1
        have := around_between hw (A := A) (Z := List.replicate pad blank) (s := s) (Z' := List.replicate pad blank) (B := B) (by simp) (by simp) ht
        rw [← hB] at this
        simpa [layDocs, hs] using this

theorem unflatten_cut {pad : ℕ} (F : Arr ℝ) {ls : List ℕ} {segs : List (List (List ℝ))} {rest : List (List ℝ)} (hF : F.rows = segs.flatten ++ rest)
    (hl : segs.map List.length = ls.map (fun l => if l > 0 then l + pad else 0)) :
    opsUnflatten F ls pad = .ok ((segs.map (List.drop pad)).map fun s => ⟨F.tail, s⟩) := by
  have hsegs := npSplit_segs F segs rest hF
  rw [hl] at hsegs
  have hl' : (if pad > 0 then ls.map (fun l => if l > 0 then l + pad else 0) else ls) = ls.map (fun l => if l > 0 then l + pad else 0) := by
    split
    · rfl
    · rename_i hp
      have hp : pad = 0 := by omega
      subst hp
      conv_lhs => rw [← List.map_id ls]
      refine List.map_congr_left fun l _ => ?_
      simp only [id]
      split <;> omega
  have hlen : segs.length = ls.length := by simpa using congrArg List.length hl
  unfold opsUnflatten
  simp only []
  rw [hl', hsegs]
  simp only [List.dropLast_concat]
  by_cases hp : pad > 0
  · simp only [hp, if_true, List.length_map, List.map_map, hlen]
    congr 1
    refine List.map_congr_left fun s _ => ?_
    simp [Arr.slice, Arr.len]
  · simp only [hp, if_false, List.length_map, if_true, List.map_map, hlen]
    have hp : pad = 0 := by omega
    subst hp
    congr 1

/-- `with_array` on a list of arrays, around a layer that sees no further than the padding.  Missing: layers that see further than the padding
(see `C119_with_array_list_violated`). -/
theorem C119_with_array_list_partial {L : Layer} {train : Bool} {P : ParamVals} {w m k : ℕ} (hm : 0 < m) {pad : ℕ} (hw : w ≤ pad) (h : Sees w L train P m k) :
    PerDocument (withArray2dL L pad) train P .list m .list k false := by
  obtain ⟨φ, hφ⟩ := h
  refine ⟨overDoc w pad (List.replicate m 0) φ, fun d hd => by simpa [overDoc] using hd, fun _ d => by simp [overDoc], fun v ds hv hs _ => ?_⟩
  obtain ⟨e, hwid⟩ := arrays_docs hv
  have e1 := flatten_asList m (by omega) ds (ne_of_some hs) pad
  rw [laidOut_layDocs pad _ hs] at e1
  have hw' : ∀ r ∈ layDocs pad (List.replicate m 0) ds, r.length = m := fun r hr => by
    rcases mem_layDocs hr with rfl | ⟨d, hd, hr⟩
    · simp
    · exact hwid d hd r hr
  have hpos : 0 < (layDocs pad (List.replicate m (0 : ℝ)) ds).length := by
    rw [← laidOut_layDocs pad _ hs]
    obtain ⟨rest, hrest⟩ := laidOut_segs pad (List.replicate m (0 : ℝ)) ds
    obtain ⟨d, h1, h2⟩ := hs
    rw [hrest]
    refine List.length_pos_of_ne_nil fun h3 => ?_
    have h4 := List.flatten_eq_nil_iff.1 (List.append_eq_nil_iff.1 h3).1 _ (List.mem_map_of_mem h1)
    rw [if_neg (by simpa using h2)] at h4
    exact h2 (List.append_eq_nil_iff.1 h4).2
  obtain ⟨B, cb, e', hB, rB⟩ := hφ (Arr.toMat ⟨[m], layDocs pad (List.replicate m 0) ds⟩) (by rw [rows_toMat]; exact hpos) (cols_toMat _ _)
  rw [rowsList_toMat hw', rows_toMat] at rB
  obtain ⟨segs, rest, h1, h2, h3⟩ := cut_layDocs hw (List.replicate m 0) φ ds []
  simp only [List.nil_append, List.length_nil, Nat.zero_add] at h1
  have e2 := unflatten_cut (pad := pad) (ls := ds.map List.length) ⟨[k], rowsList B⟩ (rB.trans h1) h2
  rw [h3] at e2
  have hout := docs_ofArrays (m := k) (ds := ds.map (overDoc w pad (List.replicate m 0) φ)) (by
    intro d hd r hr
    rw [← h3] at hd
    obtain ⟨s, hs, rfl⟩ := List.mem_map.1 hd
    rw [← hB]
    refine rowsList_width ?_
    rw [rB, h1]
    exact List.mem_append_left _ (List.mem_flatten.2 ⟨s, hs, List.mem_of_mem_drop hr⟩))
  obtain ⟨As, rfl, -⟩ := hv
  refine ⟨_, ?cb, ?h, hout⟩
  case h =>
    simp only [withArray2dL, withArrayListL, e, bind, Except.bind, pure, Except.pure, e1, e', Val.asArr, toArr_rowsList, hB, map_len_asList, lens, e2]
    rfl

/-! ### Layers on a `Ragged` -/

/-- Number `o` of row `t` of a document. -/
def docAt (d : Doc) (t o : ℕ) : ℝ := (d.getD t []).getD o 0

/-- A document with as many rows, from the numbers in it. -/
def mkDoc (k : ℕ) (g : Doc → ℕ → ℕ → ℝ) (d : Doc) : Doc := (List.range d.length).map fun t => (List.range k).map fun o => g d t o

theorem mkDoc_length (k : ℕ) (g : Doc → ℕ → ℕ → ℝ) (d : Doc) : (mkDoc k g d).length = d.length := by simp [mkDoc]

theorem mkDoc_ne (k : ℕ) (g : Doc → ℕ → ℕ → ℝ) (d : Doc) (h : d ≠ []) : mkDoc k g d ≠ [] := by simpa [mkDoc] using h

theorem rowsList_getElem? {A : Mat ℝ} {i : ℕ} (h : i < A.rows) : (rowsList A)[i]? = some ((List.range A.cols).map fun j => A.at i j) := by
  simp [rowsList, h]

theorem row_docs {A : Mat ℝ} {ds : List Doc} (h : rowsList A = ds.flatten) {b t : ℕ} (hb : b < ds.length) (ht : t < ds[b].length) :
    seqStart (ds.map List.length) b + t < A.rows ∧
      ds[b][t] = (List.range A.cols).map fun o => seqAt A (ds.map List.length) b t o := by
  have h1 := flatten_getElem? ds b t hb ht
  rw [← h] at h1
  have h2 : seqStart (ds.map List.length) b + t < A.rows := by
    rw [← length_rowsList]
    exact (List.getElem?_eq_some_iff.1 h1).1
  refine ⟨h2, ?_⟩
  rw [show ((ds.map List.length).take b).sum + t = seqStart (ds.map List.length) b + t from rfl, rowsList_getElem? h2] at h1
  exact (Option.some.inj h1).symm

theorem seqAt_docs {A : Mat ℝ} {ds : List Doc} (h : rowsList A = ds.flatten) {b t o : ℕ} (hb : b < ds.length) (ht : t < ds[b].length) (ho : o < A.cols) :
    seqAt A (ds.map List.length) b t o = docAt ds[b] t o := by
  obtain ⟨-, h1⟩ := row_docs h hb ht
  simp [docAt, List.getD_eq_getElem?_getD, ht, h1, ho]

theorem rows_docs {A : Mat ℝ} {ds : List Doc} (h : rowsList A = ds.flatten) : A.rows = (ds.map List.length).sum := by
  rw [sum_lengths, ← h, length_rowsList]

theorem seqLen_docs (ds : List Doc) {b : ℕ} (hb : b < ds.length) : seqLen (ds.map List.length) b = ds[b].length := by
  simp [seqLen, List.getD_eq_getElem?_getD, hb]

theorem raggedDocs_of {B : Mat ℝ} {k : ℕ} {ds : List Doc} (hr : B.rows = (ds.map List.length).sum) (hk : B.cols = k) (g : Doc → ℕ → ℕ → ℝ)
    (h : ∀ (b : ℕ) (hb : b < ds.length) (t : ℕ), t < ds[b].length → ∀ o < k, seqAt B (ds.map List.length) b t o = g ds[b] t o) :
    rowsList B = (ds.map (mkDoc k g)).flatten ∧ IsDocs .ragged k (.ragged B (ds.map List.length)) (ds.map (mkDoc k g)) := by
  obtain ⟨es, h1, h2⟩ := exists_cut (ds.map List.length) (rowsList B) (by rw [length_rowsList, hr])
  have hlen : es.length = ds.length := by simpa using congrArg List.length h1
  have h3 : es = ds.map (mkDoc k g) := by
    refine List.ext_getElem (by simpa using hlen) fun b hb1 hb2 => ?_
    have hb : b < ds.length := by omega
    have hlb : es[b].length = ds[b].length := by
      have := congrArg (·[b]?) h1
      simpa [hb1, hb] using this
    rw [List.getElem_map]
    refine List.ext_getElem (by rw [mkDoc_length, hlb]) fun t ht1 ht2 => ?_
    have ht : t < ds[b].length := by omega
    obtain ⟨-, h4⟩ := row_docs h2.symm hb1 ht1
    rw [h4]
    simp only [mkDoc, List.getElem_map, List.getElem_range]
    rw [hk]
    refine List.map_congr_left fun o ho => ?_
    rw [h1]
    exact h b hb t ht o (by simpa using ho)
  rw [h3] at h2
  refine ⟨h2.symm, B, ?_, hk, h2.symm⟩
  rw [List.map_map]
  congr 1
  exact List.map_congr_left fun d _ => (mkDoc_length k g d).symm

/-- The window of a row: the rows `-nW` to `nW` around it, one after the other, with zeros outside the document. -/
noncomputable def windowNumbers (nW m : ℕ) (d : Doc) (t o : ℕ) : ℝ :=
  if nW ≤ t + o / m ∧ t + o / m - nW < d.length then docAt d (t + o / m - nW) (o % m) else 0

theorem seq2col_docs {X : Mat ℝ} {m : ℕ} {ds : List Doc} (hc : X.cols = m) (h : rowsList X = ds.flatten) (nW : ℕ) (lengths : Option (List ℕ))
    (hls : ds.map List.length = effLengths lengths X.rows) :
    ∃ Y, seq2col X nW (lengths.map asInts) = .ok Y ∧ Y.cols = (2 * nW + 1) * m ∧
      rowsList Y = (ds.map (mkDoc ((2 * nW + 1) * m) (windowNumbers nW m))).flatten ∧
      IsDocs .ragged ((2 * nW + 1) * m) (.ragged Y (ds.map List.length)) (ds.map (mkDoc ((2 * nW + 1) * m) (windowNumbers nW m))) := by
  subst hc
  obtain ⟨Y, e, r, c, hY⟩ := C40_seq2col X nW lengths _ hls (rows_docs h).symm
  refine ⟨Y, e, c, raggedDocs_of (r.trans (rows_docs h)) c _ fun b hb t ht o ho => ?_⟩
  have hm : 0 < X.cols := Nat.pos_of_ne_zero fun h0 => by rw [h0] at ho; omega
  have hq : o / X.cols < 2 * nW + 1 := Nat.div_lt_of_lt_mul (by rw [Nat.mul_comm]; exact ho)
  have hi : o % X.cols < X.cols := Nat.mod_lt _ hm
  have := hY b (by simpa using hb) t (by rw [seqLen_docs ds hb]; exact ht) (o / X.cols) hq (o % X.cols) hi
  rw [Nat.mul_comm, Nat.div_add_mod, seqLen_docs ds hb] at this
  rw [this]
  unfold windowNumbers
  split
  · rename_i h'
    exact seqAt_docs h hb h'.2 hi
  · rfl

/-- `expand_window` on a `Ragged`: windows end at the ends of the document. -/
theorem C119_expand_window_ragged (nW m : ℕ) (train : Bool) (P : ParamVals) :
    PerDocument (expandWindow nW) train P .ragged m .ragged ((2 * nW + 1) * m) false := by
  refine ⟨_, mkDoc_ne ((2 * nW + 1) * m) (windowNumbers nW m), fun _ => mkDoc_length _ _, ?_⟩
  rintro v ds ⟨X, rfl, hc, hX⟩ - -
  obtain ⟨Y, e, -, -, hY⟩ := seq2col_docs hc hX nW (some (ds.map List.length)) rfl
  refine ⟨_, ?cb, ?h, hY⟩
  case h =>
    simp only [expandWindow, expandWindowRagged, bind, Except.bind, pure, Except.pure]
    rw [show (ds.map List.length).map Int.ofNat = asInts (ds.map List.length) from rfl, show seq2col X nW (some (asInts (ds.map List.length))) = .ok Y from e]

/-- `expand_window` on an array sees `nW` rows. -/
theorem C119_sees_expand_window (nW m : ℕ) (train : Bool) (P : ParamVals) : Sees nW (expandWindow nW) train P m ((2 * nW + 1) * m) := by
  refine ⟨fun win => (List.range ((2 * nW + 1) * m)).map fun o => (((win[o / m]?).getD none).getD []).getD (o % m) 0, ?_⟩
  intro A hA hc
  obtain ⟨Y, e, c, hY, -⟩ := seq2col_docs hc (ds := [rowsList A]) (by simp) nW none (by simp [effLengths, length_rowsList])
  refine ⟨Y, ?cb, ?h, c, ?_⟩
  case h =>
    simp only [expandWindow, expandWindowFloats, windowFloats, Val.asArr, gt_iff_lt, hA, if_true, bind, Except.bind, pure, Except.pure,
      show seq2col A nW none = .ok Y from e]
    rfl
  rw [hY]
  simp only [List.map_cons, List.map_nil, List.flatten_cons, List.flatten_nil, List.append_nil, mkDoc, length_rowsList]
  refine List.map_congr_left fun t ht => List.map_congr_left fun o ho => ?_
  have ho : o < (2 * nW + 1) * m := by simpa using ho
  have hm : 0 < m := Nat.pos_of_ne_zero fun h0 => by rw [h0] at ho; omega
  have hq : o / m < 2 * nW + 1 := Nat.div_lt_of_lt_mul (by rw [Nat.mul_comm]; exact ho)
  unfold windowNumbers around docAt
  rw [List.getElem?_map, List.getElem?_range hq, Option.map_some, Option.getD_some, length_rowsList]
  by_cases h1 : t + o / m < nW
  · rw [if_neg (by omega), if_pos h1]
    rfl
  · rw [if_neg h1]
    by_cases h2 : t + o / m - nW < A.rows
    · rw [if_pos ⟨by omega, h2⟩, List.getD_eq_getElem?_getD (l := rowsList A)]
    · rw [if_neg (by omega), List.getElem?_eq_none (by rw [length_rowsList]; omega)]
      rfl

/-! ### Pooling -/

theorem pooled_of {Y : Mat ℝ} {k : ℕ} {ds : List Doc} (hr : Y.rows = (ds.map List.length).length) (hk : Y.cols = k) (g : Doc → ℕ → ℝ)
    (h : ∀ (b : ℕ) (hb : b < ds.length), ∀ o < k, Y.at b o = g ds[b] o) :
    IsDocs .rows k (.arr Y) (ds.map fun d => [(List.range k).map (g d)]) := by
  refine ⟨Y, rfl, hk, ?_⟩
  rw [List.length_map] at hr
  unfold rowsList
  rw [List.map_map]
  refine List.ext_getElem (by simp [hr]) fun b h1 h2 => ?_
  have hb : b < ds.length := by simpa using h1
  simp only [List.getElem_map, List.getElem_range, Function.comp_apply, hk]
  congr 1
  exact List.map_congr_left fun o ho => (h b hb o (by simpa using ho)).symm

theorem C119_reduce_sum (m : ℕ) (train : Bool) (P : ParamVals) : PerDocument reduceSumLayer train P .ragged m .rows m false := by
  refine ⟨fun d => [(List.range m).map fun o => ∑ t ∈ Finset.range d.length, docAt d t o], fun d _ => by simp, fun h => absurd rfl h, ?_⟩
  rintro v ds ⟨X, rfl, hc, hX⟩ hs -
  have hr := rows_docs hX
  obtain ⟨Y, e, r, c, h⟩ := C37_reduce_sum_partial X (ds.map List.length) (by rw [hr]; exact pos_sum hs) hr.ge
  refine ⟨_, ?cb, ?h, pooled_of (g := fun d o => ∑ t ∈ Finset.range d.length, docAt d t o) r (c.trans hc) fun b hb o ho => ?_⟩
  case h =>
    simp only [reduceSumLayer, Val.lengths, Val.raggedData, bind, Except.bind, pure, Except.pure]
    rw [show (ds.map List.length).map Int.ofNat = asInts (ds.map List.length) from rfl, e]
  rw [h b (by simpa using hb) o (by rw [hc]; exact ho), seqLen_docs ds hb]
  exact Finset.sum_congr rfl fun t ht => seqAt_docs hX hb (Finset.mem_range.1 ht) (by rw [hc]; exact ho)

theorem C119_reduce_mean (m : ℕ) (train : Bool) (P : ParamVals) : PerDocument reduceMeanLayer train P .ragged m .rows m false := by
  refine ⟨fun d => [(List.range m).map fun o => if d.length = 0 then 0 else (∑ t ∈ Finset.range d.length, docAt d t o) / (d.length : ℝ)], fun d _ => by simp,
    fun h => absurd rfl h, ?_⟩
  rintro v ds ⟨X, rfl, hc, hX⟩ hs -
  have hr := rows_docs hX
  obtain ⟨Y, e, r, c, h⟩ := C37_reduce_mean_partial X (ds.map List.length) (by rw [hr]; exact pos_sum hs) hr.ge
  refine ⟨_, ?cb, ?h, pooled_of (g := fun d o => if d.length = 0 then 0 else (∑ t ∈ Finset.range d.length, docAt d t o) / (d.length : ℝ)) r (c.trans hc)
    fun b hb o ho => ?_⟩
  case h =>
    simp only [reduceMeanLayer, Val.lengths, Val.raggedData, bind, Except.bind, pure, Except.pure]
    rw [show (ds.map List.length).map Int.ofNat = asInts (ds.map List.length) from rfl, e]
  rw [h b (by simpa using hb) o (by rw [hc]; exact ho), seqLen_docs ds hb]
  congr 2
  exact Finset.sum_congr rfl fun t ht => seqAt_docs hX hb (Finset.mem_range.1 ht) (by rw [hc]; exact ho)

theorem lengths_pos {ds : List Doc} (h : ∀ d ∈ ds, d ≠ []) : ∀ l ∈ ds.map List.length, 0 < l := by
  intro l hl
  obtain ⟨d, hd, rfl⟩ := List.mem_map.1 hl
  exact List.length_pos_of_ne_nil (h d hd)

theorem C119_reduce_first (m : ℕ) (train : Bool) (P : ParamVals) : PerDocument reduceFirstLayer train P .ragged m .rows m true := by
  refine ⟨fun d => [(List.range m).map fun o => docAt d 0 o], fun d _ => by simp, fun h => absurd rfl h, ?_⟩
  rintro v ds ⟨X, rfl, hc, hX⟩ hs hf
  have hr := rows_docs hX
  have hp := lengths_pos (hf rfl)
  obtain ⟨Y, se, e, r, c, h⟩ := C39_reduce_first X (ds.map List.length) hp (by simpa using ne_of_some hs) hr.symm
  refine ⟨_, ?cb, ?h, pooled_of (g := fun d o => docAt d 0 o) r (c.trans hc) fun b hb o ho => ?_⟩
  case h =>
    simp only [reduceFirstLayer, Val.lengths, Val.raggedData, bind, Except.bind, pure, Except.pure]
    rw [show (ds.map List.length).map Int.ofNat = asInts (ds.map List.length) from rfl, e]
  rw [h b (by simpa using hb) o (by rw [hc]; exact ho)]
  exact seqAt_docs hX hb (List.length_pos_of_ne_nil (hf rfl _ (List.getElem_mem hb))) (by rw [hc]; exact ho)

theorem C119_reduce_last (m : ℕ) (train : Bool) (P : ParamVals) : PerDocument reduceLastLayer train P .ragged m .rows m true := by
  refine ⟨fun d => [(List.range m).map fun o => docAt d (d.length - 1) o], fun d _ => by simp, fun h => absurd rfl h, ?_⟩
  rintro v ds ⟨X, rfl, hc, hX⟩ hs hf
  have hr := rows_docs hX
  have hp := lengths_pos (hf rfl)
  obtain ⟨Y, se, e, r, c, h⟩ := C39_reduce_last X (ds.map List.length) hp (by simpa using ne_of_some hs) hr.symm
  refine ⟨_, ?cb, ?h, pooled_of (g := fun d o => docAt d (d.length - 1) o) r (c.trans hc) fun b hb o ho => ?_⟩
  case h =>
    simp only [reduceLastLayer, Val.lengths, Val.raggedData, bind, Except.bind, pure, Except.pure]
    rw [show (ds.map List.length).map Int.ofNat = asInts (ds.map List.length) from rfl, e]
  rw [h b (by simpa using hb) o (by rw [hc]; exact ho), seqLen_docs ds hb]
  have := List.length_pos_of_ne_nil (hf rfl _ (List.getElem_mem hb))
  exact seqAt_docs hX hb (by omega) (by rw [hc]; exact ho)

open Classical in
/-- The largest of the first `n` numbers. -/
noncomputable def largest (f : ℕ → ℝ) (n : ℕ) : ℝ := if h : ∃ w, firstMax f n w then f h.choose else 0

theorem largest_eq {f g : ℕ → ℝ} {n w : ℕ} (h : firstMax f n w) (hfg : ∀ t < n, f t = g t) : f w = largest g n := by
  have hg : firstMax g n w := ⟨h.1, fun t ht => by rw [← hfg t ht, ← hfg w h.1]; exact h.2.1 t ht,
    fun t ht => by rw [← hfg t (ht.trans h.1), ← hfg w h.1]; exact h.2.2 t ht⟩
  have hex : ∃ w, firstMax g n w := ⟨w, hg⟩
  have hc := hex.choose_spec
  unfold largest
  rw [dif_pos hex, hfg w h.1]
  exact le_antisymm (hc.2.1 w hg.1) (hg.2.1 _ hc.1)

theorem C119_reduce_max (junk : ℕ → ℝ) (m : ℕ) (train : Bool) (P : ParamVals) : PerDocument (reduceMaxLayer junk) train P .ragged m .rows m true := by
  refine ⟨fun d => [(List.range m).map fun o => largest (fun t => docAt d t o) d.length], fun d _ => by simp, fun h => absurd rfl h, ?_⟩
  rintro v ds ⟨X, rfl, hc, hX⟩ hs hf
  have hr := rows_docs hX
  have hp := lengths_pos (hf rfl)
  obtain ⟨Y, W, e, r, c, -, -, h⟩ := C38_reduce_max junk X (ds.map List.length) hp hr.ge
  refine ⟨_, ?cb, ?h, pooled_of (g := fun d o => largest (fun t => docAt d t o) d.length) r (c.trans hc) fun b hb o ho => ?_⟩
  case h =>
    simp only [reduceMaxLayer, Val.lengths, Val.raggedData, bind, Except.bind, pure, Except.pure]
    rw [show (ds.map List.length).map Int.ofNat = asInts (ds.map List.length) from rfl, e]
  obtain ⟨w, h1, h2, -⟩ := h b (by simpa using hb) o (by rw [hc]; exact ho)
  rw [seqLen_docs ds hb] at h1
  rw [h2]
  exact largest_eq (f := fun t => seqAt X (ds.map List.length) b t o) h1 fun t ht => seqAt_docs hX hb ht (by rw [hc]; exact ho)

/-! ### Attention -/

/-- The score of a row. -/
noncomputable def docScore (Q : Mat ℝ) (k : ℕ) (φ : List (Option (List ℝ)) → List ℝ) (d : Doc) (t : ℕ) : ℝ :=
  npClip (∑ l : Fin k, (φ [d[t]?]).getD l 0 * Q.at 0 l) (-20) 20

/-- Attention weights depend on the document alone. -/
theorem C119_attention_v2 {key : Layer} {train : Bool} {P : ParamVals} {m k : ℕ} (h : Sees 0 key train P m k) (Q : ℕ) (hr : (P Q).rows = 1)
    (hc : (P Q).cols = k) : PerDocument (parametricAttentionV2 Q key) train P .ragged m .ragged m false := by
  obtain ⟨φ, hφ⟩ := h
  let sc := docScore (P Q) k φ
  let g : Doc → ℕ → ℕ → ℝ := fun d t j => docAt d t j * (Real.exp (sc d t) / ∑ t' ∈ Finset.range d.length, Real.exp (sc d t'))
  refine ⟨mkDoc m g, mkDoc_ne m g, fun _ => mkDoc_length m g, ?_⟩
  rintro v ds ⟨X, rfl, hm, hX⟩ hs -
  subst hm
  have hrows := rows_docs hX
  have hn := pos_sum hs
  obtain ⟨K, cb, eK, hKc, hK⟩ := hφ X (by rw [hrows]; exact hn) rfl
  have hKr : K.rows = (ds.map List.length).sum := by rw [← length_rowsList K, hK, ← hrows]; simp
  have hX' : IsMat X (fun (i : Fin (ds.map List.length).sum) (j : Fin X.cols) => X.at i j) := ⟨hrows, rfl, fun _ _ => rfl⟩
  have hK' : IsMat K (fun (i : Fin (ds.map List.length).sum) (l : Fin k) => K.at i l) := ⟨hKr, hKc, fun _ _ => rfl⟩
  have hQ' : IsMat (P Q) (fun (i : Fin 1) (l : Fin k) => (P Q).at i l) := ⟨hr, hc, fun _ _ => rfl⟩
  obtain ⟨A, eA, hA⟩ := attentionWeights_isMat hK' hQ' hn
  obtain ⟨B, eB, hB⟩ := hX'.npBinary_col hA (· * ·)
  have hkey : ∀ (b : ℕ) (hb : b < ds.length) (t : ℕ), t < ds[b].length → ∀ l < k,
      K.at (seqStart (ds.map List.length) b + t) l = (φ [ds[b][t]?]).getD l 0 := by
    intro b hb t ht l hl
    obtain ⟨h1, h2⟩ := row_docs hX hb ht
    have h3 : (rowsList K)[seqStart (ds.map List.length) b + t]? = some (φ [some ds[b][t]]) := by
      have h4 := flatten_getElem? ds b t hb ht
      rw [← hX] at h4
      have h4 : (rowsList X)[seqStart (ds.map List.length) b + t]? = some ds[b][t] := h4
      rw [hK, List.getElem?_map, List.getElem?_range h1, Option.map_some, around_zero, h4]
    rw [rowsList_getElem? (by rw [hKr, ← hrows]; exact h1)] at h3
    rw [List.getElem?_eq_getElem ht, ← Option.some.inj h3]
    simp [List.getD_eq_getElem?_getD, hKc, hl]
  have hscore : ∀ (b : ℕ) (hb : b < ds.length) (t : ℕ), t < ds[b].length →
      npClip (∑ l : Fin k, K.at (seqStart (ds.map List.length) b + t) l * (P Q).at 0 l) (-20) 20 = sc ds[b] t := by
    intro b hb t ht
    show _ = npClip _ (-20) 20
    congr 1
    exact Finset.sum_congr rfl fun l _ => by rw [hkey b hb t ht l l.2]
  refine ⟨_, ?cb, ?h, (raggedDocs_of hB.1 hB.2.1 g fun b hb t ht o ho => ?_).2⟩
  case h =>
    simp only [parametricAttentionV2, Val.raggedData, Val.lengths, eK, Val.asArr, eA, eB, bind, Except.bind, pure, Except.pure]
    rfl
  obtain ⟨h1, h2⟩ := row_docs hX hb ht
  have hi : seqStart (ds.map List.length) b + t < (ds.map List.length).sum := by rw [← hrows]; exact h1
  refine (hB.2.2 ⟨_, hi⟩ ⟨o, ho⟩).trans ?_
  show X.at (seqStart (ds.map List.length) b + t) o * _ = docAt ds[b] t o * _
  rw [show X.at (seqStart (ds.map List.length) b + t) o = seqAt X (ds.map List.length) b t o from rfl, seqAt_docs hX hb ht ho]
  congr 1
  unfold attention
  have hsum := sum_same (ds.map List.length) b (by simpa using hb)
    (fun i => Real.exp (npClip (∑ l : Fin k, K.at i l * (P Q).at 0 l) (-20) 20))
  have hmem : memberOf (ds.map List.length) (seqStart (ds.map List.length) b + t) = b :=
    memberOf_start _ b t (by rw [seqLen_docs ds hb]; exact ht)
  simp only [hmem, Fin.val_zero]
  rw [hscore b hb t ht]
  congr 1
  refine hsum.trans ?_
  rw [← Finset.sum_range (fun t => Real.exp (npClip (∑ l : Fin k, K.at (seqStart (ds.map List.length) b + t) l * (P Q).at 0 l) (-20) 20)), seqLen_docs ds hb]
  exact Finset.sum_congr rfl fun t' ht' => by rw [hscore b hb t' (Finset.mem_range.1 ht')]

theorem C119_sees_noop (m : ℕ) (train : Bool) (P : ParamVals) : Sees 0 noop train P m m := by
  refine ⟨fun win => ((win[0]?).getD none).getD [], fun A hA hm => ⟨A, _, rfl, hm, ?_⟩⟩
  have := map_around_zero (rowsList A) fun win => ((win[0]?).getD none).getD []
  rw [length_rowsList] at this
  rw [this]
  simp

theorem C119_attention {train : Bool} {P : ParamVals} {m : ℕ} (Q : ℕ) (hr : (P Q).rows = 1) (hc : (P Q).cols = m) :
    PerDocument (parametricAttention Q) train P .ragged m .ragged m false := by
  rw [parametricAttention_eq]
  exact C119_attention_v2 (C119_sees_noop m train P) Q hr hc

/-! ### Wrappers -/

theorem some_map {F : Doc → Doc} (h0 : ∀ d, d ≠ [] → F d ≠ []) {ds : List Doc} (hs : ∃ d ∈ ds, d ≠ []) : ∃ d ∈ ds.map F, d ≠ [] := by
  obtain ⟨d, h1, h2⟩ := hs
  exact ⟨F d, List.mem_map_of_mem h1, h0 d h2⟩

theorem lengths_map {F : Doc → Doc} (h1 : ∀ d, (F d).length = d.length) (ds : List Doc) : (ds.map F).map List.length = ds.map List.length := by
  rw [List.map_map]
  exact List.map_congr_left fun d _ => h1 d

/-- `with_ragged` on a list. -/
theorem C119_with_ragged {L : Layer} {train : Bool} {P : ParamVals} {m k : ℕ} (hm : 0 < m) {full : Bool}
    (h : PerDocument L train P .ragged m .ragged k full) : PerDocument (withRaggedL L) train P .list m .list k full := by
  obtain ⟨F, h0, h1, hF⟩ := h
  refine ⟨F, h0, fun _ => h1 (by simp), fun v ds hv hs hf => ?_⟩
  obtain ⟨e, hw⟩ := arrays_docs hv
  obtain ⟨Y, cb, e', hY⟩ := hF _ ds (docs_ofRagged hm hs hw) hs hf
  obtain ⟨e2, hw2⟩ := asRagged_docs hY
  obtain ⟨As, rfl, -⟩ := hv
  refine ⟨_, ?cb, ?h, docs_ofArrays hw2⟩
  case h =>
    simp only [withRaggedL, withRaggedListL, e, bind, Except.bind, pure, Except.pure, flatten_asList0 m (by omega) ds (ne_of_some hs), map_len_asList, lens, e',
      e2, show opsUnflatten (⟨[k], (ds.map F).flatten⟩ : Arr ℝ) ((ds.map F).map List.length) 0 = .ok (asList k (ds.map F)) from unflatten_asList k (ds.map F)]
    rfl

/-- `with_list` on a `Ragged`. -/
theorem C119_with_list {L : Layer} {train : Bool} {P : ParamVals} {m k : ℕ} (hk : 0 < k) {full : Bool}
    (h : PerDocument L train P .list m .list k full) : PerDocument (withListL L) train P .ragged m .ragged k full := by
  obtain ⟨F, h0, h1, hF⟩ := h
  refine ⟨F, h0, fun _ => h1 (by simp), fun v ds hv hs hf => ?_⟩
  obtain ⟨e, hw⟩ := asRagged_docs hv
  obtain ⟨Y, cb, e', hY⟩ := hF _ ds (docs_ofArrays hw) hs hf
  obtain ⟨e2, hw2⟩ := arrays_docs hY
  have hs' := some_map h0 hs
  have hout := docs_ofRagged hk hs' hw2
  rw [lengths_map (h1 (by simp))] at hout
  obtain ⟨A, rfl, -⟩ := hv
  refine ⟨_, ?cb, ?h, hout⟩
  case h =>
    simp only [withListL, withListRaggedL, e, bind, Except.bind, pure, Except.pure,
      show opsUnflatten (⟨[m], ds.flatten⟩ : Arr ℝ) (ds.map List.length) 0 = .ok (asList m ds) from unflatten_asList m ds, e', e2,
      flatten_asList0 k (by omega) (ds.map F) (ne_of_some hs')]
    rfl

/-- A residual connection on a `Ragged`. -/
theorem C119_residual_ragged {L : Layer} {train : Bool} {P : ParamVals} {m : ℕ} {full : Bool}
    (h : PerDocument L train P .ragged m .ragged m full) : PerDocument (residual L) train P .ragged m .ragged m full := by
  obtain ⟨F, h0, h1, hF⟩ := h
  have h1 := h1 (by simp)
  let g : Doc → ℕ → ℕ → ℝ := fun d t o => docAt d t o + docAt (F d) t o
  refine ⟨mkDoc m g, mkDoc_ne m g, fun _ => mkDoc_length m g, fun v ds hv hs hf => ?_⟩
  obtain ⟨Y, cb, e, Z, rfl, hc', hZ⟩ := hF v ds hv hs hf
  obtain ⟨X, rfl, hc, hX⟩ := hv
  have hr' := rows_docs hZ
  rw [lengths_map h1] at hr'
  have hX' : IsMat X (fun (i : Fin (ds.map List.length).sum) (j : Fin m) => X.at i j) := ⟨rows_docs hX, hc, fun _ _ => rfl⟩
  have hZ' : IsMat Z (fun (i : Fin (ds.map List.length).sum) (j : Fin m) => Z.at i j) := ⟨hr', hc', fun _ _ => rfl⟩
  obtain ⟨B, eB, hB⟩ := hX'.npBinary hZ' (· + ·)
  refine ⟨_, ?cb, ?h, (raggedDocs_of hB.1 hB.2.1 g fun b hb t ht o ho => ?_).2⟩
  case h =>
    simp only [residual, e, addData, eB, bind, Except.bind, pure, Except.pure]
    rfl
  obtain ⟨h2, -⟩ := row_docs hX hb ht
  have hi : seqStart (ds.map List.length) b + t < (ds.map List.length).sum := by rw [← rows_docs hX]; exact h2
  refine (hB.2.2 ⟨_, hi⟩ ⟨o, ho⟩).trans ?_
  have h3 := seqAt_docs hX hb ht (by rw [hc]; exact ho)
  have h4 := seqAt_docs (b := b) (t := t) hZ (by simpa using hb) (by simpa [h1] using ht) (by rw [hc']; exact ho)
  rw [lengths_map h1, List.getElem_map] at h4
  exact congrArg₂ (· + ·) h3 h4

theorem addItems_docs {m : ℕ} (F : Doc → Doc) (h1 : ∀ d, (F d).length = d.length) : ∀ (As Bs : List (Mat ℝ)), (∀ A ∈ As, A.cols = m) → (∀ B ∈ Bs, B.cols = m) →
    Bs.map rowsList = (As.map rowsList).map F →
    ∃ Cs : List (Mat ℝ), addItems (As.map .arr) (Bs.map .arr) = .ok (Cs.map .arr) ∧ (∀ C ∈ Cs, C.cols = m) ∧
      Cs.map rowsList = (As.map rowsList).map (mkDoc m fun d t o => docAt d t o + docAt (F d) t o)
  | [], [], _, _, _ => ⟨[], rfl, by simp, rfl⟩
  | [], _ :: _, _, _, h => by simp at h
  | _ :: _, [], _, _, h => by simp at h
  | A :: As, B :: Bs, hA, hB, h => by
    simp only [List.map_cons, List.cons.injEq] at h
    obtain ⟨Cs, e, hC, hCs⟩ := addItems_docs F h1 As Bs (fun A h => hA A (by simp [h])) (fun B h => hB B (by simp [h])) h.2
    have hr : B.rows = A.rows := by rw [← length_rowsList B, h.1, h1, length_rowsList]
    have hA' : IsMat A (fun (i : Fin A.rows) (j : Fin m) => A.at i j) := ⟨rfl, hA A (by simp), fun _ _ => rfl⟩
    have hB' : IsMat B (fun (i : Fin A.rows) (j : Fin m) => B.at i j) := ⟨hr, hB B (by simp), fun _ _ => rfl⟩
    obtain ⟨C, eC, hC'⟩ := hA'.npBinary hB' (· + ·)
    refine ⟨C :: Cs, ?_, ?_, ?_⟩
    · simp only [List.map_cons, addItems, Val.add, eC, e, bind, Except.bind, pure, Except.pure]
    · intro D hD
      rcases List.mem_cons.1 hD with rfl | hD
      · exact hC'.2.1
      · exact hC D hD
    · simp only [List.map_cons, hCs]
      congr 1
      simp only [mkDoc, ← h.1, length_rowsList]
      conv_lhs => unfold rowsList
      rw [hC'.1, hC'.2.1]
      refine List.map_congr_left fun i hi => List.map_congr_left fun j hj => ?_
      have hi : i < A.rows := by simpa using hi
      have hj : j < m := by simpa using hj
      refine (hC'.2.2 ⟨i, hi⟩ ⟨j, hj⟩).trans ?_
      simp only [docAt, List.getD_eq_getElem?_getD, rowsList_getElem? hi, rowsList_getElem? (A := B) (hr.symm ▸ hi : i < B.rows), Option.getD_some,
        hA'.2.1, hB'.2.1, List.getElem?_map, List.getElem?_range hj, Option.map_some]

/-- A residual connection on a list. -/
theorem C119_residual_list {L : Layer} {train : Bool} {P : ParamVals} {m : ℕ} {full : Bool}
    (h : PerDocument L train P .list m .list m full) : PerDocument (residual L) train P .list m .list m full := by
  obtain ⟨F, h0, h1, hF⟩ := h
  refine ⟨_, mkDoc_ne m fun d t o => docAt d t o + docAt (F d) t o, fun _ => mkDoc_length m _, fun v ds hv hs hf => ?_⟩
  obtain ⟨Y, cb, e, Bs, rfl, hB, hBs⟩ := hF v ds hv hs hf
  obtain ⟨As, rfl, hA, rfl⟩ := hv
  obtain ⟨Cs, e2, hC, hCs⟩ := addItems_docs F (h1 (by simp)) As Bs hA hB hBs
  refine ⟨_, ?cb, ?h, Cs, rfl, hC, hCs⟩
  case h =>
    simp only [residual, e, e2, Val.items, bind, Except.bind, pure, Except.pure]
    rfl

/-! ### Concatenation of pooled outputs -/

theorem rowsList_hstack2 {A B : Mat ℝ} {ds : List Doc} {f g : Doc → List ℝ} (hA : rowsList A = ds.map f) (hB : rowsList B = ds.map g) :
    ∃ C, hstack2 A B = .ok C ∧ C.cols = A.cols + B.cols ∧ rowsList C = ds.map fun d => f d ++ g d := by
  have rA : A.rows = ds.length := by rw [← length_rowsList, hA, List.length_map]
  have rB : B.rows = ds.length := by rw [← length_rowsList, hB, List.length_map]
  have hA' : IsMat A (fun (i : Fin ds.length) (j : Fin A.cols) => A.at i j) := ⟨rA, rfl, fun _ _ => rfl⟩
  have hB' : IsMat B (fun (i : Fin ds.length) (j : Fin B.cols) => B.at i j) := ⟨rB, rfl, fun _ _ => rfl⟩
  obtain ⟨C, e, hC⟩ := hA'.hstack2 hB'
  refine ⟨C, e, hC.2.1, ?_⟩
  rw [rowsList_of hC]
  symm
  refine rowsOf_eq (by simp) fun i => ?_
  have h1 : f ds[i] = List.ofFn fun j : Fin A.cols => A.at i j := by
    have := rowsOf_getElem? (fun (i : Fin ds.length) (j : Fin A.cols) => A.at i j) i
    rw [← rowsList_of hA', hA] at this
    simpa using this
  have h2 : g ds[i] = List.ofFn fun j : Fin B.cols => B.at i j := by
    have := rowsOf_getElem? (fun (i : Fin ds.length) (j : Fin B.cols) => B.at i j) i
    rw [← rowsList_of hB', hB] at this
    simpa using this
  rw [List.getElem?_map, List.getElem?_eq_getElem i.2, Option.map_some, List.ofFn_fin_append]
  exact congrArg some (congrArg₂ (· ++ ·) h1 h2)

theorem rowsList_hstack {ds : List Doc} : ∀ (Bs : List (Mat ℝ)) (gs : List (Doc → List ℝ)) (A : Mat ℝ) (f : Doc → List ℝ), rowsList A = ds.map f →
    (Bs.map rowsList = gs.map fun g => ds.map g) → ∃ C, forM' Bs A hstack2 = .ok C ∧ C.cols = A.cols + (Bs.map Mat.cols).sum ∧
      rowsList C = ds.map fun d => f d ++ (gs.map fun g => g d).flatten
  | [], [], A, f, hA, _ => ⟨A, rfl, by simp, by simpa using hA⟩
  | [], _ :: _, _, _, _, h => by simp at h
  | _ :: _, [], _, _, _, h => by simp at h
  | B :: Bs, g :: gs, A, f, hA, h => by
    simp only [List.map_cons, List.cons.injEq] at h
    obtain ⟨C, e, c, hC⟩ := rowsList_hstack2 hA h.1
    obtain ⟨D, e', c', hD⟩ := rowsList_hstack Bs gs C _ hC h.2
    refine ⟨D, ?_, by rw [c', c, List.map_cons, List.sum_cons, Nat.add_assoc], by simpa using hD⟩
    simp only [forM', e, bind, Except.bind]
    exact e'

theorem pooled_all {train : Bool} {P : ParamVals} {a : DocForm} {m : ℕ} {full : Bool} {Ls : List Layer} {ks : List ℕ}
    (h : List.Forall₂ (fun L k => PerDocument L train P a m .rows k full) Ls ks) :
    ∃ fs : List (Doc → List ℝ), ∀ v ds, IsDocs a m v ds → (∃ d ∈ ds, d ≠ []) → (full = true → ∀ d ∈ ds, d ≠ []) →
      ∃ (outs : List (Val × Callback)) (As : List (Mat ℝ)), Ls.mapM (fun L => L train P v) = .ok outs ∧ outs.map Prod.fst = As.map .arr ∧
        As.map Mat.cols = ks ∧ As.map rowsList = fs.map fun f => ds.map f := by
  induction h with
  | nil => exact ⟨[], fun _ _ _ _ _ => ⟨[], [], rfl, rfl, rfl, rfl⟩⟩
  | @cons L k Ls ks hL _ ih =>
    obtain ⟨fs, hfs⟩ := ih
    obtain ⟨F, -, -, hF⟩ := hL
    refine ⟨(fun d => (F d).headD []) :: fs, fun v ds hv hs hf => ?_⟩
    obtain ⟨outs, As, e1, e2, e3, e4⟩ := hfs v ds hv hs hf
    obtain ⟨Y, cb, e, A, rfl, hA, hrows⟩ := hF v ds hv hs hf
    refine ⟨(.arr A, cb) :: outs, A :: As, ?_, by simp [e2], by simp [hA, e3], ?_⟩
    · simp only [List.mapM_cons, e, e1, bind, Except.bind, pure, Except.pure]
    · simp only [List.map_cons, e4]
      congr 1
      have h1 := congrArg (List.map fun d : Doc => d.headD []) hrows
      rw [List.map_map, List.map_map] at h1
      refine Eq.trans ?_ h1.symm
      conv_lhs => rw [← List.map_id (rowsList A)]
      rfl

/-- Several pooled outputs side by side. -/
theorem C119_concatenate {train : Bool} {P : ParamVals} {a : DocForm} {m : ℕ} {full : Bool} {L L' : Layer} {Ls : List Layer} {ks : List ℕ}
    (h : List.Forall₂ (fun L k => PerDocument L train P a m .rows k full) (L :: L' :: Ls) ks) :
    PerDocument (concatenate (L :: L' :: Ls)) train P a m .rows ks.sum full := by
  obtain ⟨fs, hfs⟩ := pooled_all h
  refine ⟨fun d => [(fs.map fun f => f d).flatten], fun d _ => by simp, fun h => absurd rfl h, fun v ds hv hs hf => ?_⟩
  obtain ⟨outs, As, e1, e2, rfl, e4⟩ := hfs v ds hv hs hf
  rcases As with _ | ⟨A, As⟩
  · cases h
  rcases fs with _ | ⟨f, fs⟩
  · simp at e4
  simp only [List.map_cons, List.cons.injEq] at e4
  obtain ⟨C, eC, c, hC⟩ := rowsList_hstack As fs A f e4.1 e4.2
  refine ⟨.arr C, ?cb, ?h, C, rfl, by simpa using c, ?_⟩
  case h =>
    simp only [concatenate, concatenateForward, e1, bind, Except.bind, e2, List.map_cons, concatOutputs, List.head?_cons, concatArrays]
    rw [← List.map_cons (f := Val.arr), mapM_asArr]
    simp only [hstack, eC, pure, Except.pure]
    rfl
  rw [hC, List.map_map]
  simp

example (junk : ℕ → ℝ) (train : Bool) (P : ParamVals) : PerDocument (concatenate [reduceMaxLayer junk, reduceFirstLayer]) train P .ragged 3 .rows 6 true :=
  C119_concatenate (.cons (C119_reduce_max junk 3 train P) (.cons (C119_reduce_first 3 train P) .nil))

/-! ### Seeing less -/

theorem C119_sees_more {L : Layer} {train : Bool} {P : ParamVals} {w w' m k : ℕ} (hw : w ≤ w') (h : Sees w L train P m k) : Sees w' L train P m k := by
  obtain ⟨φ, hφ⟩ := h
  refine ⟨fun win => φ ((win.drop (w' - w)).take (2 * w + 1)), fun A hA hm => ?_⟩
  obtain ⟨B, cb, e, hB, rB⟩ := hφ A hA hm
  refine ⟨B, cb, e, hB, rB.trans (List.map_congr_left fun i _ => congrArg φ ?_)⟩
  unfold around
  refine List.ext_getElem (by simp; omega) fun j h1 h2 => ?_
  simp only [List.getElem_map, List.getElem_range, List.getElem_take, List.getElem_drop]
  by_cases h3 : i + j < w
  · rw [if_pos h3, if_pos (by omega)]
  · rw [if_neg h3, if_neg (by omega), show i + (w' - w + j) - w' = i + j - w by omega]

/-! ### An example -/

/-- Shapes of the parameters of a small text classifier. -/
def docShapes : Fin 5 → ℕ × ℕ := ![(2, 3), (1, 2), (1, 2), (1, 2), (1, 1)]

/-- A classifier: windows of three tokens and a linear layer inside `with_array`, attention, a sum, and a linear layer on the result. -/
noncomputable def docClassifier : Layer :=
  chain [withArray2dL (chain [expandWindow 1, linear 0 1]) 1, list2raggedL, parametricAttention 2, reduceSumLayer, linear 3 4]

example (train : Bool) (θ : Params docShapes) (P : ParamVals) (hP : IsParams P θ) : PerDocument docClassifier train P .list 1 .rows 1 false :=
  C119_chain (by simp) (C119_with_array_list_partial (by decide) (le_refl 1)
      (C119_sees_chain (w := 1) (w' := 0) (k := 3) (by simp) (C119_sees_expand_window 1 1 train P)
        (C119_sees_chain_one (C119_maps_rows (C116_exact_rows (C116_linear 0 1 rfl rfl train θ)) hP))))
    (C119_chain (by simp) (C119_list2ragged (m := 2) (by decide) train P)
      (C119_chain (by simp) (C119_attention 2 (hP 2).1 (hP 2).2.1)
        (C119_chain (by simp) (C119_reduce_sum 2 train P)
          (C119_chain_one (C119_rows (C119_maps_rows (C116_exact_rows (C116_linear 3 4 rfl rfl train θ)) hP))) (fun _ => rfl)) (by simp)) (by simp)) (by simp)

/-! ### What does not hold -/

theorem window_pair (x y : ℝ) (train : Bool) (P : ParamVals) :
    ∃ Y cb, expandWindow 1 train P (.arr (Arr.toMat ⟨[1], [[x], [y]]⟩)) = .ok (.arr Y, cb) ∧ Y.cols = 3 ∧ rowsList Y = [[0, x, y], [x, y, 0]] := by
  have hr : rowsList (Arr.toMat (⟨[1], [[x], [y]]⟩ : Arr ℝ)) = [[x], [y]] := rowsList_toMat (by simp)
  obtain ⟨Y, e, c, hY, -⟩ := seq2col_docs (X := Arr.toMat ⟨[1], [[x], [y]]⟩) (m := 1) (cols_toMat _ _) (ds := [[[x], [y]]]) (by simp [hr]) 1 none
    (by simp [effLengths, rows_toMat])
  refine ⟨Y, ?cb, ?h, c, ?_⟩
  case h =>
    simp only [expandWindow, expandWindowFloats, windowFloats, Val.asArr, rows_toMat, bind, Except.bind, pure, Except.pure,
      show seq2col (Arr.toMat ⟨[1], [[x], [y]]⟩) 1 none = .ok Y from e]
    rfl
  rw [hY]
  simp [mkDoc, windowNumbers, docAt, List.range_succ]

theorem split_pair {F : Doc → Doc} (h1 : ∀ d, (F d).length = d.length) {x y : ℝ}
    (h : F [[x]] ++ F [[y]] = [[0, x, y], [x, y, 0]]) : F [[x]] = [[0, x, y]] := by
  have h2 : F [[x]] ++ F [[y]] = [[0, x, y]] ++ [[x, y, 0]] := h
  exact (List.append_inj h2 (h1 [[x]])).1

theorem not_both {F : Doc → Doc} (h : ∀ y, F [[1]] = [[0, 1, y]]) : False := by
  have := (h 2).symm.trans (h 3)
  norm_num at this

/-- `with_array` does not use its padding for a `Ragged`: with a layer that looks at the next token, the output for a document depends
on the document after it. -/
theorem C119_with_array_ragged_violated (pad : ℕ) (train : Bool) (P : ParamVals) :
    ¬ PerDocument (withArray2dL (expandWindow 1) pad) train P .ragged 1 .ragged 3 false := by
  rintro ⟨F, -, h1, hF⟩
  refine not_both (F := F) fun y => ?_
  have h1 := h1 (by simp)
  have hds : IsDocs .ragged 1 _ [[[1]], [[y]]] := docs_ofRagged (m := 1) (by decide) (ds := [[[1]], [[y]]]) ⟨[[1]], by simp, by simp⟩ (by simp)
  obtain ⟨Z, cb, e, hZ⟩ := hF _ _ hds ⟨[[1]], by simp, by simp⟩ (by simp)
  obtain ⟨Y, cb', e', hc, hY⟩ := window_pair 1 y train P
  obtain ⟨e2, -⟩ := asRagged_docs hds
  have e3 : withArray2dL (expandWindow 1) pad train P (Val.ofRagged (Ragged.make ⟨[1], [[[1]], [[y]]].flatten⟩ ([[[1]], [[y]]].map List.length))) =
      withArrayRaggedL (expandWindow 1) train P (Val.ofRagged (Ragged.make ⟨[1], [[[1]], [[y]]].flatten⟩ ([[[1]], [[y]]].map List.length))) := rfl
  rw [e3] at e
  simp only [withArrayRaggedL, e2, bind, Except.bind, pure, Except.pure, Ragged.dataXd, Val.asArr, toArr_rowsList] at e
  simp only [List.flatten_cons, List.flatten_nil, List.cons_append, List.nil_append, e', hc, hY, Except.ok.injEq, Prod.mk.injEq] at e
  obtain ⟨e, -⟩ := e
  have hout := docs_ofRagged (m := 3) (by decide) (ds := [[[0, 1, y]], [[1, y, 0]]]) ⟨[[0, 1, y]], by simp, by simp⟩ (by simp)
  obtain ⟨B, eB, -, hB⟩ := hout
  obtain ⟨C, rfl, -, hC⟩ := hZ
  have e4 : Val.ragged B [1, 1] = Val.ragged C [(F [[1]]).length, (F [[y]]).length] := eB.symm.trans e
  obtain ⟨rfl, -⟩ := Val.ragged.inj e4
  refine split_pair h1 ?_
  rw [hB] at hC
  simpa using hC.symm

/-- The same for a list of arrays without padding: the padding must be at least as large as what the layer sees. -/
theorem C119_with_array_list_violated (train : Bool) (P : ParamVals) :
    ¬ PerDocument (withArray2dL (expandWindow 1) 0) train P .list 1 .list 3 false := by
  rintro ⟨F, -, h1, hF⟩
  refine not_both (F := F) fun y => ?_
  have h1 := h1 (by simp)
  have hds : IsDocs .list 1 _ [[[1]], [[y]]] := docs_ofArrays (m := 1) (ds := [[[1]], [[y]]]) (by simp)
  obtain ⟨Z, cb, e, hZ⟩ := hF _ _ hds ⟨[[1]], by simp, by simp⟩ (by simp)
  obtain ⟨Y, cb', e', hc, hY⟩ := window_pair 1 y train P
  obtain ⟨e2, -⟩ := arrays_docs hds
  have e3 : withArray2dL (expandWindow 1) 0 train P (Val.ofArrays (asList 1 [[[1]], [[y]]])) =
      withArrayListL (expandWindow 1) 0 train P (Val.ofArrays (asList 1 [[[1]], [[y]]])) := rfl
  have e4 := flatten_asList0 (α := ℝ) 1 (by decide) [[[1]], [[y]]] (by simp)
  have e5 : opsUnflatten (⟨[3], [[0, 1, y], [1, y, 0]]⟩ : Arr ℝ) [1, 1] 0 = .ok (asList 3 [[[0, 1, y]], [[1, y, 0]]]) :=
    unflatten_asList 3 [[[0, 1, y]], [[1, y, 0]]]
  rw [e3] at e
  simp only [withArrayListL, e2, bind, Except.bind, pure, Except.pure, e4, Val.asArr, toArr_rowsList, map_len_asList] at e
  simp only [List.flatten_cons, List.flatten_nil, List.cons_append, List.nil_append, e', hc, hY, lens, List.map_cons, List.map_nil, List.length_cons,
    List.length_nil, e5, Except.ok.injEq, Prod.mk.injEq] at e
  obtain ⟨e, -⟩ := e
  obtain ⟨As, eA, -, hA⟩ := docs_ofArrays (m := 3) (ds := [[[0, 1, y]], [[1, y, 0]]]) (by simp)
  obtain ⟨Bs, rfl, -, hB⟩ := hZ
  have e6 : (Val.list (As.map .arr)) = Val.list (Bs.map .arr) := eA.symm.trans e
  have e7 : As = Bs := List.map_injective_iff.2 (fun _ _ h => Val.arr.inj h) (Val.list.inj e6)
  rw [← e7, hA] at hB
  refine split_pair h1 ?_
  simp only [List.map_cons, List.map_nil, List.cons.injEq, and_true] at hB
  rw [← hB.1, ← hB.2]
  rfl

end Thinc
