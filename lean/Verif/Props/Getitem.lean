import Verif.Lemmas.Getitem
import Verif.Lemmas.VJP
/-!
# C85: array_getitem
-/
namespace Thinc.Getitem
open Thinc.Spec Tensor
variable {α : Type} [Zero α] {r c : ℕ} {index : NpIndex} {shape : List ℕ} {sel : List (ℕ × ℕ)}

/-- **C85**: for an array with at least one row the output is what the index selects, for every index (integers, slices,
lists, and tuples of them), with the shape that NumPy gives it. -/
theorem C85_selected_entries (hr : 0 < r) (h : Selects r c index shape sel) (X : NdArr α) (x : Fin r → Fin c → α)
    (hX : IsNd X x) :
    ∃ Y callback, getitemForward index r c X = .ok (Y, callback) ∧ Y.shape = shape ∧ Y.data.length = shape.prod ∧
      Y.data = sel.map (pick x) := by
  refine ⟨⟨shape, (sel.map fun e => e.1 * c + e.2).map fun p => X.data.getD p 0⟩, npSetitem r c index, ?_, rfl, ?_, ?_⟩
  · simp only [getitemForward, npGetitem, hr.ne', if_false, resolve_of_selects h, bind, Except.bind, pure, Except.pure]
  · simp only [List.length_map, selects_length h]
  · rw [List.map_map]
    refine List.map_congr_left fun e he => ?_
    have hlt := selects_lt h e he
    rw [pick, dif_pos hlt, ← hX.2.2]
    rfl

/-- **C85**: an index that selects nothing meaningful (an integer outside the array, a slice with step zero, too many
axes, lists of different lengths) raises, and no other index does. -/
theorem C85_raises_iff (hr : 0 < r) (X : NdArr α) :
    (∃ e, getitemForward index r c X = .error e) ↔ ¬ ∃ shape sel, Selects r c index shape sel := by
  constructor
  · rintro ⟨e, h⟩ ⟨shape, sel, hs⟩
    simp only [getitemForward, npGetitem, hr.ne', if_false, resolve_of_selects hs, bind, Except.bind, pure,
      Except.pure, reduceCtorEq] at h
  · intro h
    cases hres : index.resolve r c with
    | ok p =>
      exfalso
      obtain ⟨sel, hs⟩ := selects_of_resolve (shape := p.1) (flat := p.2) hres
      exact h ⟨_, _, hs⟩
    | error e =>
      refine ⟨e, ?_⟩
      simp only [getitemForward, npGetitem, hr.ne', if_false, hres, bind, Except.bind]

theorem vjp_pick (hlt : ∀ e ∈ sel, e.1 < r ∧ e.2 < c) (x : Fin r → Fin c → ℝ) :
    IsVJP (fun (x : Fin r → Fin c → ℝ) (k : Fin sel.length) => pick x sel[k]) x
      (fun dy i j => ∑ k : Fin sel.length, if sel[k] = ((i : ℕ), (j : ℕ)) then dy k else 0) := by
  have h1 : ∀ k : Fin sel.length, IsVJP (fun x : Fin r → Fin c → ℝ => pick x sel[k]) x
      (fun (dy : ℝ) (i : Fin r) (j : Fin c) => if sel[k] = ((i : ℕ), (j : ℕ)) then dy else 0) := by
    intro k
    have hk := hlt sel[k] (List.getElem_mem _)
    have h := IsVJP_comp (f := fun x : Fin r → Fin c → ℝ => x ⟨sel[k].1, hk.1⟩) (x := x)
      (IsVJP_apply (⟨sel[k].2, hk.2⟩ : Fin c) _) (IsVJP_apply (⟨sel[k].1, hk.1⟩ : Fin r) x)
    refine IsVJP_congr₂ h (fun y => ?_) (fun dy => ?_)
    · rw [pick, dif_pos hk]
    · funext i j
      by_cases hi : i = ⟨sel[k].1, hk.1⟩
      · by_cases hj : j = ⟨sel[k].2, hk.2⟩
        · rw [if_pos (by rw [hi, hj]), if_pos hi, if_pos hj]
        · rw [if_neg, if_pos hi, if_neg hj]
          intro h
          exact hj (Fin.ext (congrArg Prod.snd h).symm)
      · rw [if_neg, if_neg hi]
        · rfl
        · intro h
          exact hi (Fin.ext (congrArg Prod.fst h).symm)
  refine IsVJP_congr₂ (IsVJP_pi' h1) (fun y => rfl) (fun dy => ?_)
  funext i j
  simp only [Finset.sum_apply]

/-- **C85** (partial): for an array with at least one row and an index that selects no entry twice, the callback is the
exact gradient of the selection: the gradient of every selected entry goes to its place, and all other entries get
zero.  Missing: indices with repeated entries (`C85_repeated_index_wrong`) and arrays without rows
(`C85_empty_input_not_indexed`). -/
theorem C85_exact_gradient_partial (hr : 0 < r) (h : Selects r c index shape sel) (hnd : sel.Nodup) (X : NdArr ℝ)
    (x : Fin r → Fin c → ℝ) :
    ∃ Y callback back, getitemForward index r c X = .ok (Y, callback) ∧
      IsVJP (fun (x : Fin r → Fin c → ℝ) (k : Fin sel.length) => pick x sel[k]) x back ∧
      ∀ (dY : NdArr ℝ) (dy : Fin sel.length → ℝ), dY.shape = shape → dY.data = List.ofFn dy →
        ∃ dX, callback dY = .ok dX ∧ IsNd dX (back dy) := by
  have hlt := selects_lt h
  refine ⟨⟨shape, (sel.map fun e => e.1 * c + e.2).map fun p => X.data.getD p 0⟩, npSetitem r c index, _, ?_,
    vjp_pick hlt x, ?_⟩
  · simp only [getitemForward, npGetitem, hr.ne', if_false, resolve_of_selects h, bind, Except.bind, pure, Except.pure]
  · intro dY dy hs hd
    apply Exists.intro
    refine ⟨by simp only [npSetitem, resolve_of_selects h, bind, Except.bind, pure, Except.pure, hs, if_true]; rfl, rfl, ?_, ?_⟩
    · rw [foldl_set_length, List.length_replicate]
    · intro i j
      have hinj : ∀ e ∈ sel, ∀ (i : Fin r) (j : Fin c), e.1 * c + e.2 = i * c + j → e = ((i : ℕ), (j : ℕ)) := by
        intro e he i j heq
        have hc := (hlt e he).2
        have e2 : e.2 = j := by
          have := congrArg (· % c) heq
          simpa [Nat.add_mod, Nat.mod_eq_of_lt hc, Nat.mod_eq_of_lt j.2] using this
        rw [e2] at heq
        have e1 : e.1 = i := Nat.eq_of_mul_eq_mul_right (by omega) (Nat.add_right_cancel heq)
        exact Prod.ext e1 e2
      have hfst : (((sel.map fun e => e.1 * c + e.2).zip dY.data).map Prod.fst) = sel.map fun e => e.1 * c + e.2 := by
        rw [List.map_fst_zip]
        rw [hd, List.length_map, List.length_ofFn]
      have hnd' : (sel.map fun e => e.1 * c + e.2).Nodup := by
        refine (List.nodup_map_iff_inj_on hnd).2 fun e he e' he' heq => ?_
        have := hlt e' he'
        exact (hinj e he ⟨e'.1, this.1⟩ ⟨e'.2, this.2⟩ heq)
      rw [ndEntry, List.getD_eq_getElem?_getD]
      dsimp only
      by_cases hmem : ((i : ℕ), (j : ℕ)) ∈ sel
      · obtain ⟨k, hk, hke⟩ := List.mem_iff_getElem.1 hmem
        have hin : ((i : ℕ) * c + j, dy ⟨k, hk⟩) ∈ (sel.map fun e => e.1 * c + e.2).zip dY.data := by
          refine List.mem_iff_getElem.2 ⟨k, by simp [hd, hk], ?_⟩
          simp [hd, hke]
        have hl : (i : ℕ) * c + j < (List.replicate (r * c) (0 : ℝ)).length := by
          rw [List.length_replicate]
          calc (i : ℕ) * c + j < i * c + c := by omega
            _ = (i + 1) * c := by ring
            _ ≤ r * c := Nat.mul_le_mul_right c i.2
        rw [foldl_set_mem _ _ (by rw [hfst]; exact hnd') _ hin hl, Option.getD_some, Finset.sum_eq_single ⟨k, hk⟩]
        · exact (if_pos (c := sel[k] = ((i : ℕ), (j : ℕ))) hke).symm
        · intro b _ hb
          rw [if_neg]
          intro h2
          exact hb (Fin.ext ((List.Nodup.getElem_inj_iff hnd (hi := b.2) (hj := hk)).1 (h2.trans hke.symm)))
        · intro h2; exact absurd (Finset.mem_univ _) h2
      · rw [foldl_set_other, Finset.sum_eq_zero]
        · rw [List.getElem?_replicate]
          split_ifs <;> rfl
        · intro k _
          rw [if_neg]
          intro h2
          exact hmem (h2 ▸ List.getElem_mem _)
        · rw [hfst]
          intro hm
          obtain ⟨e, he, heq⟩ := List.mem_map.1 hm
          exact hmem (hinj e he i j heq ▸ he)

theorem slice_nodup {n : ℕ} {s : PySlice} {ps : List ℕ} (h : IsSlice n s ps) : ps.Nodup := by
  rw [List.nodup_iff_getElem?_ne_getElem?]
  intro i j hij hj heq
  have e1 := (h.2 j ps[j]).1 (List.getElem?_eq_getElem hj)
  have e2 := (h.2 i ps[j]).1 (heq.trans (List.getElem?_eq_getElem hj))
  have h3 : (i : ℤ) * sliceStep s = j * sliceStep s := by linarith [e1.1, e2.1]
  have := mul_right_cancel₀ h.1 h3
  omega

/-- An index without a list. -/
def basic : AxisIndex → Prop
  | .list _ => False
  | _ => True

/-- An index without lists. -/
def basicIndex : NpIndex → Prop
  | .axis a => basic a
  | .tuple as => ∀ a ∈ as, basic a

theorem axis_nodup {n : ℕ} {a : AxisIndex} {d ps : List ℕ} (hb : basic a) (h : AxisSel n a d ps) : ps.Nodup := by
  cases h with
  | int _ => exact List.nodup_singleton _
  | slice h => exact slice_nodup h
  | list _ => exact hb.elim

/-- **C85**: indices made of integers and slices never select an entry twice, so that `C85_exact_gradient_partial`
applies to all of them. -/
theorem C85_basic_indices (h : Selects r c index shape sel)
    (hb : basicIndex index) : sel.Nodup := by
  cases h with
  | rows h => exact (axis_nodup hb h).product List.nodup_range
  | whole => exact List.nodup_range.product List.nodup_range
  | single h => exact (axis_nodup (hb _ (by simp)) h).product List.nodup_range
  | both h1 h2 _ => exact (axis_nodup (hb _ (by simp)) h1).product (axis_nodup (hb _ (by simp)) h2)
  | pairs _ _ _ => exact (hb _ (List.mem_cons_self ..)).elim
  | rowWith _ _ => exact (hb _ (List.mem_cons_self ..)).elim
  | withColumn _ _ => exact (hb _ (List.mem_cons_self ..)).elim

/-- **C85** fails for an index with a repeated entry: `X[[0, 0]]` of an array with one entry.  The two outputs are the same
entry, so that its gradient is the sum of their gradients, but the callback returns the last one only. -/
theorem C85_repeated_index_wrong (X : NdArr ℝ) (x : Fin 1 → Fin 1 → ℝ) :
    Selects 1 1 (.axis (.list [0, 0])) [2, 1] [(0, 0), (0, 0)] ∧
    ∃ Y callback, getitemForward (.axis (.list [0, 0])) 1 1 X = .ok (Y, callback) ∧
      (∀ a b : ℝ, callback ⟨[2, 1], [a, b]⟩ = .ok ⟨[1, 1], [b]⟩) ∧
      ∀ back, IsVJP (fun (x : Fin 1 → Fin 1 → ℝ) (_ : Fin 2) => x 0 0) x back → ∀ a b, back ![a, b] 0 0 = a + b := by
  have hsel : Selects 1 1 (.axis (.list [0, 0])) [2, 1] [(0, 0), (0, 0)] := by
    have h0 : IsPos 1 0 0 := ⟨by omega, Or.inl rfl⟩
    exact Selects.rows (AxisSel.list (.cons h0 (.cons h0 .nil)))
  refine ⟨hsel, ⟨[2, 1], [X.data.getD 0 0, X.data.getD 0 0]⟩, npSetitem 1 1 (.axis (.list [0, 0])), ?_, ?_, ?_⟩
  · simp only [getitemForward, npGetitem, one_ne_zero, if_false, resolve_of_selects hsel, bind, Except.bind, pure, Except.pure]
    rfl
  · intro a b
    simp only [npSetitem, resolve_of_selects hsel, bind, Except.bind, pure, Except.pure, if_true]
    rfl
  · intro back hback a b
    have h1 := vjp_pick (r := 1) (c := 1) (sel := [(0, 0), (0, 0)]) (by simp) x
    have h2 := IsVJP_unique hback (IsVJP_congr h1 fun y => by funext k; fin_cases k <;> rfl)
    rw [h2]
    simp [Fin.sum_univ_two]

/-- **C85** fails for an array without rows: it is returned as it is, whatever the index.  With the index
`(slice(None), 0)` the output keeps both axes, and an integer index is not checked. -/
theorem C85_empty_input_not_indexed (index : NpIndex) (c : ℕ) (X : NdArr α) :
    (∃ callback, getitemForward index 0 c X = .ok (X, callback)) ∧
    Selects 0 3 (.tuple [.slice ⟨none, none, none⟩, .int 0]) [0] [] ∧
    ¬ ∃ shape sel, Selects 0 3 (.axis (.int 5)) shape sel := by
  refine ⟨⟨_, by simp only [getitemForward, if_true, pure, Except.pure]; rfl⟩, ?_, ?_⟩
  · have h1 : AxisSel 0 (.slice ⟨none, none, none⟩) [0] [] := (axisSel_iff _ _ _ _).2 ⟨rfl, rfl⟩
    have h2 : AxisSel 3 (.int 0) [] [0] := .int ⟨by omega, Or.inl rfl⟩
    exact Selects.both h1 h2 (by rintro ⟨_, _, h, _⟩; cases h)
  · rintro ⟨shape, sel, h⟩
    cases h with
    | rows h => cases h with
      | int h => exact absurd h.1 (by omega)

/-- `X[::-2, -1]` of an array of four rows and three columns selects rows 3 and 1 of column 2. -/
example : Selects 4 3 (.tuple [.slice ⟨none, none, some (-2)⟩, .int (-1)]) [2] [(3, 2), (1, 2)] := by
  have h1 : AxisSel 4 (.slice ⟨none, none, some (-2)⟩) [2] [3, 1] := (axisSel_iff _ _ _ _).2 ⟨by decide, rfl⟩
  have h2 : AxisSel 3 (.int (-1)) [] [2] := .int ⟨by omega, Or.inr (by norm_num)⟩
  exact Selects.both h1 h2 (by rintro ⟨_, _, h, _⟩; cases h)

end Thinc.Getitem
