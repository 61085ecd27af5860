import Verif.Spec.Getitem
import Verif.Lemmas.Ragged
import Mathlib.Data.List.ProdSigma
import Mathlib.Data.List.GetD
import Mathlib.Tactic.Linarith
import Mathlib.Tactic.Ring
/-! Lemmas about indexing. -/
namespace Thinc.Getitem
open Thinc.Spec

theorem npIndex_iff (n : ℕ) (i : ℤ) (p : ℕ) : npIndex n i = .ok p ↔ IsPos n i p := by
  unfold npIndex IsPos
  split_ifs with h1 h2
  · simp only [Except.ok.injEq]; omega
  · simp only [Except.ok.injEq]; omega
  · simp only [reduceCtorEq, false_iff]; omega

theorem mapRaise_iff {β γ ε : Type} (f : β → Except ε γ) (xs : List β) (ys : List γ) :
    mapRaise f xs = .ok ys ↔ List.Forall₂ (fun x y => f x = .ok y) xs ys := by
  induction xs generalizing ys with
  | nil => simp only [mapRaise, Except.ok.injEq, List.forall₂_nil_left_iff]; exact eq_comm
  | cons x xs ih =>
    rw [mapRaise, List.forall₂_cons_left_iff]
    cases hx : f x with
    | error e => simp
    | ok y =>
      simp only [Except.ok.injEq]
      cases hr : mapRaise f xs with
      | error e =>
        simp only [reduceCtorEq, false_iff, not_exists, not_and]
        rintro b c _ h3
        rw [← ih, hr] at h3
        cases h3
      | ok zs =>
        simp only [Except.ok.injEq]
        constructor
        · rintro rfl
          exact ⟨y, zs, rfl, (ih zs).1 hr, rfl⟩
        · rintro ⟨b, c, rfl, h3, rfl⟩
          rw [← ih, hr] at h3
          cases h3
          rfl

/-- A list in the order of `f` with the values of `f` that satisfy `R` as its members. -/
theorem progression (lt : ℤ → ℤ → Prop) (hirr : ∀ x, ¬ lt x x) (htr : ∀ x y z, lt x y → lt y z → lt x z) (R : ℤ → Prop)
    (L : List ℕ) : ∀ (f : ℕ → ℤ), (∀ k, lt (f k) (f (k + 1))) → (∀ k, R (f (k + 1)) → R (f k)) →
    (∀ k, R (f k) → 0 ≤ f k) → L.Pairwise (fun (p q : ℕ) => lt p q) →
    (∀ p : ℕ, p ∈ L ↔ ∃ k, (p : ℤ) = f k ∧ R p) → ∀ k p : ℕ, L[k]? = some p ↔ (p : ℤ) = f k ∧ R p := by
  induction L with
  | nil =>
    intro f _ _ _ _ hm k p
    simp only [List.getElem?_nil, reduceCtorEq, false_iff]
    intro h
    exact List.not_mem_nil ((hm p).2 ⟨k, h⟩)
  | cons x xs ih =>
    intro f hf hR h0 hp hm k p
    have hmono : ∀ a d, lt (f a) (f (a + d + 1)) := by
      intro a d
      induction d with
      | zero => exact hf a
      | succ d ihd => exact htr _ _ _ ihd (hf _)
    have hdown : ∀ k, R (f k) → R (f 0) := by
      intro k
      induction k with
      | zero => exact id
      | succ k ihk => exact fun h => ihk (hR k h)
    rw [List.pairwise_cons] at hp
    obtain ⟨j, hj, hRx⟩ := (hm x).1 (by simp)
    have hR0 : R (f 0) := hdown j (hj ▸ hRx)
    have hx0 : (x : ℤ) = f 0 := by
      rcases Nat.eq_zero_or_pos j with rfl | hjp
      · exact hj
      · exfalso
        have h1 : ((f 0).toNat : ℤ) = f 0 := Int.toNat_of_nonneg (h0 0 hR0)
        have h2 : (f 0).toNat ∈ x :: xs := (hm _).2 ⟨0, h1, by rw [h1]; exact hR0⟩
        have h3 : lt (f 0) x := by
          rw [hj]
          have := hmono 0 (j - 1)
          rwa [show 0 + (j - 1) + 1 = j by omega] at this
        rcases List.mem_cons.1 h2 with h4 | h4
        · rw [h4] at h1
          rw [← h1] at h3
          exact hirr _ h3
        · have := hp.1 _ h4
          rw [h1] at this
          exact hirr _ (htr _ _ _ h3 this)
    cases k with
    | zero =>
      simp only [List.getElem?_cons_zero, Option.some.injEq]
      constructor
      · rintro rfl; exact ⟨hx0, hRx⟩
      · rintro ⟨h1, _⟩
        have : (x : ℤ) = p := by rw [hx0, h1]
        exact_mod_cast this
    | succ k =>
      rw [List.getElem?_cons_succ]
      refine ih (fun k => f (k + 1)) (fun k => hf _) (fun k => hR _) (fun k => h0 _) hp.2 ?_ k p
      intro q
      constructor
      · intro hq
        obtain ⟨i, hi, hRi⟩ := (hm q).1 (List.mem_cons_of_mem _ hq)
        cases i with
        | zero =>
          exfalso
          have := hp.1 q hq
          rw [hi, hx0] at this
          exact hirr _ this
        | succ i => exact ⟨i, hi, hRi⟩
      · rintro ⟨i, hi, hRi⟩
        rcases List.mem_cons.1 ((hm q).2 ⟨i + 1, hi, hRi⟩) with h4 | h4
        · exfalso
          have := hmono 0 i
          rw [Nat.zero_add, ← hi, ← hx0, h4] at this
          exact hirr _ this
        · exact h4

theorem clampPos_bound (n d : ℕ) (hd : d ≤ n) (t : ℤ) (ht : 0 < t) (i : Option ℤ) :
    ((clampPos n d i : ℕ) : ℤ) = sliceBound n t d i := by
  cases i with
  | none => rfl
  | some i =>
    simp only [clampPos, sliceBound, ht, if_true]
    split_ifs <;> omega

theorem clampNeg_bound (n : ℕ) (d : ℤ) (t : ℤ) (ht : ¬ 0 < t) (i : Option ℤ) :
    clampNeg n d i = sliceBound n t d i := by
  cases i with
  | none => rfl
  | some i =>
    simp only [clampNeg, sliceBound, ht, if_false]
    split_ifs <;> omega

theorem sliceBound_neg_range (n : ℕ) (t d : ℤ) (ht : ¬ 0 < t) (hd : -1 ≤ d) (hd2 : d ≤ n - 1) (i : Option ℤ) :
    -1 ≤ sliceBound n t d i ∧ sliceBound n t d i ≤ n - 1 := by
  cases i with
  | none => exact ⟨hd, hd2⟩
  | some i => simp only [sliceBound, ht, if_false]; split_ifs <;> omega

theorem positions_isSlice (s : PySlice) (n : ℕ) (ps : List ℕ) (h : s.positions n = .ok ps) : IsSlice n s ps := by
  unfold PySlice.positions at h
  simp only at h
  split_ifs at h with h0 h1
  · have ht : 0 < sliceStep s := h1
    refine ⟨h0, ?_⟩
    simp only [Except.ok.injEq] at h
    have ea : ((clampPos n 0 s.start : ℕ) : ℤ) = sliceStart n s := by
      rw [clampPos_bound n 0 (Nat.zero_le _) _ ht]; simp [sliceStart, ht]
    have eb : ((clampPos n n s.stop : ℕ) : ℤ) = sliceStop n s := by
      rw [clampPos_bound n n le_rfl _ ht]; simp [sliceStop, ht]
    have hbn := clampPos_le n n le_rfl s.stop
    simp only [ht, if_true]
    refine progression (· < ·) (fun x => lt_irrefl x) (fun _ _ _ => lt_trans) (· < sliceStop n s) ps
      (fun k => sliceStart n s + k * sliceStep s) ?_ ?_ ?_ ?_ ?_
    · intro k; push_cast; linarith
    · intro k hk; push_cast at hk; linarith
    · intro k _; rw [← ea]; positivity
    · rw [← h]
      refine List.Pairwise.filter _ ?_
      exact List.pairwise_lt_range.imp fun h => by exact_mod_cast h
    · intro p
      rw [← h, List.mem_filter, List.mem_range]
      simp only [Bool.decide_and, Bool.and_eq_true, decide_eq_true_eq]
      rw [← ea, ← eb]
      set a := clampPos n 0 s.start
      set b := clampPos n n s.stop
      obtain ⟨t, htn⟩ : ∃ t : ℕ, sliceStep s = t := ⟨_, (Int.toNat_of_nonneg ht.le).symm⟩
      have e : s.step.getD 1 = (t : ℤ) := htn
      rw [e, htn, Int.toNat_natCast]
      constructor
      · rintro ⟨_, h2, h3, h4⟩
        refine ⟨(p - a) / t, ?_, by exact_mod_cast h3⟩
        have := Nat.div_add_mod (p - a) t
        rw [h4, Nat.add_zero] at this
        have h5 : p = a + (p - a) / t * t := by rw [Nat.mul_comm]; omega
        exact_mod_cast h5
      · rintro ⟨k, h2, h3⟩
        have h2' : p = a + k * t := by exact_mod_cast h2
        have h3' : p < b := by exact_mod_cast h3
        refine ⟨by omega, by omega, h3', ?_⟩
        rw [h2', Nat.add_sub_cancel_left, Nat.mul_mod_left]
  · have ht : ¬ 0 < sliceStep s := h1
    have ht0 : sliceStep s < 0 := by
      have : sliceStep s ≠ 0 := h0
      omega
    refine ⟨h0, ?_⟩
    simp only [Except.ok.injEq] at h
    rw [clampNeg_bound n _ _ ht, clampNeg_bound n _ _ ht] at h
    have ea : sliceBound n (sliceStep s) (n - 1) s.start = sliceStart n s := by simp [sliceStart, ht]
    have eb : sliceBound n (sliceStep s) (-1) s.stop = sliceStop n s := by simp [sliceStop, ht]
    rw [ea, eb] at h
    have ha : sliceStart n s ≤ n - 1 := by
      rw [← ea]; exact (sliceBound_neg_range n _ _ ht (by omega) (by omega) _).2
    have hb : -1 ≤ sliceStop n s := by
      rw [← eb]; exact (sliceBound_neg_range n _ _ ht (by omega) (by omega) _).1
    simp only [ht, if_false]
    refine progression (· > ·) (fun x => lt_irrefl x) (fun _ _ _ => fun h1 h2 => lt_trans h2 h1) (sliceStop n s < ·) ps
      (fun k => sliceStart n s + k * sliceStep s) ?_ ?_ ?_ ?_ ?_
    · intro k; push_cast; show _ < _; linarith
    · intro k hk; push_cast at hk; linarith
    · intro k hk; linarith
    · rw [← h, List.pairwise_reverse]
      refine List.Pairwise.filter _ ?_
      exact List.pairwise_lt_range.imp fun h => by exact_mod_cast h
    · intro p
      rw [← h, List.mem_reverse, List.mem_filter, List.mem_range]
      simp only [Bool.decide_and, Bool.and_eq_true, decide_eq_true_eq]
      have e : s.step.getD 1 = sliceStep s := rfl
      rw [e]
      obtain ⟨t, htn⟩ : ∃ t : ℤ, -sliceStep s = t := ⟨_, rfl⟩
      have htp : 0 < t := by omega
      have e2 : sliceStep s = -t := by omega
      rw [e2, neg_neg]
      constructor
      · rintro ⟨_, h2, h3, h4⟩
        refine ⟨((sliceStart n s - p) / t).toNat, ?_, h3⟩
        rw [Int.toNat_of_nonneg (Int.ediv_nonneg (by omega) htp.le)]
        have := Int.mul_ediv_add_emod (sliceStart n s - p) t
        rw [h4, add_zero] at this
        linarith
      · rintro ⟨k, h2, h3⟩
        have hk : (0 : ℤ) ≤ k * t := by positivity
        refine ⟨by have : (p : ℤ) ≤ n - 1 := by linarith
                   omega, by linarith, h3, ?_⟩
        rw [h2, show sliceStart n s - (sliceStart n s + ↑k * -t) = k * t by ring, Int.mul_emod_left]

theorem isSlice_unique {s : PySlice} {n : ℕ} {ps qs : List ℕ} (h1 : IsSlice n s ps) (h2 : IsSlice n s qs) : ps = qs := by
  refine List.ext_getElem? fun k => Option.ext fun p => ?_
  rw [h1.2, h2.2]

theorem positions_iff (s : PySlice) (n : ℕ) (ps : List ℕ) : s.positions n = .ok ps ↔ IsSlice n s ps := by
  refine ⟨positions_isSlice s n ps, fun h => ?_⟩
  cases hp : s.positions n with
  | ok qs => rw [isSlice_unique h (positions_isSlice s n qs hp)]
  | error e =>
    exfalso
    unfold PySlice.positions at hp
    simp only at hp
    split_ifs at hp with h0
    exact h.1 h0

theorem axisSel_iff (n : ℕ) (a : AxisIndex) (d ps : List ℕ) :
    AxisSel n a d ps ↔ a.positions n = .ok ps ∧ d = a.dims ps := by
  constructor
  · rintro (⟨h⟩ | ⟨h⟩ | ⟨h⟩)
    · rename_i i p
      simp only [AxisIndex.positions, (npIndex_iff n i p).2 h, bind, Except.bind, pure, Except.pure]
      exact ⟨trivial, rfl⟩
    · exact ⟨(positions_iff _ _ _).2 h, rfl⟩
    · refine ⟨(mapRaise_iff _ _ _).2 (h.imp fun _ _ h => (npIndex_iff _ _ _).2 h), rfl⟩
  · rintro ⟨h, rfl⟩
    cases a with
    | int i =>
      simp only [AxisIndex.positions, bind, Except.bind, pure, Except.pure] at h
      cases hi : npIndex n i with
      | error e => rw [hi] at h; cases h
      | ok p =>
        rw [hi] at h
        simp only [Except.ok.injEq] at h
        subst h
        exact .int ((npIndex_iff _ _ _).1 hi)
    | slice s => exact .slice ((positions_iff _ _ _).1 h)
    | list is => exact .list (((mapRaise_iff _ _ _).1 h).imp fun _ _ h => (npIndex_iff _ _ _).1 h)

theorem axisSel_lt {n : ℕ} {a : AxisIndex} {d ps : List ℕ} (h : AxisSel n a d ps) : ∀ p ∈ ps, p < n := by
  cases h with
  | int h => intro p hp; rw [List.mem_singleton.1 hp]; exact h.1
  | slice h =>
    intro p hp
    obtain ⟨k, hk⟩ := List.mem_iff_getElem?.1 hp
    have h1 := (h.2 k p).1 hk
    have h2 := positions_iff _ _ _ |>.2 h
    rename_i s
    unfold PySlice.positions at h2
    simp only at h2
    split_ifs at h2 <;> simp only [Except.ok.injEq] at h2 <;> rw [← h2] at hp
    · exact List.mem_range.1 (List.mem_filter.1 hp).1
    · exact List.mem_range.1 (List.mem_filter.1 (List.mem_reverse.1 hp)).1
  | list h =>
    intro p hp
    induction h with
    | nil => cases hp
    | cons h1 _ ih =>
      rcases List.mem_cons.1 hp with rfl | h2
      · exact h1.1
      · exact ih h2

theorem forall2_lt {n : ℕ} {is : List ℤ} {ps : List ℕ} (h : List.Forall₂ (IsPos n) is ps) : ∀ p ∈ ps, p < n :=
  axisSel_lt (.list h)

theorem axisSel_dims {n : ℕ} {a : AxisIndex} {d ps : List ℕ} (h : AxisSel n a d ps) : d.prod = ps.length := by
  cases h <;> simp

theorem outerPositions_eq (c : ℕ) (ps qs : List ℕ) :
    outerPositions c ps qs = (ps ×ˢ qs).map fun e => e.1 * c + e.2 := by
  induction ps with
  | nil => rfl
  | cons p ps ih =>
    rw [outerPositions, List.flatMap_cons, ← outerPositions, ih, List.product_cons, List.map_append, List.map_map]
    rfl

theorem range_product (r c : ℕ) : List.range (r * c) = (List.range r ×ˢ List.range c).map fun e => e.1 * c + e.2 := by
  rw [← outerPositions_eq]
  induction r with
  | zero => simp [outerPositions]
  | succ r ih =>
    rw [Nat.succ_mul, List.range_add, ih, outerPositions, outerPositions, List.range_succ, List.flatMap_append]
    simp

theorem resolveRows_iff (r c : ℕ) (a : AxisIndex) (shape flat : List ℕ) :
    resolveRows r c a = .ok (shape, flat) ↔ ∃ d ps, AxisSel r a d ps ∧ shape = d ++ [c] ∧
      flat = (ps ×ˢ List.range c).map fun e => e.1 * c + e.2 := by
  unfold resolveRows
  simp only [bind, Except.bind, pure, Except.pure]
  cases h : a.positions r with
  | error e =>
    simp only [reduceCtorEq, false_iff]
    rintro ⟨d, ps, h1, _⟩
    rw [axisSel_iff, h] at h1
    cases h1.1
  | ok qs =>
    simp only [Except.ok.injEq, Prod.mk.injEq, outerPositions_eq]
    constructor
    · rintro ⟨rfl, rfl⟩
      exact ⟨a.dims qs, qs, (axisSel_iff _ _ _ _).2 ⟨h, rfl⟩, rfl, rfl⟩
    · rintro ⟨d, ps, h1, rfl, rfl⟩
      rw [axisSel_iff, h] at h1
      obtain ⟨h2, rfl⟩ := h1
      cases h2
      exact ⟨rfl, rfl⟩

theorem zipWith_flat (c : ℕ) (ps qs : List ℕ) :
    List.zipWith (fun p q => p * c + q) ps qs = (ps.zip qs).map fun e => e.1 * c + e.2 := by
  rw [List.zip, List.map_zipWith]

theorem isPos_list {n : ℕ} {is : List ℤ} {ps : List ℕ} :
    mapRaise (npIndex n) is = .ok ps ↔ List.Forall₂ (IsPos n) is ps := by
  rw [mapRaise_iff]
  exact ⟨fun h => h.imp fun _ _ h => (npIndex_iff _ _ _).1 h, fun h => h.imp fun _ _ h => (npIndex_iff _ _ _).2 h⟩

theorem resolveBoth_ne (r c : ℕ) {a b : AxisIndex} (h : ¬ ∃ is js, a = .list is ∧ b = .list js) :
    resolveBoth r c a b = (do
      let ps ← a.positions r
      let qs ← b.positions c
      return (a.dims ps ++ b.dims qs, outerPositions c ps qs)) := by
  cases a <;> cases b <;> first | rfl | exact absurd ⟨_, _, rfl, rfl⟩ h

theorem resolve_of_selects {r c : ℕ} {index : NpIndex} {shape : List ℕ} {sel : List (ℕ × ℕ)}
    (h : Selects r c index shape sel) : index.resolve r c = .ok (shape, sel.map fun e => e.1 * c + e.2) := by
  cases h with
  | rows h => exact (resolveRows_iff _ _ _ _ _).2 ⟨_, _, h, rfl, rfl⟩
  | whole => rw [NpIndex.resolve, range_product]
  | single h => exact (resolveRows_iff _ _ _ _ _).2 ⟨_, _, h, rfl, rfl⟩
  | both h1 h2 h3 =>
    rw [axisSel_iff] at h1 h2
    rw [NpIndex.resolve, resolveBoth_ne r c h3]
    simp only [h1.1, h2.1, h1.2, h2.2, bind, Except.bind, pure, Except.pure, outerPositions_eq]
  | pairs h1 h2 h3 =>
    rename_i is js ps qs
    have e : pairPositions c ps qs = .ok _ := if_pos (by rw [← h1.length_eq, ← h2.length_eq, h3])
    simp only [NpIndex.resolve, resolveBoth, isPos_list.2 h1, isPos_list.2 h2, bind, Except.bind, pure, Except.pure, e,
      zipWith_flat, List.length_map, List.length_zip, ← h1.length_eq, ← h2.length_eq, h3, Nat.min_self]
  | rowWith h1 h2 =>
    rename_i i js p qs
    have e1 : mapRaise (npIndex r) [i] = .ok [p] := isPos_list.2 (.cons h1 .nil)
    have e : pairPositions c [p] qs = .ok (qs.map fun q => p * c + q) := by
      unfold pairPositions
      split_ifs with h
      · obtain ⟨q, rfl⟩ := List.length_eq_one_iff.1 h.symm
        rfl
      · rfl
      · exact absurd rfl ‹¬ [p].length = 1›
      · exact absurd rfl ‹¬ [p].length = 1›
    simp only [NpIndex.resolve, resolveBoth, e1, isPos_list.2 h2, bind, Except.bind, pure, Except.pure, e,
      List.length_map, ← h2.length_eq, List.map_map]
    rfl
  | withColumn h1 h2 =>
    rename_i is j ps q
    have e1 : mapRaise (npIndex c) [j] = .ok [q] := isPos_list.2 (.cons h2 .nil)
    have e : pairPositions c ps [q] = .ok (ps.map fun p => p * c + q) := by
      unfold pairPositions
      split_ifs with h h'
      · obtain ⟨p, rfl⟩ := List.length_eq_one_iff.1 h
        rfl
      · exact absurd h' h
      · rfl
      · exact absurd rfl ‹¬ [q].length = 1›
    simp only [NpIndex.resolve, resolveBoth, e1, isPos_list.2 h1, bind, Except.bind, pure, Except.pure, e,
      List.length_map, ← h1.length_eq, List.map_map]
    rfl

theorem selects_of_resolve {r c : ℕ} {index : NpIndex} {shape flat : List ℕ}
    (h : index.resolve r c = .ok (shape, flat)) : ∃ sel, Selects r c index shape sel := by
  unfold NpIndex.resolve at h
  split at h
  · obtain ⟨d, ps, h1, rfl, _⟩ := (resolveRows_iff _ _ _ _ _).1 h
    exact ⟨_, .rows h1⟩
  · simp only [Except.ok.injEq, Prod.mk.injEq] at h
    rw [← h.1]
    exact ⟨_, .whole⟩
  · obtain ⟨d, ps, h1, rfl, _⟩ := (resolveRows_iff _ _ _ _ _).1 h
    exact ⟨_, .single h1⟩
  · rename_i a b
    by_cases hl : ∃ is js, a = .list is ∧ b = .list js
    · obtain ⟨is, js, rfl, rfl⟩ := hl
      simp only [resolveBoth, bind, Except.bind, pure, Except.pure] at h
      cases h1 : mapRaise (npIndex r) is with
      | error e => rw [h1] at h; cases h
      | ok ps =>
        cases h2 : mapRaise (npIndex c) js with
        | error e => rw [h1, h2] at h; cases h
        | ok qs =>
          rw [h1, h2] at h
          have g1 := isPos_list.1 h1
          have g2 := isPos_list.1 h2
          simp only [pairPositions] at h
          split_ifs at h with a1 a2 a3
          · simp only [Except.ok.injEq, Prod.mk.injEq] at h
            have hl : is.length = js.length := by rw [g1.length_eq, g2.length_eq, a1]
            rw [← h.1, List.length_zipWith, ← g1.length_eq, ← g2.length_eq, hl, Nat.min_self, ← hl]
            exact ⟨_, .pairs g1 g2 hl⟩
          · obtain ⟨i, rfl⟩ := List.length_eq_one_iff.1 (g1.length_eq.trans a2)
            obtain ⟨p, rfl⟩ := List.length_eq_one_iff.1 a2
            simp only [Except.ok.injEq, Prod.mk.injEq] at h
            rw [← h.1, List.length_map, ← g2.length_eq]
            rw [List.forall₂_cons] at g1
            exact ⟨_, .rowWith g1.1 g2⟩
          · obtain ⟨j, rfl⟩ := List.length_eq_one_iff.1 (g2.length_eq.trans a3)
            obtain ⟨q, rfl⟩ := List.length_eq_one_iff.1 a3
            simp only [Except.ok.injEq, Prod.mk.injEq] at h
            rw [← h.1, List.length_map, ← g1.length_eq]
            rw [List.forall₂_cons] at g2
            exact ⟨_, .withColumn g1 g2.1⟩
    · rw [resolveBoth_ne r c hl] at h
      simp only [bind, Except.bind, pure, Except.pure] at h
      cases h1 : a.positions r with
      | error e => rw [h1] at h; cases h
      | ok ps =>
        cases h2 : b.positions c with
        | error e => rw [h1, h2] at h; cases h
        | ok qs =>
          rw [h1, h2] at h
          simp only [Except.ok.injEq, Prod.mk.injEq] at h
          rw [← h.1]
          exact ⟨_, .both ((axisSel_iff _ _ _ _).2 ⟨h1, rfl⟩) ((axisSel_iff _ _ _ _).2 ⟨h2, rfl⟩) hl⟩
  · cases h

theorem selects_lt {r c : ℕ} {index : NpIndex} {shape : List ℕ} {sel : List (ℕ × ℕ)}
    (h : Selects r c index shape sel) : ∀ e ∈ sel, e.1 < r ∧ e.2 < c := by
  rintro ⟨i, j⟩ he
  cases h with
  | rows h => rw [List.mem_product] at he; exact ⟨axisSel_lt h _ he.1, List.mem_range.1 he.2⟩
  | whole => rw [List.mem_product] at he; exact ⟨List.mem_range.1 he.1, List.mem_range.1 he.2⟩
  | single h => rw [List.mem_product] at he; exact ⟨axisSel_lt h _ he.1, List.mem_range.1 he.2⟩
  | both h1 h2 h3 => rw [List.mem_product] at he; exact ⟨axisSel_lt h1 _ he.1, axisSel_lt h2 _ he.2⟩
  | pairs h1 h2 h3 =>
    have := List.of_mem_zip he
    exact ⟨forall2_lt h1 _ this.1, forall2_lt h2 _ this.2⟩
  | rowWith h1 h2 =>
    obtain ⟨q, hq, e⟩ := List.mem_map.1 he
    cases e
    exact ⟨h1.1, forall2_lt h2 _ hq⟩
  | withColumn h1 h2 =>
    obtain ⟨q, hq, e⟩ := List.mem_map.1 he
    cases e
    exact ⟨forall2_lt h1 _ hq, h2.1⟩

theorem selects_length {r c : ℕ} {index : NpIndex} {shape : List ℕ} {sel : List (ℕ × ℕ)}
    (h : Selects r c index shape sel) : sel.length = shape.prod := by
  cases h with
  | rows h => simp [List.length_product, axisSel_dims h]
  | whole => simp [List.length_product]
  | single h => simp [List.length_product, axisSel_dims h]
  | both h1 h2 h3 => simp [List.length_product, axisSel_dims h1, axisSel_dims h2]
  | pairs h1 h2 h3 => simp [List.length_zip, ← h1.length_eq, ← h2.length_eq, h3]
  | rowWith h1 h2 => simp [h2.length_eq]
  | withColumn h1 h2 => simp [h1.length_eq]

theorem foldl_set_length {α : Type} (es : List (ℕ × α)) (d : List α) :
    (es.foldl (fun d e => d.set e.1 e.2) d).length = d.length := by
  induction es generalizing d with
  | nil => rfl
  | cons e es ih => rw [List.foldl_cons, ih, List.length_set]

theorem foldl_set_other {α : Type} (es : List (ℕ × α)) (d : List α) (p : ℕ) (hp : p ∉ es.map Prod.fst) :
    (es.foldl (fun d e => d.set e.1 e.2) d)[p]? = d[p]? := by
  induction es generalizing d with
  | nil => rfl
  | cons e es ih =>
    simp only [List.map_cons, List.mem_cons, not_or] at hp
    rw [List.foldl_cons, ih _ hp.2, List.getElem?_set_ne (Ne.symm hp.1)]

theorem foldl_set_mem {α : Type} (es : List (ℕ × α)) (d : List α) (hnd : (es.map Prod.fst).Nodup)
    (e : ℕ × α) (he : e ∈ es) (hlt : e.1 < d.length) :
    (es.foldl (fun d e => d.set e.1 e.2) d)[e.1]? = some e.2 := by
  induction es generalizing d with
  | nil => cases he
  | cons e' es ih =>
    rw [List.map_cons, List.nodup_cons] at hnd
    rw [List.foldl_cons]
    rcases List.mem_cons.1 he with rfl | he
    · rw [foldl_set_other _ _ _ hnd.1, List.getElem?_set_self hlt]
    · exact ih _ hnd.2 he (by rwa [List.length_set])

end Thinc.Getitem
