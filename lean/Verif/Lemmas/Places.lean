import Verif.Lemmas.Rows
/-! # Rows at places -/
namespace Thinc
open Spec Spec.Tensor

section
variable {n N m : ℕ} {α : Type} [AddCommMonoid α]

theorem spread_at {place : Fin n → Fin N} (hp : Function.Injective place) (x : Fin n → Fin m → α) (r : Fin n) :
    spread place x (place r) = x r := by
  funext j
  unfold spread
  rw [Finset.sum_eq_single r]
  · simp
  · intro s _ hs
    rw [if_neg fun e => hs (hp e)]
  · simp

theorem spread_off {place : Fin n → Fin N} (x : Fin n → Fin m → α) {i : Fin N} (h : ∀ r, place r ≠ i) :
    spread place x i = 0 := by
  funext j
  unfold spread
  exact Finset.sum_eq_zero fun r _ => if_neg (h r)

theorem collect_spread {place : Fin n → Fin N} (hp : Function.Injective place) (x : Fin n → Fin m → α) :
    collect place (spread place x) = x := funext fun r => spread_at hp x r

theorem dot_spread (place : Fin n → Fin N) (x : Fin n → Fin m → ℝ) (y : Fin N → Fin m → ℝ) :
    dot (spread place x) y = dot x (collect place y) := by
  simp only [Spec.Tensor.dot, spread, collect]
  simp only [Finset.sum_mul]
  have : ∀ i : Fin N, (∑ j : Fin m, ∑ r : Fin n, (if place r = i then x r j else 0) * y i j) =
      ∑ r : Fin n, ∑ j : Fin m, (if place r = i then x r j else 0) * y i j := fun i => Finset.sum_comm
  simp only [this]
  rw [Finset.sum_comm]
  refine Finset.sum_congr rfl fun r _ => ?_
  rw [Finset.sum_comm]
  refine Finset.sum_congr rfl fun j _ => ?_
  simp

theorem IsVJP_spread (place : Fin n → Fin N) (x : Fin n → Fin m → ℝ) : IsVJP (spread place) x (collect place) := by
  refine IsVJP_linear' (fun a b => ?_) (fun c a => ?_) fun dy v => ?_
  · funext i j
    simp only [spread, Pi.add_apply]
    rw [← Finset.sum_add_distrib]
    exact Finset.sum_congr rfl fun r _ => by split <;> simp
  · funext i j
    simp only [spread, Pi.smul_apply, smul_eq_mul]
    rw [Finset.mul_sum]
    exact Finset.sum_congr rfl fun r _ => by split <;> simp
  · rw [dot_comm, ← dot_spread, dot_comm]

theorem IsVJP_collect (place : Fin n → Fin N) (y : Fin N → Fin m → ℝ) : IsVJP (collect place) y (spread place) := by
  refine IsVJP_linear' (fun a b => rfl) (fun c a => rfl) fun dy v => ?_
  rw [dot_spread]

end

/-! ### Sequences with blank rows between them -/

section
variable {β : Type}

/-- The sequences with a blank before each one that has rows. -/
def blanked (pad : ℕ) (blank : β) (seqs : List (List β)) : List β :=
  (seqs.map fun s => if s.isEmpty then [] else List.replicate pad blank ++ s).flatten

theorem laidOut_eq (pad : ℕ) (blank : β) (seqs : List (List β)) :
    laidOut pad blank seqs = blanked pad blank seqs ++ (if seqs.all List.isEmpty then [] else List.replicate pad blank) := by
  unfold laidOut blanked
  split
  · rename_i h
    simp only [List.all_eq_true, List.isEmpty_iff] at h
    simp only [List.append_nil]
    symm
    simp only [List.flatten_eq_nil_iff, List.mem_map]
    rintro l ⟨s, hs, rfl⟩
    simp [h s hs]
  · congr 1
    clear * -
    induction seqs with
    | nil => rfl
    | cons s seqs ih =>
      cases s with
      | nil => simpa using ih
      | cons a s => simpa using ih

theorem blanked_cons_nil (pad : ℕ) (blank : β) (seqs : List (List β)) :
    blanked pad blank ([] :: seqs) = blanked pad blank seqs := by simp [blanked]

theorem blanked_cons (pad : ℕ) (blank : β) {s : List β} (hs : s ≠ []) (seqs : List (List β)) :
    blanked pad blank (s :: seqs) = List.replicate pad blank ++ (s ++ blanked pad blank seqs) := by
  cases s with
  | nil => exact absurd rfl hs
  | cons a s => simp [blanked]

theorem length_blanked (pad : ℕ) (blank : β) (seqs : List (List β)) :
    (blanked pad blank seqs).length = (seqs.map List.length).sum + pad * (seqs.map List.length).countP (0 < ·) := by
  induction seqs with
  | nil => rfl
  | cons s seqs ih =>
    by_cases hs : s = []
    · subst hs
      rw [blanked_cons_nil, ih]
      simp
    · rw [blanked_cons pad blank hs]
      have : 0 < s.length := List.length_pos_iff.2 hs
      simp only [List.length_append, List.length_replicate, ih, List.map_cons, List.sum_cons, List.countP_cons, this,
        decide_true, if_true]
      ring

theorem length_laidOut (pad : ℕ) (blank : β) (seqs : List (List β)) :
    (laidOut pad blank seqs).length = blankedRows pad (seqs.map List.length) := by
  have hz : (seqs.map List.length).sum = 0 ↔ seqs.all List.isEmpty = true := by
    simp [List.sum_eq_zero_iff]
  rw [laidOut_eq, List.length_append, length_blanked]
  unfold blankedRows
  by_cases h : seqs.all List.isEmpty = true
  · rw [if_pos h, if_pos (hz.2 h), hz.2 h]
    have : (seqs.map List.length).countP (0 < ·) = 0 := by
      rw [List.countP_eq_zero]
      intro l hl
      have := List.sum_eq_zero_iff.1 (hz.2 h) l hl
      simp [this]
    rw [this]
    rfl
  · rw [if_neg h, if_neg fun e => h (hz.1 e), List.length_replicate]
    ring

theorem blanked_at (pad : ℕ) (blank : β) : ∀ (seqs : List (List β)) (r : ℕ), r < (seqs.map List.length).sum →
    (blanked pad blank seqs)[blankedPlace pad (seqs.map List.length) r]? = seqs.flatten[r]? ∧
      blankedPlace pad (seqs.map List.length) r < (blanked pad blank seqs).length
  | [], r, h => by simp at h
  | [] :: seqs, r, h => by
    rw [blanked_cons_nil]
    simp only [List.map_cons, List.length_nil, blankedPlace, if_true, List.flatten_cons, List.nil_append]
    exact blanked_at pad blank seqs r (by simpa using h)
  | (a :: s) :: seqs, r, h => by
    rw [blanked_cons pad blank (by simp)]
    simp only [List.map_cons, blankedPlace, List.flatten_cons]
    rw [if_neg (by simp)]
    by_cases hr : r < (a :: s).length
    · rw [if_pos hr, List.getElem?_append_right (by simp), List.length_replicate, Nat.add_sub_cancel_left,
        List.getElem?_append_left hr, List.getElem?_append_left hr]
      refine ⟨rfl, ?_⟩
      simp only [List.length_append, List.length_replicate]
      omega
    · simp only [List.map_cons, List.sum_cons] at h
      obtain ⟨h1, h2⟩ := blanked_at pad blank seqs (r - (a :: s).length) (by omega)
      rw [if_neg hr, List.getElem?_append_right (by simp; omega), List.length_replicate,
        List.getElem?_append_right (by omega), List.getElem?_append_right (by omega), ← h1]
      refine ⟨congrArg _ (by omega), ?_⟩
      simp only [List.length_append, List.length_replicate]
      omega

theorem blankedPlace_mono (pad : ℕ) : ∀ (ls : List ℕ) (r s : ℕ), r < s → s < ls.sum →
    blankedPlace pad ls r < blankedPlace pad ls s
  | [], r, s, _, h => by simp at h
  | l :: ls, r, s, hrs, h => by
    rw [List.sum_cons] at h
    unfold blankedPlace
    by_cases hl : l = 0
    · rw [if_pos hl, if_pos hl]
      exact blankedPlace_mono pad ls r s hrs (by omega)
    · rw [if_neg hl, if_neg hl]
      by_cases h1 : r < l
      · by_cases h2 : s < l
        · rw [if_pos h1, if_pos h2]; omega
        · rw [if_pos h1, if_neg h2]; omega
      · rw [if_neg h1, if_neg (by omega)]
        have := blankedPlace_mono pad ls (r - l) (s - l) (by omega) (by omega)
        omega

/-- What is not a row is blank. -/
theorem blanked_off (pad : ℕ) (blank : β) : ∀ (seqs : List (List β)) (k : ℕ), k < (blanked pad blank seqs).length →
    (∀ r < (seqs.map List.length).sum, blankedPlace pad (seqs.map List.length) r ≠ k) →
    (blanked pad blank seqs)[k]? = some blank
  | [], k, h, _ => by simp [blanked] at h
  | [] :: seqs, k, h, hk => by
    rw [blanked_cons_nil] at h ⊢
    refine blanked_off pad blank seqs k h fun r hr => ?_
    have := hk r (by simpa using hr)
    simpa [blankedPlace] using this
  | (a :: s) :: seqs, k, h, hk => by
    rw [blanked_cons pad blank (by simp)] at h ⊢
    simp only [List.length_append, List.length_replicate] at h
    by_cases h1 : k < pad
    · rw [List.getElem?_append_left (by simpa using h1), List.getElem?_replicate, if_pos h1]
    · rw [List.getElem?_append_right (by simp; omega), List.length_replicate]
      by_cases h2 : k - pad < (a :: s).length
      · refine absurd ?_ (hk (k - pad) (by simp only [List.map_cons, List.sum_cons]; omega))
        simp only [List.map_cons, blankedPlace]
        rw [if_neg (by simp), if_pos h2]
        omega
      · rw [List.getElem?_append_right (by omega)]
        refine blanked_off pad blank seqs _ (by omega) fun r hr => ?_
        have := hk ((a :: s).length + r) (by simp only [List.map_cons, List.sum_cons]; omega)
        simp only [List.map_cons, blankedPlace] at this
        rw [if_neg (by simp), if_neg (by omega), Nat.add_sub_cancel_left] at this
        omega

theorem blankedPlace_lt (pad : ℕ) (ls : List ℕ) (r : ℕ) (h : r < ls.sum) : blankedPlace pad ls r < blankedRows pad ls := by
  have e : (ls.map fun l => List.replicate l ()).map List.length = ls := by
    rw [List.map_map]; simp [Function.comp_def]
  obtain ⟨_, h2⟩ := blanked_at pad () (ls.map fun l => List.replicate l ()) r (by rw [e]; exact h)
  have h3 := length_laidOut pad () (ls.map fun l => List.replicate l ())
  rw [laidOut_eq, List.length_append] at h3
  rw [e] at h2 h3
  omega

/-- Cutting any array at the lengths and dropping the blank rows gives the rows at their places. -/
theorem cut_rows (pad : ℕ) : ∀ (ls : List ℕ) (segs : List (List β)),
    segs.map List.length = ls.map (fun l => if l > 0 then l + pad else 0) → ∀ rest : List β,
    (segs.map (List.drop pad)).map List.length = ls ∧
      ∀ r < ls.sum, (segs.map (List.drop pad)).flatten[r]? = (segs.flatten ++ rest)[blankedPlace pad ls r]?
  | [], [], _, _ => ⟨rfl, fun r h => by simp at h⟩
  | [], _ :: _, h, _ => by simp at h
  | _ :: _, [], h, _ => by simp at h
  | l :: ls, s :: segs, h, rest => by
    simp only [List.map_cons, List.cons.injEq] at h
    obtain ⟨h1, h2⟩ := cut_rows pad ls segs h.2 rest
    by_cases hl : l = 0
    · subst hl
      have hs : s = [] := List.length_eq_zero_iff.1 (by simpa using h.1)
      subst hs
      simp only [List.map_cons, List.drop_nil, List.length_nil, List.flatten_cons, List.nil_append, h1, blankedPlace, if_true]
      exact ⟨trivial, fun r hr => h2 r (by simpa using hr)⟩
    · have hs : s.length = l + pad := by rw [h.1, if_pos (by omega)]
      have hd : (s.drop pad).length = l := by rw [List.length_drop]; omega
      simp only [List.map_cons, List.flatten_cons, h1, hd, blankedPlace, if_neg hl]
      refine ⟨trivial, fun r hr => ?_⟩
      rw [List.sum_cons] at hr
      rw [List.append_assoc]
      by_cases h3 : r < l
      · rw [if_pos h3, List.getElem?_append_left (by omega), List.getElem?_append_left (by omega), List.getElem?_drop]
      · rw [if_neg h3, List.getElem?_append_right (by omega), List.getElem?_append_right (by omega), hd, h2 _ (by omega)]
        congr 1
        omega

end

/-! ### flatten and unflatten with padding -/

section
variable {m : ℕ} {ls : List ℕ}

/-- The place of each row, as a row of the array with blanks. -/
def blankedAt (pad : ℕ) (ls : List ℕ) (r : Fin ls.sum) : Fin (blankedRows pad ls) :=
  ⟨blankedPlace pad ls r, blankedPlace_lt pad ls r r.2⟩

theorem blankedAt_inj (pad : ℕ) (ls : List ℕ) : Function.Injective (blankedAt pad ls) := by
  intro r s h
  have h' : blankedPlace pad ls r = blankedPlace pad ls s := congrArg Fin.val h
  rcases Nat.lt_trichotomy (r : ℕ) s with h1 | h1 | h1
  · have := blankedPlace_mono pad ls r s h1 s.2; omega
  · exact Fin.ext h1
  · have := blankedPlace_mono pad ls s r h1 r.2; omega

theorem flatten_pad_of {α : Type} [AddCommMonoid α] (hm : 0 < m) (pad : ℕ) {seqs : List (List (List α))} {x : Fin ls.sum → Fin m → α} (h : SeqRows seqs ls x)
    (hne : ls ≠ []) : opsFlatten (asList m seqs) pad = .ok ⟨[m], rowsOf (spread (blankedAt pad ls) x)⟩ := by
  rw [flatten_asList m (by omega) seqs (seqRows_ne h hne) pad]
  obtain ⟨rfl, h2⟩ := h
  have hlen := length_laidOut pad (List.replicate m (0 : α)) seqs
  congr 2
  refine rowsOf_eq hlen fun i => ?_
  by_cases hi : ∃ r, blankedAt pad (lens seqs) r = i
  · obtain ⟨r, rfl⟩ := hi
    rw [spread_at (blankedAt_inj pad _)]
    obtain ⟨h3, h4⟩ := blanked_at pad (List.replicate m (0 : α)) seqs r r.2
    rw [laidOut_eq, List.getElem?_append_left (by exact h4)]
    have : (seqs.flatten)[(r : ℕ)]? = some (List.ofFn (x r)) := by rw [h2, rowsOf_getElem?]
    rw [← this]
    exact h3
  · have hi' : ∀ r, blankedAt pad (lens seqs) r ≠ i := fun r e => hi ⟨r, e⟩
    rw [spread_off x hi']
    have hz : List.ofFn (0 : Fin m → α) = List.replicate m 0 := by
      refine List.ext_getElem (by simp) fun j _ _ => by simp
    rw [hz, laidOut_eq]
    have hi2 : (i : ℕ) < (laidOut pad (List.replicate m (0 : α)) seqs).length := by
      have := i.2
      unfold lens at this
      omega
    by_cases h5 : (i : ℕ) < (blanked pad (List.replicate m (0 : α)) seqs).length
    · rw [List.getElem?_append_left h5]
      refine blanked_off pad _ seqs i h5 fun r hr e => hi' ⟨r, hr⟩ (Fin.ext e)
    · rw [List.getElem?_append_right (by omega)]
      rw [laidOut_eq, List.length_append] at hi2
      by_cases h6 : seqs.all List.isEmpty = true
      · rw [if_pos h6] at hi2
        simp at hi2
        omega
      · rw [if_neg h6] at hi2 ⊢
        rw [List.length_replicate] at hi2
        rw [List.getElem?_replicate, if_pos (by omega)]

theorem unflatten_pad_of {α : Type} (pad : ℕ) (ls : List ℕ) (y : Fin (blankedRows pad ls) → Fin m → α) :
    ∃ seqs, opsUnflatten (⟨[m], rowsOf y⟩ : Arr α) ls pad = .ok (asList m seqs) ∧
      SeqRows seqs ls (collect (blankedAt pad ls) y) := by
  -- the lengths with padding
  have hsum : (ls.map fun l => if l > 0 then l + pad else 0).sum ≤ blankedRows pad ls := by
    have h1 : ∀ ls : List ℕ, (ls.map fun l => if l > 0 then l + pad else 0).sum = ls.sum + pad * ls.countP (0 < ·) := by
      intro ls
      induction ls with
      | nil => rfl
      | cons l ls ih =>
        simp only [List.map_cons, List.sum_cons, ih, List.countP_cons]
        by_cases h : 0 < l
        · simp [h]; ring
        · simp [h]; omega
    rw [h1]
    unfold blankedRows
    by_cases h2 : ls.sum = 0
    · rw [if_pos h2, h2]
      have : ls.countP (0 < ·) = 0 := by
        rw [List.countP_eq_zero]
        intro l hl
        simp [List.sum_eq_zero_iff.1 h2 l hl]
      rw [this]
      simp
    · rw [if_neg h2, Nat.mul_add]
      omega
  obtain ⟨segs, h1, h2⟩ := exists_cut (ls.map fun l => if l > 0 then l + pad else 0)
    ((rowsOf y).take (ls.map fun l => if l > 0 then l + pad else 0).sum) (by
      rw [List.length_take, length_rowsOf]; omega)
  have hrows : rowsOf y = segs.flatten ++ (rowsOf y).drop (ls.map fun l => if l > 0 then l + pad else 0).sum := by
    rw [h2, List.take_append_drop]
  obtain ⟨h3, h4⟩ := cut_rows pad ls segs h1 ((rowsOf y).drop (ls.map fun l => if l > 0 then l + pad else 0).sum)
  refine ⟨segs.map (List.drop pad), ?_, h3, ?_⟩
  · have hsegs := npSplit_segs (⟨[m], rowsOf y⟩ : Arr α) segs _ hrows
    rw [h1] at hsegs
    have hl' : (if pad > 0 then ls.map (fun l => if l > 0 then l + pad else 0) else ls) =
        ls.map (fun l => if l > 0 then l + pad else 0) := by
      split
      · rfl
      · rename_i hp
        have hp : pad = 0 := by omega
        subst hp
        conv_lhs => rw [← List.map_id ls]
        refine List.map_congr_left fun l _ => ?_
        simp only [id, Nat.add_zero]
        split <;> omega
    have hlen : segs.length = ls.length := by simpa using congrArg List.length h1
    unfold opsUnflatten
    simp only []
    rw [hl', hsegs]
    simp only [List.dropLast_concat]
    by_cases hp : pad > 0
    · simp only [hp, if_true, List.length_map, List.map_map, hlen, asList]
      congr 1
      refine List.map_congr_left fun s _ => ?_
      simp [Arr.slice, Arr.len, Function.comp_def]
    · have hp : pad = 0 := by omega
      subst hp
      simp [hlen, asList, Function.comp_def]
  · refine rowsOf_eq (by rw [List.length_flatten, h3]) fun r => ?_
    rw [h4 r r.2, ← hrows]
    exact rowsOf_getElem? y (blankedAt pad ls r)

end
end Thinc
