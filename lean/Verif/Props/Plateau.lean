import Verif.Model.Schedules
import Mathlib.Algebra.Order.BigOperators.Group.Finset
import Mathlib.Data.Rat.Floor
import Mathlib.Tactic.Linarith
/-!
# C27: the plateau schedule
-/
namespace Thinc
variable {K : Type} [Field K] [LinearOrder K]

namespace Spec

/-- Observation `i` has a better score than every earlier one. -/
def improves (o : Nat → Int × K) (i : Nat) : Prop := ∀ j < i, (o j).2 < (o i).2

instance (o : Nat → Int × K) (i : Nat) : Decidable (improves o i) := by
  unfold improves; infer_instance

/-- Observation `i` is a new evaluation (its score step is later than the previous one's) that did
not improve on the best score. -/
def stale (o : Nat → Int × K) (i : Nat) : Prop :=
  (0 < i ∧ (o (i - 1)).1 < (o i).1) ∧ ¬ improves o i

instance (o : Nat → Int × K) (i : Nat) : Decidable (stale o i) := by
  unfold stale; infer_instance

/-- The number of new evaluations without improvement since the best score, at observation `i`. -/
def sinceBest (o : Nat → Int × K) (i : Nat) : Nat :=
  ((Finset.range (i + 1)).filter fun j => stale o j ∧ ∀ k ≤ i, j < k → ¬ improves o k).card

/-- Observation `i` completes a plateau: a further `patience` evaluations without improvement. -/
def plateauAt (patience : Nat) (o : Nat → Int × K) (i : Nat) : Prop :=
  stale o i ∧ patience ∣ sinceBest o i

instance (p : Nat) (o : Nat → Int × K) (i : Nat) : Decidable (plateauAt p o i) := by
  unfold plateauAt; infer_instance

/-- The number of plateaus among the first `n` observations. -/
def nPlateaus (patience : Nat) (o : Nat → Int × K) (n : Nat) : Nat :=
  ((Finset.range n).filter fun i => plateauAt patience o i).card

/-- The observations in a list of calls: the `last_score` arguments that are not `None`. -/
def observations (qs : List (Int × Option (Int × K))) : List (Int × K) := qs.filterMap Prod.snd

/-- A list of observations as a sequence. -/
def seqOf (l : List (Int × K)) : Nat → Int × K := fun i => l.getD i (0, 0)

/-- The score steps never decrease. -/
def ordered (l : List (Int × K)) : Prop := l.Pairwise fun a b => a.1 ≤ b.1

end Spec

open Spec

/-- The state after the first `n` observations `o`. -/
structure PlateauInv (p : Nat) (o : Nat → Int × K) (n : Nat) (st : PlateauState K) : Prop where
  zero : n = 0 → st = PlateauState.init
  best : 0 < n → ∃ b, st.bestScore = some b ∧ (∀ j < n, (o j).2 ≤ b) ∧ ∃ j < n, (o j).2 = b
  step : 0 < n → st.lastScoreStep = some (o (n - 1)).1
  patience : 0 < n → st.patience = ((sinceBest o (n - 1) % p : Nat) : Int)
  count : st.nPlateaus = nPlateaus p o n

theorem sinceBest_improves {o : Nat → Int × K} {n : Nat} (h : improves o n) : sinceBest o n = 0 := by
  unfold sinceBest
  rw [Finset.card_eq_zero, Finset.filter_eq_empty_iff]
  rintro j hj ⟨hs, hk⟩
  rcases Nat.lt_or_ge j n with h' | h'
  · exact hk n le_rfl h' h
  · have : j = n := by have := Finset.mem_range.1 hj; omega
    subst this; exact hs.2 h

theorem sinceBest_not {o : Nat → Int × K} {n : Nat} (h : ¬ improves o (n + 1)) :
    sinceBest o (n + 1) = sinceBest o n + if stale o (n + 1) then 1 else 0 := by
  unfold sinceBest
  rw [Finset.range_add_one (n := n + 1), Finset.filter_insert]
  have hcongr : ((Finset.range (n + 1)).filter fun j =>
        stale o j ∧ ∀ k ≤ n + 1, j < k → ¬ improves o k)
      = ((Finset.range (n + 1)).filter fun j => stale o j ∧ ∀ k ≤ n, j < k → ¬ improves o k) := by
    apply Finset.filter_congr
    intro j _
    refine and_congr_right fun _ => ⟨fun hk k hkn => hk k (by omega), fun hk k hkn hjk => ?_⟩
    rcases Nat.lt_or_ge n k with h' | h'
    · have : k = n + 1 := by omega
      subst this; exact h
    · exact hk k h' hjk
  have hlast : (stale o (n + 1) ∧ ∀ k ≤ n + 1, n + 1 < k → ¬ improves o k) ↔ stale o (n + 1) :=
    ⟨fun h => h.1, fun h => ⟨h, fun k hk hk' => absurd hk' (by omega)⟩⟩
  rw [hcongr]
  by_cases hs : stale o (n + 1)
  · rw [if_pos (hlast.2 hs), if_pos hs, Finset.card_insert_of_notMem (by simp)]
  · rw [if_neg (fun h' => hs h'.1), if_neg hs]; rfl

theorem nPlateaus_succ (p : Nat) (o : Nat → Int × K) (n : Nat) :
    nPlateaus p o (n + 1) = nPlateaus p o n + if plateauAt p o n then 1 else 0 := by
  unfold nPlateaus
  rw [Finset.range_add_one, Finset.filter_insert]
  split
  · rw [Finset.card_insert_of_notMem (by simp)]
  · rfl

theorem succ_mod {p : Nat} (hp : 0 < p) (a : Nat) :
    (a + 1) % p = if a % p + 1 = p then 0 else a % p + 1 := by
  have hlt := Nat.mod_lt a hp
  rw [← Nat.mod_add_mod]
  split
  · next h => rw [h, Nat.mod_self]
  · next h => exact Nat.mod_eq_of_lt (by omega)

theorem PlateauInv.update {p : Nat} (hp : 0 < p) {o : Nat → Int × K} {n : Nat} {st : PlateauState K}
    (i : PlateauInv p o n st) (hord : 0 < n → (o (n - 1)).1 ≤ (o n).1) :
    ∃ st', plateauUpdate p st (o n).1 (o n).2 = .ok st' ∧ PlateauInv p o (n + 1) st' := by
  rcases Nat.eq_zero_or_pos n with h0 | h0
  · subst h0
    have := i.zero rfl
    subst this
    have himp : improves o 0 := fun j hj => absurd hj (by omega)
    refine ⟨⟨some (o 0).2, some (o 0).1, 0, 0⟩, rfl, fun h => by omega, fun _ => ⟨_, rfl, ?_, ?_⟩,
      fun _ => rfl, fun _ => ?_, ?_⟩
    · intro j hj; have : j = 0 := by omega
      subst this; exact le_rfl
    · exact ⟨0, by omega, rfl⟩
    · simp [sinceBest_improves himp]
    · rw [nPlateaus_succ, if_neg (fun h => h.1.2 himp)]
      exact i.count
  · obtain ⟨b, hb, hmax, ⟨jb, hjb, hjb'⟩⟩ := i.best h0
    have hst := i.step h0
    have hpat := i.patience h0
    have hcnt := i.count
    have himp : improves o n ↔ b < (o n).2 :=
      ⟨fun h => hjb' ▸ h jb hjb, fun h j hj => lt_of_le_of_lt (hmax j hj) h⟩
    obtain ⟨bs, ls, pat, np⟩ := st
    simp only at hb hst hpat hcnt
    subst hb hst
    obtain ⟨m, rfl⟩ : ∃ m, n = m + 1 := ⟨n - 1, by omega⟩
    simp only [Nat.add_sub_cancel] at hpat hord ⊢
    by_cases hgt : (o (m + 1)).2 > b
    · refine ⟨⟨some (o (m+1)).2, some (o (m+1)).1, 0, np⟩, by simp [plateauUpdate, hgt],
        fun h => by omega, fun _ => ⟨_, rfl, ?_, ?_⟩, fun _ => rfl, fun _ => ?_, ?_⟩
      · intro j hj
        rcases Nat.lt_or_ge j (m + 1) with h | h
        · exact (hmax j h).trans hgt.le
        · have : j = m + 1 := by omega
          subst this; exact le_rfl
      · exact ⟨m + 1, by omega, rfl⟩
      · simp [sinceBest_improves (himp.2 hgt)]
      · rw [nPlateaus_succ, if_neg (fun h => h.1.2 (himp.2 hgt))]; exact hcnt
    · have hni : ¬ improves o (m + 1) := fun h => hgt (himp.1 h)
      have hbest : ∃ b', some b = some b' ∧ (∀ j < m + 1 + 1, (o j).2 ≤ b') ∧
          ∃ j < m + 1 + 1, (o j).2 = b' := by
        refine ⟨b, rfl, fun j hj => ?_, jb, by omega, hjb'⟩
        rcases Nat.lt_or_ge j (m + 1) with h | h
        · exact hmax j h
        · have : j = m + 1 := by omega
          subst this; exact not_lt.1 hgt
      have hle := hord (by omega)
      by_cases hnew : (o (m + 1)).1 > (o m).1
      · have hstale : stale o (m + 1) := ⟨⟨by omega, hnew⟩, hni⟩
        have hsb := sinceBest_not hni
        rw [if_pos hstale] at hsb
        have hmod : sinceBest o (m + 1) % p = if sinceBest o m % p + 1 = p then 0
            else sinceBest o m % p + 1 := by rw [hsb]; exact succ_mod hp _
        by_cases hfull : pat + 1 = (p : Int)
        · have h1 : sinceBest o m % p + 1 = p := by rw [hpat] at hfull; exact_mod_cast hfull
          rw [if_pos h1] at hmod
          refine ⟨⟨some b, some (o (m+1)).1, 0, np + 1⟩,
            by simp [plateauUpdate, hgt, not_lt.2 hle, hnew, hfull], fun h => by omega,
            fun _ => hbest, fun _ => rfl, fun _ => ?_, ?_⟩
          · simp [hmod]
          · rw [nPlateaus_succ, if_pos ⟨hstale, Nat.dvd_of_mod_eq_zero hmod⟩, ← hcnt]
        · have h1 : ¬ sinceBest o m % p + 1 = p := fun h => hfull (by rw [hpat]; exact_mod_cast h)
          rw [if_neg h1] at hmod
          refine ⟨⟨some b, some (o (m+1)).1, pat + 1, np⟩,
            by simp [plateauUpdate, hgt, not_lt.2 hle, hnew, hfull], fun h => by omega,
            fun _ => hbest, fun _ => rfl, fun _ => ?_, ?_⟩
          · simp [hmod, hpat]
          · rw [nPlateaus_succ, if_neg, ← hcnt]; · rfl
            rintro ⟨_, h⟩
            rw [Nat.mod_eq_zero_of_dvd h] at hmod
            omega
      · have hns : ¬ stale o (m + 1) := fun h => hnew h.1.2
        have hsb : sinceBest o (m + 1) = sinceBest o m := by simpa [hns] using sinceBest_not hni
        refine ⟨⟨some b, some (o (m+1)).1, pat, np⟩,
          by simp [plateauUpdate, hgt, not_lt.2 hle, hnew], fun h => by omega,
          fun _ => hbest, fun _ => rfl, fun _ => ?_, ?_⟩
        · simp only [Nat.add_sub_cancel]; rw [hsb, hpat]
        · rw [nPlateaus_succ, if_neg (fun h => hns h.1), ← hcnt]; rfl

/-! Only the observations so far matter. -/

section congr
variable {o o' : Nat → Int × K} {n : Nat} (h : ∀ i < n, o i = o' i)
include h

theorem improves_congr {i : Nat} (hi : i < n) : improves o i ↔ improves o' i := by
  unfold improves
  refine forall₂_congr fun j hj => ?_
  rw [h j (by omega), h i hi]

theorem stale_congr {i : Nat} (hi : i < n) : stale o i ↔ stale o' i := by
  unfold stale
  rw [improves_congr h hi, h i hi, h (i - 1) (by omega)]

theorem sinceBest_congr {i : Nat} (hi : i < n) : sinceBest o i = sinceBest o' i := by
  unfold sinceBest
  congr 1
  apply Finset.filter_congr
  intro j hj
  have hj := Finset.mem_range.1 hj
  rw [stale_congr h (by omega)]
  refine and_congr_right fun _ => forall₃_congr fun k hk _ => ?_
  rw [improves_congr h (by omega)]

theorem nPlateaus_congr (p : Nat) : nPlateaus p o n = nPlateaus p o' n := by
  unfold nPlateaus
  congr 1
  apply Finset.filter_congr
  intro i hi
  have hi := Finset.mem_range.1 hi
  unfold plateauAt
  rw [stale_congr h hi, sinceBest_congr h hi]

end congr

theorem plateauRun_spec {p : Nat} (hp : 0 < p) (scale : K) (inner : Schedule (Option (Int × K)) K)
    (o : Nat → Int × K) (qs : List (Int × Option (Int × K))) (hstep : ∀ q ∈ qs, 0 ≤ q.1)
    (n : Nat) (st : PlateauState K) (inv : PlateauInv p o n st)
    (hobs : ∀ i (h : i < (observations qs).length), (observations qs)[i] = o (n + i))
    (hord : ∀ i, i + 1 < n + (observations qs).length → (o i).1 ≤ (o (i + 1)).1)
    (i : Nat) (hi : i < qs.length) :
    (plateauRun p scale inner st qs).2[i]? = some (do
      let v ← inner.call qs[i].1 qs[i].2
      return scale ^ nPlateaus p o (n + (observations (qs.take (i + 1))).length) * v) := by
  induction qs generalizing n st i with
  | nil => simp at hi
  | cons q qs ih =>
    obtain ⟨step, sc⟩ := q
    have hs0 : 0 ≤ step := hstep (step, sc) List.mem_cons_self
    cases sc with
    | none =>
      have hcall : plateauCall p scale inner st step none
          = (st, do return scale ^ st.nPlateaus * (← inner.call step none)) := by
        simp [plateauCall, not_lt.2 hs0]
      simp only [plateauRun, hcall]
      cases i with
      | zero => simp [observations, inv.count]
      | succ i =>
        have := ih (fun q hq => hstep q (List.mem_cons_of_mem _ hq)) n st inv
          (fun i h => by simpa [observations] using hobs i (by simpa [observations] using h))
          (fun i h => hord i (by simpa [observations] using h)) i (by simpa using hi)
        simpa [observations] using this
    | some sx =>
      have ho : sx = o n := by
        have := hobs 0 (by simp [observations])
        simpa [observations] using this
      obtain ⟨st', hst', inv'⟩ := inv.update hp (fun h0 => by
        have := hord (n - 1) (by simp [observations]; omega)
        rwa [Nat.sub_add_cancel h0] at this)
      have hcall : plateauCall p scale inner st step (some sx)
          = (st', do return scale ^ st'.nPlateaus * (← inner.call step (some sx))) := by
        subst ho
        simp only [plateauCall, not_lt.2 hs0, if_false]
        rw [hst']
      simp only [plateauRun, hcall]
      cases i with
      | zero => simp [observations, inv'.count]
      | succ i =>
        have := ih (fun q hq => hstep q (List.mem_cons_of_mem _ hq)) (n + 1) st' inv'
          (fun i h => by
            have := hobs (i + 1) (by simpa [observations] using h)
            rw [show n + 1 + i = n + (i + 1) by omega]
            simpa [observations] using this)
          (fun i h => hord i (by simp [observations] at h ⊢; omega)) i (by simpa using hi)
        simpa [observations, Nat.add_assoc, Nat.add_comm 1] using this

/-- In a history of calls with non-negative steps whose score steps never go back, call number `i`
returns the wrapped schedule's value times `scale ^ N`, where `N` is the number of plateaus among
the scores passed up to and including that call. -/
theorem C27_plateau {p : Nat} (hp : 0 < p) (scale : K) (inner : Schedule (Option (Int × K)) K)
    (qs : List (Int × Option (Int × K))) (hstep : ∀ q ∈ qs, 0 ≤ q.1)
    (hord : ordered (observations qs)) (i : Nat) (hi : i < qs.length) :
    let seen := observations (qs.take (i + 1))
    (plateauRun p scale inner PlateauState.init qs).2[i]? = some (do
      let v ← inner.call qs[i].1 qs[i].2
      return scale ^ nPlateaus p (seqOf seen) seen.length * v) := by
  intro seen
  have hpre : seen <+: observations qs := by
    have : qs.take (i + 1) ++ qs.drop (i + 1) = qs := List.take_append_drop _ _
    refine ⟨observations (qs.drop (i + 1)), ?_⟩
    show List.filterMap _ _ ++ List.filterMap _ _ = List.filterMap _ _
    rw [← List.filterMap_append, this]
  have := plateauRun_spec hp scale inner (seqOf (observations qs)) qs hstep 0 PlateauState.init
    ⟨fun _ => rfl, fun h => absurd h (by omega), fun h => absurd h (by omega),
      fun h => absurd h (by omega), rfl⟩
    (fun i h => by simp [seqOf, h]) (fun i h => by
      rw [Nat.zero_add] at h
      have := List.pairwise_iff_getElem.1 hord i (i + 1) (by omega) h (by omega)
      simpa [seqOf, h, Nat.lt_of_succ_lt h] using this) i hi
  rw [this, Nat.zero_add, nPlateaus_congr]
  intro j hj
  have hj : j < seen.length := hj
  have hj' : j < (observations qs).length := lt_of_lt_of_le hj hpre.length_le
  have := hpre.getElem hj
  simp [seqOf, seen, hj, hj'] at this ⊢
  simp [seqOf, hj, this]

/-- Passing the same score again changes nothing. -/
theorem C27_repeated_query (mp : Int) (st st' : PlateauState K) (s : Int) (x : K)
    (h : plateauUpdate mp st s x = .ok st') : plateauUpdate mp st' s x = .ok st' := by
  have hn (n : Nat) : plateauUpdate mp ⟨some x, some s, 0, n⟩ s x = .ok ⟨some x, some s, 0, n⟩ := by
    simp [plateauUpdate]
  obtain ⟨b, l, pat, n⟩ := st
  cases b with
  | none => simp [plateauUpdate] at h; subst h; exact hn n
  | some b =>
    cases l with
    | none => simp [plateauUpdate] at h; subst h; exact hn n
    | some l =>
      simp only [plateauUpdate] at h
      split at h
      · cases h; exact hn n
      split at h
      · cases h
      split at h
      · split at h <;> cases h <;> simp_all [plateauUpdate]
      · cases h; simp_all [plateauUpdate]

/-- A score is rejected exactly when it does not improve on the best score and belongs to an
earlier step than the last one; the schedule's state is then unchanged. -/
theorem C27_out_of_order (mp : Int) (scale : K) (inner : Schedule (Option (Int × K)) K)
    (st : PlateauState K) (step s : Int) (x : K) (hstep : 0 ≤ step) :
    ((∃ b l, st.bestScore = some b ∧ st.lastScoreStep = some l ∧ x ≤ b ∧ s < l) ↔
      ∃ e, plateauUpdate mp st s x = .error e) ∧
    (∀ b l, st.bestScore = some b → st.lastScoreStep = some l → x ≤ b → s < l →
      plateauCall mp scale inner st step (some (s, x)) = (st, .error .valueError)) := by
  obtain ⟨bs, ls, pat, n⟩ := st
  constructor
  · constructor
    · rintro ⟨b, l, rfl, rfl, hx, hs⟩
      exact ⟨.valueError, by simp [plateauUpdate, not_lt.2 hx, hs]⟩
    · rintro ⟨e, he⟩
      cases bs with
      | none => simp [plateauUpdate] at he
      | some b =>
        cases ls with
        | none => simp [plateauUpdate] at he
        | some l =>
          refine ⟨b, l, rfl, rfl, ?_⟩
          simp only [plateauUpdate] at he
          split at he
          · cases he
          next h1 =>
            split at he
            · next h2 => exact ⟨not_lt.1 h1, h2⟩
            · split at he
              · split at he <;> cases he
              · cases he
  · rintro b l hb hl hx hs
    simp only at hb hl
    subst hb hl
    simp [plateauCall, not_lt.2 hstep, plateauUpdate, not_lt.2 hx, hs]

/-- With a patience that is not positive no plateau is ever recorded. -/
theorem C27_no_patience (mp : Int) (hmp : mp ≤ 0) (st st' : PlateauState K) (s : Int) (x : K)
    (hp : 0 ≤ st.patience) (h : plateauUpdate mp st s x = .ok st') :
    st'.nPlateaus = st.nPlateaus ∧ 0 ≤ st'.patience := by
  obtain ⟨bs, ls, pat, n⟩ := st
  simp only at hp
  cases bs with
  | none => simp [plateauUpdate] at h; subst h; simp
  | some b =>
    cases ls with
    | none => simp [plateauUpdate] at h; subst h; simp
    | some l =>
      simp only [plateauUpdate, show ¬ pat + 1 = mp by omega, if_false] at h
      split at h
      · cases h; simp
      split at h
      · cases h
      split at h <;> cases h <;> simp <;> omega

/-- The history of thinc's own test of this schedule. -/
def exPlateauCalls : List (Int × Option (Int × ℚ)) :=
  [(0, none), (1, some (1, 1)), (2, some (2, 1)), (3, none), (4, some (4, 1)), (5, some (4, 1)),
   (6, some (6, 9/10)), (7, some (7, 2)), (8, some (8, 1)), (9, some (9, 2))]

example : ordered (observations exPlateauCalls) ∧ ∀ q ∈ exPlateauCalls, 0 ≤ q.1 := by
  unfold ordered; decide +kernel

example : (plateauRun 2 (1/2) (constant 1) PlateauState.init exPlateauCalls).2
    = [1, 1, 1, 1, 1/2, 1/2, 1/2, 1/2, 1/2, 1/4].map Except.ok := by decide +kernel

example : nPlateaus 2 (seqOf (observations exPlateauCalls)) 8 = 2 := by decide +kernel

end Thinc
