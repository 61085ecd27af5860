import Verif.Lemmas.Pad
import Mathlib.Tactic.Ring
import Mathlib.Tactic.Push
import Mathlib.Tactic.ByContra
/-!
# C30: pad and unpad
-/
namespace Thinc
variable {α : Type}

section
variable [Zero α]

theorem emod_pad (m : Nat) (r : Int) (hr : 1 ≤ r) :
    r ∣ (m : Int) + (-(m : Int)) % r ∧ 0 ≤ (-(m : Int)) % r ∧ (-(m : Int)) % r < r := by
  refine ⟨?_, Int.emod_nonneg _ (by omega), Int.emod_lt_of_pos _ (by omega)⟩
  have h1 : (-(m : Int)) % r = -(m : Int) - r * (-(m : Int) / r) := Int.emod_def _ _
  rw [h1]
  exact ⟨-(-(m : Int) / r), by ring⟩

/-- **C30**: padding succeeds on every non-empty list of arrays of the same trailing shape and every
`round_to >= 1`.  The padded length is the least multiple of `round_to` that is at least every
sequence length; cell `(i, j)` is row `j` of sequence `i`, or zeros past its end; and unpadding with
the original lengths gives back the list. -/
theorem C30_pad_unpad (seqs : List (Arr α)) (tail : List Nat) (roundTo : Int)
    (h : ∀ s ∈ seqs, s.tail = tail) (hne : seqs ≠ []) (hr : 1 ≤ roundTo) :
    ∃ P, opsPad seqs roundTo = .ok P ∧
      P.d0 = seqs.length ∧ P.tail = tail ∧
      (P.data.length = P.d0 ∧ ∀ r ∈ P.data, r.length = P.d1) ∧
      (roundTo ∣ (P.d1 : Int) ∧ (∀ s ∈ seqs, s.len ≤ P.d1) ∧
        ∀ m : Nat, roundTo ∣ (m : Int) → (∀ s ∈ seqs, s.len ≤ m) → P.d1 ≤ m) ∧
      (∀ (i : Nat) (s : Arr α), seqs[i]? = some s → ∀ j : Nat, j < P.d1 →
        P.cell i j = (s.rows[j]?).getD (List.replicate tail.prod 0)) ∧
      opsUnpad P (seqs.map Arr.len) = .ok seqs := by
  have hle : ∀ s ∈ seqs, s.len ≤ padLen seqs roundTo := by
    intro s hs
    exact Nat.le_trans (le_foldl_max _ 0 s.len (List.mem_map.2 ⟨s, hs, rfl⟩)) (Nat.le_add_right _ _)
  obtain ⟨hd1, hd2, hd3⟩ := emod_pad ((seqs.map Arr.len).foldl max 0) roundTo hr
  have hcast : (padLen seqs roundTo : Int) = ((seqs.map Arr.len).foldl max 0 : Nat) +
      (-(((seqs.map Arr.len).foldl max 0 : Nat) : Int)) % roundTo := by
    unfold padLen; push_cast; rw [Int.toNat_of_nonneg hd2]
  refine ⟨_, opsPad_ok seqs tail roundTo h hne hr, rfl, rfl, ⟨by simp, ?_⟩, ⟨?_, hle, ?_⟩, ?_, ?_⟩
  · intro r hr'
    rcases List.mem_map.1 hr' with ⟨s, hs, rfl⟩
    have := hle s hs
    simp only [List.length_append, List.length_replicate]
    unfold Arr.len at *; omega
  · simp only []; rw [hcast]; exact hd1
  · intro m hm hsm
    have hmax : (seqs.map Arr.len).foldl max 0 ≤ m := by
      rcases foldl_max_mem (seqs.map Arr.len) 0 with h0 | h0
      · omega
      · rcases List.mem_map.1 h0 with ⟨s, hs, he⟩
        rw [← he]; exact hsm s hs
    simp only []
    by_contra hcon
    have hlt : (m : Int) < padLen seqs roundTo := by omega
    have hdiv : roundTo ∣ (padLen seqs roundTo : Int) - m := Int.dvd_sub (by rw [hcast]; exact hd1) hm
    have := Int.le_of_dvd (by omega) hdiv
    omega
  · intro i s hs j hj
    have hmem : s ∈ seqs := List.mem_of_getElem? hs
    have := hle s hmem
    simp only [Arr3.cell, List.getD_eq_getElem?_getD, List.getElem?_map, hs, Option.map_some,
      Option.getD_some]
    by_cases hjs : j < s.rows.length
    · rw [List.getElem?_append_left hjs]
      simp [hjs]
    · rw [List.getElem?_append_right (by omega)]
      simp only [] at hj
      have hj' : j - s.rows.length < padLen seqs roundTo - s.len := by unfold Arr.len at *; omega
      rw [List.getElem?_replicate, if_pos hj', List.getElem?_eq_none (by omega)]
      simp
  · rw [opsUnpad_ok _ _ (by simp)]
    congr 1
    apply List.ext_getElem?
    intro i
    rw [List.getElem?_map, List.getElem?_zipIdx, List.getElem?_map]
    rcases hs : seqs[i]? with _ | s
    · simp
    · simp only [Option.map_some]
      congr 1
      have hmem : s ∈ seqs := List.mem_of_getElem? hs
      simp only [Arr3.rowTake, List.getD_eq_getElem?_getD, List.getElem?_map, Nat.zero_add, hs,
        Option.map_some, Option.getD_some, Arr.len, List.take_left, ← h s hmem]

example : ∃ P, opsPad [(⟨[1], [[1], [2], [3]]⟩ : Arr Nat), ⟨[1], []⟩, ⟨[1], [[4]]⟩] 2 = .ok P ∧
    P.d1 = 4 ∧ P.data = [[[1], [2], [3], [0]], [[0], [0], [0], [0]], [[4], [0], [0], [0]]] := by
  refine ⟨⟨3, 4, [1], _⟩, ?_, rfl, rfl⟩
  decide

example : ∀ s ∈ [(⟨[1], [[1], [2], [3]]⟩ : Arr Nat), ⟨[1], []⟩, ⟨[1], [[4]]⟩], s.tail = [1] := by
  decide

/-- The inputs that `pad` rejects, all with ValueError: `round_to < 1`, no sequences, sequences of
different trailing shape. -/
theorem C30_rejects (seqs : List (Arr α)) (roundTo : Int) :
    (opsPad seqs roundTo = .error .valueError ↔
      roundTo < 1 ∨ seqs = [] ∨ ∃ a ∈ seqs, ∃ b ∈ seqs, a.tail ≠ b.tail) := by
  constructor
  · intro herr
    by_contra hcon
    push Not at hcon
    obtain ⟨h1, h2, h3⟩ := hcon
    cases hS : seqs with
    | nil => exact h2 hS
    | cons s0 rest =>
      have := opsPad_ok seqs s0.tail roundTo (fun s hs => h3 s hs s0 (by simp [hS])) h2 h1
      rw [this] at herr
      cases herr
  · rintro (h | h | ⟨a, ha, b, hb, hab⟩)
    · simp [opsPad, h]
    · subst h; simp [opsPad]
    · unfold opsPad
      split
      · rfl
      · cases hS : seqs with
        | nil => rfl
        | cons s0 rest =>
          simp only
          rw [if_pos]
          intro hall
          simp only [List.all_eq_true, beq_iff_eq] at hall
          have key : ∀ y ∈ s0 :: rest, y.tail = s0.tail := by
            intro y hy
            rcases List.mem_cons.1 hy with rfl | hy
            · rfl
            · exact hall y hy
          rw [hS] at ha hb
          exact hab ((key a ha).trans (key b hb).symm)

example : opsPad [(⟨[1], [[1]]⟩ : Arr Nat), ⟨[2], [[1, 2]]⟩] 1 = .error .valueError :=
  (C30_rejects _ 1).2 (.inr (.inr ⟨⟨[1], [[1]]⟩, by decide, ⟨[2], [[1, 2]]⟩, by decide, by decide⟩))

end
end Thinc
