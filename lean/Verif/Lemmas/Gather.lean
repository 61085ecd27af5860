import Verif.Model.Gather
import Verif.Lemmas.Pooling
import Mathlib.Tactic.ByContra
import Mathlib.Tactic.Push
/-! # Lemmas for gather_add and scatter_add -/
namespace Thinc
open Finset
variable {K : Type}

/-- A loop that may raise, and only for the reason `Q`. -/
theorem forN_inv_because {σ : Type} (e : PyErr) (Q : Prop) (n : Nat) (f : σ → Nat → Except PyErr σ)
    (P : Nat → σ → Prop) (s : σ) (h0 : P 0 s) (hstep : ∀ k, k < n → ∀ s, P k s →
      (Q ∧ f s k = .error e) ∨ ∃ s', f s k = .ok s' ∧ P (k + 1) s') :
    (Q ∧ forN n s f = .error e) ∨ ∃ s', forN n s f = .ok s' ∧ P n s' := by
  by_cases hQ : Q
  · rcases forN_inv_or e n f P s h0 (fun k hk s hs => by
      rcases hstep k hk s hs with h | h
      · exact .inl h.2
      · exact .inr h) with h | h
    · exact .inl ⟨hQ, h⟩
    · exact .inr h
  · exact .inr (forN_inv n f P s h0 (fun k hk s hs => by
      rcases hstep k hk s hs with h | h
      · exact absurd h.1 hQ
      · exact h))

variable [Semiring K]

theorem cpuGatherAdd_spec (out table : Buf K) (indices : Buf Int) (T O B nK : Nat)
    (ho : out.size = B * O) (ht : table.size = T * O) (hi : indices.size = B * nK)
    (hz : ∀ k, out.val k = 0)
    (hix : ∀ i < B * nK, 0 ≤ indices.val i ∧ indices.val i ≠ T) :
    ((∃ i < B * nK, (T : Int) < indices.val i) ∧
      cpuGatherAdd out table indices T O B nK = .error .indexError) ∨
    ((∀ i < B * nK, indices.val i < T) ∧
      ∃ out', cpuGatherAdd out table indices T O B nK = .ok out' ∧
      ∀ b < B, ∀ o < O, out'.val (b * O + o) =
        ∑ k ∈ range nK, table.val ((indices.val (b * nK + k)).toNat * O + o)) := by
  have key := forN_inv_because .indexError (∃ i < B * nK, (T : Int) < indices.val i) B
    (fun out b => forN nK out (fun out k => do
      let idx ← indices.read (b * nK + k : Nat)
      if idx > T then .error .indexError
      else vecAdd out (b * O : Nat) table (idx * O) 1 O))
    (fun n (s : Buf K) => s.size = B * O ∧ (∀ i < n * nK, indices.val i < T) ∧
      (∀ c, n * O ≤ c → s.val c = 0) ∧
      ∀ b < n, ∀ o < O, s.val (b * O + o) =
        ∑ k ∈ range nK, table.val ((indices.val (b * nK + k)).toNat * O + o))
    out ⟨ho, fun i hi => absurd hi (by omega), fun c _ => hz c, fun b hb => absurd hb (by omega)⟩
    (by
      rintro n hn s ⟨h1, h2, h3, h4⟩
      have inner := forN_inv_because .indexError (∃ i < B * nK, (T : Int) < indices.val i) nK
        (fun out k => do
          let idx ← indices.read (n * nK + k : Nat)
          if idx > T then .error .indexError
          else vecAdd out (n * O : Nat) table (idx * O) 1 O)
        (fun m (s' : Buf K) => s'.size = B * O ∧ (∀ i < n * nK + m, indices.val i < T) ∧
          (∀ c, n * O + O ≤ c → s'.val c = 0) ∧ (∀ c < n * O, s'.val c = s.val c) ∧
          ∀ o < O, s'.val (n * O + o) =
            ∑ k ∈ range m, table.val ((indices.val (n * nK + k)).toNat * O + o))
        s ⟨h1, fun i hi => h2 i (by omega), fun c hc => h3 c (by omega), fun c _ => rfl,
          fun o ho => by rw [h3 _ (by omega)]; simp⟩
        (by
          rintro k hk s' ⟨g1, g2, g3, g4, g5⟩
          have hlt : n * nK + k < B * nK := rowMajor_lt hn hk
          obtain ⟨hx1, hx2⟩ := hix _ hlt
          simp only [bind, Except.bind]
          rw [Buf.read_ok _ _ (by omega)]
          simp only
          by_cases hgt : indices.val (n * nK + k) > T
          · left
            rw [if_pos hgt]
            exact ⟨⟨_, hlt, hgt⟩, rfl⟩
          · right
            rw [if_neg hgt]
            obtain ⟨w, hw⟩ := Int.eq_ofNat_of_zero_le hx1
            have hwT : w < T := by omega
            have hb1 : n * O + O ≤ B * O := by
              rw [← Nat.succ_mul]
              exact Nat.mul_le_mul_right O hn
            have hb2 : w * O + O ≤ T * O := by
              rw [← Nat.succ_mul]
              exact Nat.mul_le_mul_right O hwT
            rw [hw, ← Int.natCast_mul, vecAdd_spec _ _ _ _ _ _ (by omega) (by omega)]
            refine ⟨_, rfl, g1, ?_, ?_, ?_, ?_⟩
            · intro i hi
              by_cases hik : i = n * nK + k
              · subst hik
                omega
              · exact g2 i (by omega)
            · intro c hc
              simp only
              rw [if_neg (by omega)]
              exact g3 c hc
            · intro c hc
              simp only
              rw [if_neg (by omega)]
              exact g4 c hc
            · intro o ho
              simp only
              rw [if_pos (by omega), g5 o ho, Finset.sum_range_succ, hw, one_mul,
                Nat.add_sub_cancel_left]
              rfl)
      rcases inner with h | ⟨s', h, g1, g2, g3, g4, g5⟩
      · exact .inl h
      · refine .inr ⟨s', h, g1, ?_, ?_, ?_⟩
        · rw [Nat.add_mul, Nat.one_mul]
          exact g2
        · rw [Nat.add_mul, Nat.one_mul]
          exact g3
        · intro b hb o ho
          by_cases hbn : b = n
          · subst hbn
            exact g5 o ho
          · have : b * O + o < n * O := rowMajor_lt (by omega) ho
            rw [g4 _ this]
            exact h4 b (by omega) o ho)
  rcases key with h | ⟨s, h, _, h2, _, h4⟩
  · exact .inl h
  · exact .inr ⟨h2, s, h, h4⟩

/-- The kernel of `scatter_add`: an index that names no row (a negative one) adds nothing. -/
theorem cpuScatterAdd_spec (dest src : Buf K) (indices : List Int) (T O : Nat) (hd : dest.size = T * O)
    (hs : src.size = indices.length * O) (hix : ∀ i ∈ indices, i < T) :
    ∃ dest', cpuScatterAdd dest indices src O = .ok dest' ∧
      ∀ r < T, ∀ o < O, dest'.val (r * O + o) = dest.val (r * O + o) +
        ∑ i ∈ range indices.length, if indices.getD i 0 = (r : Int) then src.val (i * O + o) else 0 := by
  obtain ⟨s, h1, h2, h3, h4⟩ := forM'_inv indices (fun (s : Buf K × Nat) id => (do
      if id ≥ 0 then
        let dest ← vecAdd s.1 (id * O) src (s.2 * O : Nat) 1 O
        pure (dest, s.2 + 1)
      else pure (s.1, s.2 + 1) : Except PyErr (Buf K × Nat)))
    (fun n s => s.1.size = T * O ∧ s.2 = n ∧ ∀ r < T, ∀ o < O, s.1.val (r * O + o) = dest.val (r * O + o) +
        ∑ i ∈ range n, if indices.getD i 0 = (r : Int) then src.val (i * O + o) else 0)
    (dest, 0) ⟨hd, rfl, fun r hr o ho => by simp⟩
    (by
      rintro n hn ⟨b, m⟩ ⟨h1, h2, h3⟩
      simp only at h1 h2 h3
      subst h2
      have hget : indices.getD m 0 = indices[m] := by simp [List.getD_eq_getElem?_getD, hn]
      have hlt := hix _ (List.getElem_mem hn)
      by_cases hge : indices[m] ≥ 0
      · obtain ⟨w, hw⟩ := Int.eq_ofNat_of_zero_le hge
        simp only [if_pos hge]
        have hwT : w < T := by omega
        have hb1 : w * O + O ≤ T * O := by
          rw [← Nat.succ_mul]
          exact Nat.mul_le_mul_right O hwT
        have hb2 : m * O + O ≤ indices.length * O := by
          rw [← Nat.succ_mul]
          exact Nat.mul_le_mul_right O hn
        rw [hw, ← Int.natCast_mul, vecAdd_spec _ _ _ _ _ _ (by omega) (by omega)]
        refine ⟨_, rfl, h1, rfl, fun r hr o ho => ?_⟩
        simp only
        rw [Finset.sum_range_succ, ← add_assoc, ← h3 r hr o ho, hget, hw]
        have hiff := rowBlock_iff O w r o ho
        by_cases hrw : r = w
        · rw [if_pos (hiff.2 hrw), if_pos (by omega), one_mul, hrw, Nat.add_sub_cancel_left]
        · rw [if_neg (fun h => hrw (hiff.1 h)), if_neg (by omega), add_zero]
      · simp only [if_neg hge]
        refine ⟨_, rfl, h1, rfl, fun r hr o ho => ?_⟩
        simp only
        rw [Finset.sum_range_succ, hget, if_neg (by omega), add_zero]
        exact h3 r hr o ho)
  refine ⟨s.1, ?_, h4⟩
  unfold cpuScatterAdd
  rw [h1]
  rfl

/-- `add.at` without broadcasting; `npRow` is the row an index names. -/
theorem addAt_spec (table values : Mat K) (indices : List Int) (hr : values.rows = indices.length)
    (hc : values.cols = table.cols)
    (hix : ∀ i ∈ indices, -(table.rows : Int) ≤ i ∧ i < table.rows) :
    ∃ out, addAt table indices values = .ok out ∧ out.rows = table.rows ∧ out.cols = table.cols ∧
      ∀ r < table.rows, ∀ o < table.cols, out.at r o = table.at r o +
        ∑ i ∈ range indices.length,
          if indices.getD i 0 = (r : Int) ∨ indices.getD i 0 + table.rows = (r : Int) then values.at i o else 0 := by
  unfold addAt
  rw [if_neg (by rw [not_not]; exact ⟨.inl hr, .inl hc⟩), if_neg (by
    rw [not_not, List.all_eq_true]
    intro i hi
    exact decide_eq_true (hix i hi))]
  refine ⟨_, rfl, rfl, rfl, ?_⟩
  intro r hrT o ho
  -- the fold over a suffix of the indices
  have key : ∀ (xs : List Int) (n : Nat) (v : Nat → K), (∀ i ∈ xs, -(table.rows : Int) ≤ i ∧ i < table.rows) →
      n + xs.length = indices.length →
      ((xs.zipIdx n).foldl (fun v (p : Int × Nat) =>
        let row := (if p.1 < 0 then p.1 + table.rows else p.1).toNat
        let vr := if values.rows = 1 then 0 else p.2
        fun c => if row * table.cols ≤ c ∧ c < row * table.cols + table.cols then
            v c + values.at vr (if values.cols = 1 then 0 else c - row * table.cols)
          else v c) v) (r * table.cols + o) = v (r * table.cols + o) +
        ∑ i ∈ range xs.length, if xs.getD i 0 = (r : Int) ∨ xs.getD i 0 + table.rows = (r : Int) then
          values.at (n + i) o else 0 := by
    intro xs
    induction xs with
    | nil => intro n v _ _; simp
    | cons x xs ih =>
      intro n v hxs hn
      have hx := hxs x (by simp)
      rw [List.length_cons] at hn
      rw [List.zipIdx_cons, List.foldl_cons, ih _ _ (fun i hi => hxs i (by simp [hi])) (by omega),
        List.length_cons, Finset.sum_range_succ']
      simp only [List.getD_cons_zero, List.getD_cons_succ, Nat.add_zero]
      have hvr : (if values.rows = 1 then 0 else n) = n := by
        by_cases h1 : values.rows = 1
        · rw [if_pos h1]
          omega
        · rw [if_neg h1]
      have hvc : ∀ q, q < table.cols → (if values.cols = 1 then 0 else q) = q := by
        intro q hq
        by_cases h1 : values.cols = 1
        · rw [if_pos h1]
          omega
        · rw [if_neg h1]
      have e : ∀ i, n + 1 + i = n + (i + 1) := fun i => by omega
      simp only [hvr, e]
      obtain ⟨w, hw⟩ : ∃ w : Nat, (if x < 0 then x + table.rows else x).toNat = w := ⟨_, rfl⟩
      rw [hw]
      have hiff := rowBlock_iff table.cols w r o ho
      by_cases hrw : r = w
      · have hcond : x = (r : Int) ∨ x + table.rows = (r : Int) := by
          by_cases hneg : x < 0
          · rw [if_pos hneg] at hw
            omega
          · rw [if_neg hneg] at hw
            omega
        rw [if_pos (hiff.2 hrw), if_pos hcond, ← hrw, Nat.add_sub_cancel_left, hvc o ho, add_assoc,
          add_comm (values.at n o)]
      · have hcond : ¬ (x = (r : Int) ∨ x + table.rows = (r : Int)) := by
          by_cases hneg : x < 0
          · rw [if_pos hneg] at hw
            omega
          · rw [if_neg hneg] at hw
            omega
        rw [if_neg (fun h => hrw (hiff.1 h)), if_neg hcond, add_zero]
  have := key indices 0 table.val hix (by omega)
  simp only [Nat.zero_add] at this
  exact this

end Thinc
