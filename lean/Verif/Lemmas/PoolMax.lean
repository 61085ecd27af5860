import Verif.Lemmas.Pooling
import Mathlib.Order.Defs.LinearOrder
import Mathlib.Tactic.ByContra
import Mathlib.Tactic.Push
/-!
# Lemmas about max pooling
-/
namespace Thinc
open Spec
variable {K : Type} [LinearOrder K]

/-- The first largest among `f 0, …, f n`. -/
def argmaxTo (f : Nat → K) : Nat → Nat
  | 0 => 0
  | n + 1 => if f (n + 1) > f (argmaxTo f n) then n + 1 else argmaxTo f n

theorem argmaxTo_spec (f : Nat → K) (n : Nat) : firstMax f (n + 1) (argmaxTo f n) := by
  induction n with
  | zero =>
    refine ⟨by simp [argmaxTo], fun t ht => ?_, fun t ht => absurd ht (by simp [argmaxTo])⟩
    have : t = 0 := by omega
    subst this
    exact le_refl _
  | succ n ih =>
    obtain ⟨h1, h2, h3⟩ := ih
    unfold argmaxTo
    by_cases h : f (n + 1) > f (argmaxTo f n)
    · rw [if_pos h]
      refine ⟨by omega, fun t ht => ?_, fun t ht => ?_⟩
      · rcases Nat.lt_or_ge t (n + 1) with h4 | h4
        · exact le_trans (h2 t h4) (le_of_lt h)
        · rw [show t = n + 1 by omega]
      · exact lt_of_le_of_lt (h2 t ht) h
    · rw [if_neg h]
      refine ⟨by omega, fun t ht => ?_, h3⟩
      rcases Nat.lt_or_ge t (n + 1) with h4 | h4
      · exact h2 t h4
      · rw [show t = n + 1 by omega]
        exact not_lt.1 h

theorem argmaxTo_unique (f : Nat → K) (n w : Nat) (h : firstMax f (n + 1) w) : argmaxTo f n = w := by
  obtain ⟨h1, h2, h3⟩ := argmaxTo_spec f n
  obtain ⟨g1, g2, g3⟩ := h
  rcases Nat.lt_trichotomy (argmaxTo f n) w with h | h | h
  · exact absurd (g3 _ h) (not_lt.2 (h2 _ g1))
  · exact h
  · exact absurd (h3 _ h) (not_lt.2 (g2 _ h1))

/-- The column loop for one more row. -/
theorem max_cols (X maxes : Buf K) (which : Buf Int) (O p x i : Nat) (hp : p + O ≤ maxes.size)
    (hw : p + O ≤ which.size) (hx : x + O ≤ X.size) :
    forN O (maxes, which) (maxStep X (x : Int) (p : Int) i) =
    .ok (⟨maxes.size, fun k => if (p ≤ k ∧ k < p + O) ∧ X.val (x + (k - p)) > maxes.val k then
        X.val (x + (k - p)) else maxes.val k⟩,
      ⟨which.size, fun k => if (p ≤ k ∧ k < p + O) ∧ X.val (x + (k - p)) > maxes.val k then
        (i : Int) else which.val k⟩) := by
  have := forN_eq O (maxStep X (x : Int) (p : Int) i)
    (fun j => ((⟨maxes.size, fun k => if (p ≤ k ∧ k < p + j) ∧ X.val (x + (k - p)) > maxes.val k then
        X.val (x + (k - p)) else maxes.val k⟩ : Buf K),
      (⟨which.size, fun k => if (p ≤ k ∧ k < p + j) ∧ X.val (x + (k - p)) > maxes.val k then
        (i : Int) else which.val k⟩ : Buf Int))) (by
    intro j hj
    have h1 : ((x : Int) + (j : Int)) = ((x + j : Nat) : Int) := by push_cast; ring
    have h2 : ((p : Int) + (j : Int)) = ((p + j : Nat) : Int) := by push_cast; ring
    unfold maxStep
    simp only [h1, h2]
    rw [Buf.read_ok _ _ (by omega), Buf.read_ok _ _ (by simp only; omega)]
    simp only [bind, Except.bind, pure, Except.pure]
    have hval : (if (p ≤ p + j ∧ p + j < p + j) ∧ X.val (x + (p + j - p)) > maxes.val (p + j) then
        X.val (x + (p + j - p)) else maxes.val (p + j)) = maxes.val (p + j) := if_neg (by omega)
    by_cases hgt : X.val (x + j) > maxes.val (p + j)
    · rw [if_pos (by rw [hval]; exact hgt), Buf.write_ok _ _ _ (by simp only; omega)]
      simp only
      rw [Buf.write_ok _ _ _ (by simp only; omega)]
      simp only [Except.ok.injEq, Prod.mk.injEq, Buf.mk.injEq, true_and]
      constructor
      all_goals
        funext k
        by_cases hk : k = p + j
        · subst hk
          have h3 : p + j - p = j := by omega
          rw [if_pos rfl, if_pos (by rw [h3]; exact ⟨by omega, hgt⟩)]
          try rw [h3]
        · rw [if_neg hk]
          by_cases h3 : p ≤ k ∧ k < p + j
          · have h4 : p ≤ k ∧ k < p + (j + 1) := by omega
            simp only [h3, h4, true_and, and_self]
          · have h4 : ¬ (p ≤ k ∧ k < p + (j + 1)) := by omega
            simp only [h3, h4, false_and]
    · rw [if_neg (by rw [hval]; exact hgt)]
      simp only [Except.ok.injEq, Prod.mk.injEq, Buf.mk.injEq, true_and]
      constructor
      all_goals
        funext k
        by_cases hk : k = p + j
        · subst hk
          have h3 : p + j - p = j := by omega
          rw [if_neg (by omega), if_neg (by rw [h3]; exact fun h => hgt h.2)]
        · by_cases h3 : p ≤ k ∧ k < p + j
          · have h4 : p ≤ k ∧ k < p + (j + 1) := by omega
            simp only [h3, h4, true_and, and_self]
          · have h4 : ¬ (p ≤ k ∧ k < p + (j + 1)) := by omega
            simp only [h3, h4, false_and])
  beta_reduce at this
  have h0 : (⟨maxes.size, fun k => if (p ≤ k ∧ k < p + 0) ∧ X.val (x + (k - p)) > maxes.val k then
        X.val (x + (k - p)) else maxes.val k⟩ : Buf K) = maxes := by
    cases maxes
    simp only [Buf.mk.injEq, true_and]
    funext k
    rw [if_neg (by omega)]
  have h1 : (⟨which.size, fun k => if (p ≤ k ∧ k < p + 0) ∧ X.val (x + (k - p)) > maxes.val k then
        (i : Int) else which.val k⟩ : Buf Int) = which := by
    cases which
    simp only [Buf.mk.injEq, true_and]
    funext k
    rw [if_neg (by omega)]
  rw [h0, h1] at this
  exact this

/-- The row loop for one sequence of `n + 1` rows, after the first row has been copied. -/
theorem max_rows (X maxes : Buf K) (which : Buf Int) (O p x n : Nat) (hp : p + O ≤ maxes.size)
    (hw : p + O ≤ which.size) (hx : x + (n + 1) * O ≤ X.size)
    (hm0 : ∀ j < O, maxes.val (p + j) = X.val (x + j)) (hw0 : ∀ j < O, which.val (p + j) = 0) :
    forN n (maxes, which, (x : Int) + (O : Int)) (fun q k => do
      let (maxes, which) ← forN O (q.1, q.2.1) (maxStep X q.2.2 (p : Int) (k + 1))
      return (maxes, which, q.2.2 + (O : Int))) =
    .ok (⟨maxes.size, fun k => if p ≤ k ∧ k < p + O then
        X.val (x + argmaxTo (fun t => X.val (x + t * O + (k - p))) n * O + (k - p)) else maxes.val k⟩,
      ⟨which.size, fun k => if p ≤ k ∧ k < p + O then
        ((argmaxTo (fun t => X.val (x + t * O + (k - p))) n : Nat) : Int) else which.val k⟩,
      ((x + (n + 1) * O : Nat) : Int)) := by
  have := forN_eq n (fun (q : Buf K × Buf Int × Int) (k : Nat) => do
      let (maxes, which) ← forN O (q.1, q.2.1) (maxStep X q.2.2 (p : Int) (k + 1))
      return (maxes, which, q.2.2 + (O : Int)))
    (fun n => ((⟨maxes.size, fun k => if p ≤ k ∧ k < p + O then
        X.val (x + argmaxTo (fun t => X.val (x + t * O + (k - p))) n * O + (k - p)) else maxes.val k⟩ : Buf K),
      (⟨which.size, fun k => if p ≤ k ∧ k < p + O then
        ((argmaxTo (fun t => X.val (x + t * O + (k - p))) n : Nat) : Int) else which.val k⟩ : Buf Int),
      ((x + (n + 1) * O : Nat) : Int))) (by
    intro j hj
    have h1 : (j + 2) * O ≤ (n + 1) * O := Nat.mul_le_mul_right O (by omega)
    have h2 : (j + 2) * O = (j + 1) * O + O := by ring
    simp only
    rw [max_cols _ _ _ _ _ _ _ (by simp only; omega) (by simp only; omega) (by omega)]
    simp only [bind, Except.bind, pure, Except.pure, Except.ok.injEq, Prod.mk.injEq, Buf.mk.injEq,
      true_and]
    refine ⟨?_, ?_, by push_cast; ring⟩
    all_goals
      funext k
      by_cases hk : p ≤ k ∧ k < p + O
      · simp only [hk, and_self, true_and, if_true, argmaxTo]
        by_cases hg : X.val (x + (j + 1) * O + (k - p)) >
            X.val (x + argmaxTo (fun t => X.val (x + t * O + (k - p))) j * O + (k - p))
        · rw [if_pos hg, if_pos hg]
        · rw [if_neg hg, if_neg hg]
      · simp only [hk, false_and, if_false])
  beta_reduce at this
  have h0 : (⟨maxes.size, fun k => if p ≤ k ∧ k < p + O then
        X.val (x + argmaxTo (fun t => X.val (x + t * O + (k - p))) 0 * O + (k - p)) else maxes.val k⟩ : Buf K)
        = maxes := by
    obtain ⟨ms, mv⟩ := maxes
    simp only [Buf.mk.injEq, true_and]
    funext k
    by_cases hk : p ≤ k ∧ k < p + O
    · have := hm0 (k - p) (by omega)
      rw [show p + (k - p) = k by omega] at this
      simp only [if_pos hk, argmaxTo, Nat.zero_mul, Nat.add_zero]
      exact this.symm
    · rw [if_neg hk]
  have h1 : (⟨which.size, fun k => if p ≤ k ∧ k < p + O then
        ((argmaxTo (fun t => X.val (x + t * O + (k - p))) 0 : Nat) : Int) else which.val k⟩ : Buf Int)
        = which := by
    obtain ⟨ws, wv⟩ := which
    simp only [Buf.mk.injEq, true_and]
    funext k
    by_cases hk : p ≤ k ∧ k < p + O
    · have := hw0 (k - p) (by omega)
      rw [show p + (k - p) = k by omega] at this
      simp only [if_pos hk, argmaxTo]
      exact this.symm
    · rw [if_neg hk]
  rw [h0, h1, show ((x + (0 + 1) * O : Nat) : Int) = (x : Int) + (O : Int) by push_cast; ring] at this
  exact this

/-- The whole forward loop. -/
theorem max_loop (X maxes : Buf K) (which : Buf Int) (O T : Nat) (ls : List Nat)
    (hX : X.size = T * O) (hsum : ls.sum ≤ T) (hpos : ∀ l ∈ ls, 0 < l)
    (hm : ls.length * O ≤ maxes.size) (hw : ls.length * O ≤ which.size)
    (hzero : ∀ i, which.val i = 0) :
    ∃ s, forM' (asInts ls) ⟨maxes, which, 0, 0, T⟩ (reduceMaxStep X O) = .ok s ∧
      s.T = (T : Int) - ls.sum ∧
      ∀ b < ls.length, ∀ o < O, ∃ w : Nat,
        firstMax (fun t => X.val ((seqStart ls b + t) * O + o)) (seqLen ls b) w ∧
        s.maxes.val (b * O + o) = X.val ((seqStart ls b + w) * O + o) ∧
        s.which.val (b * O + o) = (w : Int) := by
  obtain ⟨s, h1, _, _, _, _, h2, _, h3⟩ := forM'_inv (asInts ls) (reduceMaxStep X O)
    (fun k s => s.maxes.size = maxes.size ∧ s.which.size = which.size ∧
      s.outPtr = ((k * O : Nat) : Int) ∧
      s.xPtr = ((seqStart ls k * O : Nat) : Int) ∧ s.T = (T : Int) - seqStart ls k ∧
      (∀ i, k * O ≤ i → s.which.val i = 0) ∧
      ∀ b < k, ∀ o < O, ∃ w : Nat,
        firstMax (fun t => X.val ((seqStart ls b + t) * O + o)) (seqLen ls b) w ∧
        s.maxes.val (b * O + o) = X.val ((seqStart ls b + w) * O + o) ∧
        s.which.val (b * O + o) = (w : Int))
    ⟨maxes, which, 0, 0, T⟩ (by
      refine ⟨rfl, rfl, by simp, by simp [seqStart], by simp [seqStart], fun i _ => hzero i, by omega⟩) (by
      intro k hk s hs
      obtain ⟨hs1, hs2, hs3, hs4, hs5, hs6, hs7⟩ := hs
      have hk' : k < ls.length := by simpa [asInts] using hk
      have hend := seqEnd_le ls k hk'
      have hlen : 0 < seqLen ls k := by
        have : seqLen ls k = ls[k] := by simp [seqLen, List.getD_eq_getElem?_getD, hk']
        rw [this]
        exact hpos _ (List.getElem_mem hk')
      have hkO : (k + 1) * O ≤ ls.length * O := Nat.mul_le_mul_right O hk'
      have hkO2 : (k + 1) * O = k * O + O := by ring
      have hTO : (seqStart ls k + seqLen ls k) * O ≤ T * O := Nat.mul_le_mul_right O (by omega)
      have hTO2 : (seqStart ls k + seqLen ls k) * O = seqStart ls k * O + seqLen ls k * O := by ring
      have hO1 : O ≤ seqLen ls k * O := Nat.le_mul_of_pos_left O hlen
      have hn : seqLen ls k - 1 + 1 = seqLen ls k := by omega
      rw [asInts_get]
      unfold reduceMaxStep
      rw [if_neg (by omega), if_neg (by omega), hs3, hs4, Int.toNat_natCast,
        memcpy_spec _ _ _ _ _ (by omega) (by omega)]
      simp only [bind, Except.bind, pure, Except.pure]
      have hrows := max_rows X
        ⟨s.maxes.size, fun i => if k * O ≤ i ∧ i < k * O + O then
          X.val (seqStart ls k * O + (i - k * O)) else s.maxes.val i⟩ s.which O (k * O)
        (seqStart ls k * O) (seqLen ls k - 1) (by simp only; omega) (by omega) (by rw [hn]; omega)
        (by
          intro j hj
          simp only
          rw [if_pos (by omega)]
          congr 2
          omega) (fun j _ => hs6 _ (by omega))
      simp only [bind, Except.bind, pure, Except.pure] at hrows
      rw [hrows]
      simp only [Except.ok.injEq, exists_eq_left', hn]
      refine ⟨hs1, hs2, by push_cast; ring, ?_, ?_, ?_, ?_⟩
      · rw [seqStart_succ ls k hk', hTO2]
      · rw [hs5, seqStart_succ ls k hk']
        push_cast
        ring
      · intro i hi
        rw [hkO2] at hi
        rw [if_neg (by omega), hs6 i (by omega)]
      · intro b hb o ho
        by_cases hbk : b = k
        · subst hbk
          rw [if_pos ((rowBlock_iff O b b o ho).2 rfl), if_pos ((rowBlock_iff O b b o ho).2 rfl)]
          have e : b * O + o - b * O = o := by omega
          rw [e]
          have e2 : ∀ t, seqStart ls b * O + t * O + o = (seqStart ls b + t) * O + o := fun t => by ring
          simp only [e2]
          refine ⟨_, ?_, rfl, rfl⟩
          have := argmaxTo_spec (fun t => X.val ((seqStart ls b + t) * O + o)) (seqLen ls b - 1)
          rw [hn] at this
          exact this
        · have hni := fun h => hbk ((rowBlock_iff O k b o ho).1 h)
          rw [if_neg hni, if_neg hni, if_neg hni]
          exact hs7 b (by omega) o ho)
  refine ⟨s, h1, by rw [h2, asInts_length]; simp [seqStart], fun b hb o ho => ?_⟩
  exact h3 b (by simpa [asInts] using hb) o ho

/-! ### Backward -/

omit [LinearOrder K] in
/-- One sequence of the backward kernel, with all indices non-negative: an IndexError exactly when
one of them is not below the length. -/
theorem backMax_cols (d dX : Buf K) (which : Buf Int) (O p x len : Nat) (hd : p + O ≤ d.size)
    (hw : p + O ≤ which.size) (hx : x + len * O ≤ dX.size)
    (hnn : ∀ o < O, 0 ≤ which.val (p + o)) :
    let r := forN O dX (fun dX i => do
      let item ← which.read ((p : Int) + (i : Nat))
      if item ≥ (len : Int) then .error .indexError
      else
        let g ← d.read ((p : Int) + (i : Nat))
        dX.write ((x : Int) + item * (O : Int) + (i : Nat)) g)
    ((∃ o < O, (len : Int) ≤ which.val (p + o)) ∧ r = .error .indexError) ∨
    ((∀ o < O, which.val (p + o) < (len : Int)) ∧ ∃ dX', r = .ok dX' ∧ dX'.size = dX.size ∧
      (∀ k, (k < x ∨ x + len * O ≤ k) → dX'.val k = dX.val k) ∧
      ∀ t < len, ∀ o < O, dX'.val (x + t * O + o) =
        if which.val (p + o) = (t : Int) then d.val (p + o) else dX.val (x + t * O + o)) := by
  intro r
  have key := forN_inv_or .indexError O (fun (dX : Buf K) (i : Nat) => do
      let item ← which.read ((p : Int) + (i : Nat))
      if item ≥ (len : Int) then .error .indexError
      else
        let g ← d.read ((p : Int) + (i : Nat))
        dX.write ((x : Int) + item * (O : Int) + (i : Nat)) g)
    (fun j dX' => (∀ o < j, which.val (p + o) < (len : Int)) ∧ dX'.size = dX.size ∧
      (∀ k, (k < x ∨ x + len * O ≤ k) → dX'.val k = dX.val k) ∧
      ∀ t < len, ∀ o < O, dX'.val (x + t * O + o) =
        if o < j ∧ which.val (p + o) = (t : Int) then d.val (p + o) else dX.val (x + t * O + o)) dX
    ⟨by omega, rfl, fun _ _ => rfl, fun t ht o ho => by rw [if_neg (by omega)]⟩ (by
    intro j hj dX' hP
    obtain ⟨h1, h2, h3, h4⟩ := hP
    have e1 : ((p : Int) + (j : Nat)) = ((p + j : Nat) : Int) := by push_cast; ring
    simp only [e1]
    rw [Buf.read_ok _ _ (by omega)]
    simp only [bind, Except.bind]
    by_cases hge : which.val (p + j) ≥ (len : Int)
    · left
      rw [if_pos hge]
    · right
      obtain ⟨w, hw'⟩ := Int.eq_ofNat_of_zero_le (hnn j hj)
      have hwl : w < len := by omega
      have hlt := rowMajor_lt hwl hj
      rw [if_neg hge, Buf.read_ok _ _ (by omega)]
      simp only
      have e2 : (x : Int) + which.val (p + j) * (O : Int) + (j : Nat) = ((x + (w * O + j) : Nat) : Int) := by
        rw [hw']
        push_cast
        ring
      rw [e2, Buf.write_ok _ _ _ (by omega)]
      refine ⟨_, rfl, ?_, h2, ?_, ?_⟩
      · intro o ho
        by_cases hoj : o = j
        · subst hoj
          omega
        · exact h1 o (by omega)
      · intro k hk
        simp only
        rw [if_neg (by omega), h3 k hk]
      · intro t ht o ho
        simp only
        by_cases hoj : o = j
        · subst hoj
          rw [h4 t ht o ho]
          by_cases htw : t = w
          · subst htw
            rw [if_pos (by omega), if_pos ⟨by omega, hw'⟩]
          · have hne : ¬ (x + t * O + o = x + (w * O + o)) := by
              intro h
              have h5 : t * O + o = w * O + o := by omega
              have := rowMajor_div O t o ho
              rw [h5, rowMajor_div O w o ho] at this
              omega
            rw [if_neg hne, if_neg (by omega), if_neg (by omega)]
        · have hne : ¬ (x + t * O + o = x + (w * O + j)) := by
            intro h
            have h5 : t * O + o = w * O + j := by omega
            have := rowMajor_mod O t o ho
            rw [h5, rowMajor_mod O w j hj] at this
            omega
          rw [if_neg hne, h4 t ht o ho]
          have e3 : (o < j ↔ o < j + 1) := by omega
          simp only [e3])
  rcases key with h | ⟨dX', h1, h2, h3, h4, h5⟩
  · left
    refine ⟨?_, h⟩
    by_contra hcon
    push Not at hcon
    -- without a large index the loop succeeds
    obtain ⟨s, hs, _⟩ := forN_inv O (fun (dX : Buf K) (i : Nat) => do
      let item ← which.read ((p : Int) + (i : Nat))
      if item ≥ (len : Int) then .error .indexError
      else
        let g ← d.read ((p : Int) + (i : Nat))
        dX.write ((x : Int) + item * (O : Int) + (i : Nat)) g) (fun _ s => s.size = dX.size) dX rfl (by
      intro j hj s hs
      have e1 : ((p : Int) + (j : Nat)) = ((p + j : Nat) : Int) := by push_cast; ring
      simp only [e1]
      rw [Buf.read_ok _ _ (by omega)]
      simp only [bind, Except.bind]
      have hlt := hcon j hj
      obtain ⟨w, hw'⟩ := Int.eq_ofNat_of_zero_le (hnn j hj)
      have hlt2 := rowMajor_lt (show w < len by omega) hj
      rw [if_neg (by omega), Buf.read_ok _ _ (by omega)]
      have e2 : (x : Int) + which.val (p + j) * (O : Int) + (j : Nat) = ((x + (w * O + j) : Nat) : Int) := by
        rw [hw']
        push_cast
        ring
      simp only
      rw [e2, Buf.write_ok _ _ _ (by omega)]
      exact ⟨_, rfl, hs⟩)
    rw [h] at hs
    exact absurd hs (by simp)
  · right
    refine ⟨h2, dX', h1, h3, h4, fun t ht o ho => ?_⟩
    rw [h5 t ht o ho]
    simp only [ho, true_and]

theorem seqStart_mono (ls : List Nat) (b k : Nat) (hbk : b < k) (hk : b < ls.length) :
    seqStart ls b + seqLen ls b ≤ seqStart ls k := by
  rw [← seqStart_succ ls b hk]
  have h7 := seqStart_le (ls.take k) (b + 1)
  simpa [seqStart, List.take_take, Nat.min_eq_left (show b + 1 ≤ k by omega)] using h7

omit [LinearOrder K] in
/-- The backward loop, with all indices non-negative. -/
theorem backMax_loop [Zero K] (d dX : Buf K) (which : Buf Int) (O : Nat) (ls : List Nat)
    (hd : d.size = ls.length * O) (hw : which.size = ls.length * O) (hdX : dX.size = ls.sum * O)
    (hzero : ∀ i, dX.val i = 0) (hnn : ∀ b < ls.length, ∀ o < O, 0 ≤ which.val (b * O + o)) :
    let r := forM' (asInts ls) (dX, 0, 0) (backMaxStep d which O)
    ((∃ b < ls.length, ∃ o < O, (seqLen ls b : Int) ≤ which.val (b * O + o)) ∧ r = .error .indexError) ∨
    ((∀ b < ls.length, ∀ o < O, which.val (b * O + o) < (seqLen ls b : Int)) ∧
      ∃ s, r = .ok s ∧ ∀ b < ls.length, ∀ t < seqLen ls b, ∀ o < O,
        s.1.val ((seqStart ls b + t) * O + o) =
          if which.val (b * O + o) = (t : Int) then d.val (b * O + o) else 0) := by
  intro r
  have hstep : ∀ k (hk : k < ls.length) (s : Buf K × Int × Int), s.1.size = ls.sum * O →
      s.2.1 = ((seqStart ls k * O : Nat) : Int) → s.2.2 = ((k * O : Nat) : Int) →
      ((∃ o < O, (seqLen ls k : Int) ≤ which.val (k * O + o)) ∧
        backMaxStep d which O s ((seqLen ls k : Nat) : Int) = .error .indexError) ∨
      ((∀ o < O, which.val (k * O + o) < (seqLen ls k : Int)) ∧
        ∃ dX', backMaxStep d which O s ((seqLen ls k : Nat) : Int) =
          .ok (dX', ((seqStart ls (k + 1) * O : Nat) : Int), (((k + 1) * O : Nat) : Int)) ∧
        dX'.size = ls.sum * O ∧
        (∀ i, (i < seqStart ls k * O ∨ seqStart ls (k + 1) * O ≤ i) → dX'.val i = s.1.val i) ∧
        ∀ t < seqLen ls k, ∀ o < O, dX'.val (seqStart ls k * O + t * O + o) =
          if which.val (k * O + o) = (t : Int) then d.val (k * O + o)
          else s.1.val (seqStart ls k * O + t * O + o)) := by
    intro k hk s hs1 hs2 hs3
    have hend := seqEnd_le ls k hk
    have hkO : (k + 1) * O ≤ ls.length * O := Nat.mul_le_mul_right O hk
    have hkO2 : (k + 1) * O = k * O + O := by ring
    have hTO : (seqStart ls k + seqLen ls k) * O ≤ ls.sum * O := Nat.mul_le_mul_right O hend
    have hTO2 : (seqStart ls k + seqLen ls k) * O = seqStart ls k * O + seqLen ls k * O := by ring
    have hcols := backMax_cols d s.1 which O (k * O) (seqStart ls k * O) (seqLen ls k) (by omega)
      (by omega) (by omega) (hnn k hk)
    simp only at hcols
    rcases hcols with ⟨h1, h2⟩ | ⟨h1, dX', h2, h3, h4, h5⟩
    · left
      refine ⟨h1, ?_⟩
      unfold backMaxStep
      rw [hs2, hs3, h2]
      rfl
    · right
      refine ⟨h1, dX', ?_, by omega, ?_, h5⟩
      · unfold backMaxStep
        rw [hs2, hs3, h2, seqStart_succ ls k hk, hTO2, hkO2]
        simp only [bind, Except.bind, pure, Except.pure]
        push_cast
        rfl
      · rw [seqStart_succ ls k hk, hTO2]
        exact h4
  have key := forM'_inv_or .indexError (asInts ls) (backMaxStep d which O)
    (fun k s => s.1.size = ls.sum * O ∧ s.2.1 = ((seqStart ls k * O : Nat) : Int) ∧
      s.2.2 = ((k * O : Nat) : Int) ∧ (∀ i, seqStart ls k * O ≤ i → s.1.val i = 0) ∧
      (∀ b < k, ∀ o < O, which.val (b * O + o) < (seqLen ls b : Int)) ∧
      ∀ b < k, ∀ t < seqLen ls b, ∀ o < O,
        s.1.val ((seqStart ls b + t) * O + o) =
          if which.val (b * O + o) = (t : Int) then d.val (b * O + o) else 0)
    (dX, 0, 0) ⟨hdX, by simp [seqStart], by simp, fun i _ => hzero i, by omega, by omega⟩ (by
      intro k hk s hs
      obtain ⟨hs1, hs2, hs3, hs4, hs5, hs6⟩ := hs
      have hk' : k < ls.length := by simpa [asInts] using hk
      rw [asInts_get]
      rcases hstep k hk' s hs1 hs2 hs3 with ⟨_, h⟩ | ⟨h1, dX', h2, h3, h4, h5⟩
      · exact .inl h
      · right
        refine ⟨_, h2, h3, rfl, rfl, ?_, ?_, ?_⟩
        · intro i hi
          simp only
          rw [h4 i (.inr hi), hs4 i]
          have := Nat.mul_le_mul_right O (show seqStart ls k ≤ seqStart ls (k + 1) by
            rw [seqStart_succ ls k hk']
            omega)
          omega
        · intro b hb o ho
          by_cases hbk : b = k
          · subst hbk
            exact h1 o ho
          · exact hs5 b (by omega) o ho
        · intro b hb t ht o ho
          simp only
          by_cases hbk : b = k
          · subst hbk
            have e : (seqStart ls b + t) * O + o = seqStart ls b * O + t * O + o := by ring
            rw [e, h5 t ht o ho, hs4 _ (by omega)]
          · have hm := seqStart_mono ls b k (by omega) (by omega)
            have hlt : (seqStart ls b + t) * O + o < seqStart ls k * O := rowMajor_lt (by omega) ho
            rw [h4 _ (.inl hlt), hs6 b (by omega) t ht o ho])
  rcases key with h | ⟨s, h1, h2⟩
  · left
    refine ⟨?_, h⟩
    by_contra hcon
    push Not at hcon
    obtain ⟨s, hs, _⟩ := forM'_inv (asInts ls) (backMaxStep d which O)
      (fun k s => s.1.size = ls.sum * O ∧ s.2.1 = ((seqStart ls k * O : Nat) : Int) ∧
      s.2.2 = ((k * O : Nat) : Int)) (dX, 0, 0) ⟨hdX, by simp [seqStart], by simp⟩ (by
      intro k hk s hs
      obtain ⟨hs1, hs2, hs3⟩ := hs
      have hk' : k < ls.length := by simpa [asInts] using hk
      rw [asInts_get]
      rcases hstep k hk' s hs1 hs2 hs3 with ⟨⟨o, ho, hbad⟩, _⟩ | ⟨_, dX', h2, h3, _⟩
      · have := hcon k hk' o ho
        omega
      · exact ⟨_, h2, h3, rfl, rfl⟩)
    rw [h] at hs
    exact absurd hs (by simp)
  · right
    obtain ⟨_, _, _, _, h5, h6⟩ := h2
    rw [asInts_length] at h5 h6
    exact ⟨h5, s, h1, h6⟩

theorem sumPosLengths_ok (ls : List Nat) (hpos : ∀ l ∈ ls, 0 < l) :
    sumPosLengths (asInts ls) = .ok (ls.sum : Int) := by
  have : ∀ (a : Int), forM' (asInts ls) a (fun T length =>
      if length ≤ 0 then Except.error PyErr.valueError else .ok (T + length)) = .ok (a + ls.sum) := by
    induction ls with
    | nil => intro a; simp [asInts, forM']
    | cons l ls ih =>
      intro a
      have h0 := hpos l (by simp)
      have h1 : ¬ ((Int.ofNat l) ≤ 0) := by simp only [Int.ofNat_eq_natCast]; omega
      simp only [asInts, List.map_cons, forM', if_neg h1]
      have := ih (fun l hl => hpos l (by simp [hl])) (a + Int.ofNat l)
      simp only [asInts] at this
      rw [this]
      simp only [Int.ofNat_eq_natCast, List.sum_cons]
      push_cast
      congr 1
      ring
  have h := this 0
  simpa [sumPosLengths] using h

theorem sumPosLengths_bad (ls : List Int) (h : ∃ l ∈ ls, l ≤ 0) :
    sumPosLengths ls = .error .valueError := by
  suffices ∀ a : Int, forM' ls a (fun T length =>
      if length ≤ 0 then Except.error PyErr.valueError else .ok (T + length)) = .error .valueError from this 0
  induction ls with
  | nil => simp at h
  | cons l ls ih =>
    intro a
    simp only [forM']
    by_cases hl : l ≤ 0
    · rw [if_pos hl]
    · rw [if_neg hl]
      refine ih ?_ _
      obtain ⟨l', hl', h2⟩ := h
      rcases List.mem_cons.1 hl' with h3 | h3
      · subst h3
        exact absurd h2 hl
      · exact ⟨l', h3, h2⟩

end Thinc
