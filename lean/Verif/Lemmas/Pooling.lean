import Verif.Model.Pooling
import Verif.Lemmas.CMem
import Verif.Spec.Segments
import Mathlib.Tactic.FieldSimp
/-!
# Lemmas about the pooling kernels
-/
namespace Thinc
open Finset Spec
variable {K : Type}

theorem asInts_length (ls : List Nat) : (asInts ls).length = ls.length := by simp [asInts]

theorem asInts_get (ls : List Nat) (k : Nat) (hk : k < (asInts ls).length) :
    (asInts ls)[k] = ((seqLen ls k : Nat) : Int) := by
  have hk' : k < ls.length := by simpa [asInts] using hk
  simp [asInts, seqLen, hk', List.getD_eq_getElem?_getD]

theorem seqStart_succ (ls : List Nat) (k : Nat) (hk : k < ls.length) :
    seqStart ls (k + 1) = seqStart ls k + seqLen ls k := by
  simp only [seqStart, seqLen, List.take_add_one, List.getElem?_eq_getElem hk, Option.toList_some,
    List.sum_append, List.sum_cons, List.sum_nil, List.getD_eq_getElem?_getD, Option.getD_some,
    Nat.add_zero]

theorem seqStart_le (ls : List Nat) (k : Nat) : seqStart ls k ≤ ls.sum := by
  have h := List.sum_append (l₁ := ls.take k) (l₂ := ls.drop k)
  rw [List.take_append_drop] at h
  simp only [seqStart]
  omega

theorem seqEnd_le (ls : List Nat) (k : Nat) (hk : k < ls.length) :
    seqStart ls k + seqLen ls k ≤ ls.sum := by
  rw [← seqStart_succ ls k hk]
  exact seqStart_le ls (k + 1)

section
variable [Field K]

/-- The inner loop of the forward kernels: add `n` consecutive rows of `X` to one output row. -/
theorem reduce_inner (scale : K) (X out : Buf K) (O n p x : Nat) (hp : p + O ≤ out.size)
    (hx : x + n * O ≤ X.size) :
    forN n (out, (x : Int)) (fun (q : Buf K × Int) _ => do
      let out ← vecAdd q.1 (p : Int) X q.2 scale O
      return (out, q.2 + (O : Int))) =
    .ok (⟨out.size, fun i => if p ≤ i ∧ i < p + O then
        out.val i + ∑ t ∈ range n, scale * X.val (x + t * O + (i - p)) else out.val i⟩,
      ((x + n * O : Nat) : Int)) := by
  have := forN_eq n (fun (q : Buf K × Int) (_ : Nat) => do
      let out ← vecAdd q.1 (p : Int) X q.2 scale O
      return (out, q.2 + (O : Int)))
    (fun j => (⟨out.size, fun i => if p ≤ i ∧ i < p + O then
        out.val i + ∑ t ∈ range j, scale * X.val (x + t * O + (i - p)) else out.val i⟩,
      ((x + j * O : Nat) : Int))) (by
    intro j hj
    have h1 : (j + 1) * O ≤ n * O := Nat.mul_le_mul_right O hj
    have h2 : (j + 1) * O = j * O + O := by ring
    simp only
    rw [vecAdd_spec _ _ _ _ _ _ (by simpa using hp) (by omega)]
    simp only [bind, Except.bind, pure, Except.pure, Except.ok.injEq, Prod.mk.injEq, Buf.mk.injEq,
      true_and]
    constructor
    · funext i
      by_cases hi : p ≤ i ∧ i < p + O
      · simp only [if_pos hi, Finset.sum_range_succ, add_assoc]
      · simp only [if_neg hi]
    · push_cast
      ring)
  have h0 : (⟨out.size, fun i => if p ≤ i ∧ i < p + O then
      out.val i + ∑ t ∈ range 0, scale * X.val (x + t * O + (i - p)) else out.val i⟩ : Buf K) = out := by
    cases out
    simp
  beta_reduce at this
  rw [h0] at this
  simp only [Nat.zero_mul, Nat.add_zero] at this
  exact this

/-- The forward loop on non-negative lengths. -/
theorem reduce_loop (scale : Int → K) (X out : Buf K) (O T : Nat) (ls : List Nat)
    (hX : X.size = T * O) (hsum : ls.sum ≤ T) (hout : ls.length * O ≤ out.size)
    (hzero : ∀ i, out.val i = 0) :
    ∃ s, forM' (asInts ls) ⟨out, 0, 0, T⟩ (reduceStep scale X O) = .ok s ∧
      s.out.size = out.size ∧ s.T = (T : Int) - ls.sum ∧
      ∀ b < ls.length, ∀ o < O, s.out.val (b * O + o) =
        ∑ t ∈ range (seqLen ls b), scale (seqLen ls b) * X.val ((seqStart ls b + t) * O + o) := by
  obtain ⟨s, h1, h2, _, _, h4, h3⟩ := forM'_inv (asInts ls) (reduceStep scale X O)
    (fun k s => s.out.size = out.size ∧ s.outPtr = ((k * O : Nat) : Int) ∧
      s.xPtr = ((seqStart ls k * O : Nat) : Int) ∧ s.T = (T : Int) - seqStart ls k ∧
      ∀ b < ls.length, ∀ o < O, s.out.val (b * O + o) = if b < k then
        ∑ t ∈ range (seqLen ls b), scale (seqLen ls b) * X.val ((seqStart ls b + t) * O + o) else 0)
    ⟨out, 0, 0, T⟩ (by
      refine ⟨rfl, by simp, by simp [seqStart], by simp [seqStart], ?_⟩
      intro b _ o _
      simp [hzero]) (by
      intro k hk s hs
      obtain ⟨hs1, hs2, hs3, hs4, hs5⟩ := hs
      have hk' : k < ls.length := by simpa [asInts] using hk
      have hend := seqEnd_le ls k hk'
      have hkO : (k + 1) * O ≤ ls.length * O := Nat.mul_le_mul_right O hk'
      have hkO2 : (k + 1) * O = k * O + O := by ring
      have hTO : (seqStart ls k + seqLen ls k) * O ≤ T * O := Nat.mul_le_mul_right O (by omega)
      have hTO2 : (seqStart ls k + seqLen ls k) * O = seqStart ls k * O + seqLen ls k * O := by ring
      rw [asInts_get]
      unfold reduceStep
      rw [if_neg (by omega), if_neg (by omega), hs2, hs3, Int.toNat_natCast,
        reduce_inner _ _ _ _ _ _ _ (by omega) (by omega)]
      simp only [bind, Except.bind, pure, Except.pure, Except.ok.injEq, exists_eq_left']
      refine ⟨hs1, by push_cast; ring, ?_, ?_, ?_⟩
      · rw [seqStart_succ ls k hk']
        push_cast
        ring
      · rw [hs4, seqStart_succ ls k hk']
        push_cast
        ring
      · intro b hb o ho
        rw [hs5 b hb o ho]
        by_cases hbk : b = k
        · subst hbk
          rw [if_pos ((rowBlock_iff O b b o ho).2 rfl), if_neg (by omega), if_pos (by omega), zero_add]
          refine Finset.sum_congr rfl fun t _ => ?_
          congr 2
          have : b * O + o - b * O = o := by omega
          rw [this]
          ring
        · rw [if_neg (fun h => hbk ((rowBlock_iff O k b o ho).1 h))]
          by_cases hlt : b < k
          · rw [if_pos hlt, if_pos (by omega)]
          · rw [if_neg hlt, if_neg (by omega)])
  refine ⟨s, h1, h2, by rw [h4, asInts_length]; simp [seqStart], ?_⟩
  intro b hb o ho
  rw [h3 b hb o ho, if_pos (by simpa [asInts] using hb)]

/-- The inner loop of the backward kernels: add one gradient row to `n` consecutive rows. -/
theorem backReduce_inner (scale : K) (d dX : Buf K) (O n p x : Nat) (hp : p + O ≤ d.size)
    (hx : x + n * O ≤ dX.size) :
    forN n (dX, (x : Int)) (fun (q : Buf K × Int) _ => do
      let dX ← vecAdd q.1 q.2 d (p : Int) scale O
      return (dX, q.2 + (O : Int))) =
    .ok (⟨dX.size, fun i => if x ≤ i ∧ i < x + n * O then
        dX.val i + scale * d.val (p + (i - x) % O) else dX.val i⟩,
      ((x + n * O : Nat) : Int)) := by
  have := forN_eq n (fun (q : Buf K × Int) (_ : Nat) => do
      let dX ← vecAdd q.1 q.2 d (p : Int) scale O
      return (dX, q.2 + (O : Int)))
    (fun j => (⟨dX.size, fun i => if x ≤ i ∧ i < x + j * O then
        dX.val i + scale * d.val (p + (i - x) % O) else dX.val i⟩,
      ((x + j * O : Nat) : Int))) (by
    intro j hj
    have h1 : (j + 1) * O ≤ n * O := Nat.mul_le_mul_right O hj
    have h2 : (j + 1) * O = j * O + O := by ring
    simp only
    rw [vecAdd_spec _ _ _ _ _ _ (by simp only; omega) (by omega)]
    simp only [bind, Except.bind, pure, Except.pure, Except.ok.injEq, Prod.mk.injEq, Buf.mk.injEq,
      true_and]
    constructor
    · funext i
      by_cases hi : x + j * O ≤ i ∧ i < x + j * O + O
      · rw [if_pos hi, if_neg (by omega), if_pos (by omega)]
        have h3 : (i - x) % O = i - (x + j * O) := by
          have h4 : i - x = j * O + (i - (x + j * O)) := by omega
          rw [h4, rowMajor_mod O j _ (by omega)]
        rw [h3]
      · rw [if_neg hi]
        by_cases h3 : x ≤ i ∧ i < x + j * O
        · rw [if_pos h3, if_pos (by omega)]
        · rw [if_neg h3, if_neg (by omega)]
    · push_cast
      ring)
  have h0 : (⟨dX.size, fun i => if x ≤ i ∧ i < x + 0 * O then
      dX.val i + scale * d.val (p + (i - x) % O) else dX.val i⟩ : Buf K) = dX := by
    cases dX
    simp only [Buf.mk.injEq, true_and]
    funext i
    rw [if_neg (by omega)]
  beta_reduce at this
  rw [h0] at this
  simp only [Nat.zero_mul, Nat.add_zero] at this
  exact this

/-- The backward loop. -/
theorem backReduce_loop (scale : Int → K) (d dX : Buf K) (O : Nat) (ls : List Nat)
    (hd : d.size = ls.length * O) (hdX : dX.size = ls.sum * O) (hzero : ∀ i, dX.val i = 0) :
    ∃ s, forM' (asInts ls) (dX, 0, 0) (backReduceStep scale d O) = .ok s ∧
      s.1.size = ls.sum * O ∧ ∀ b < ls.length, ∀ t < seqLen ls b, ∀ o < O,
        s.1.val ((seqStart ls b + t) * O + o) = scale (seqLen ls b) * d.val (b * O + o) := by
  obtain ⟨s, h1, h2, _, _, _, h3⟩ := forM'_inv (asInts ls) (backReduceStep scale d O)
    (fun k s => s.1.size = ls.sum * O ∧ s.2.1 = ((seqStart ls k * O : Nat) : Int) ∧
      s.2.2 = ((k * O : Nat) : Int) ∧ (∀ i, seqStart ls k * O ≤ i → s.1.val i = 0) ∧
      ∀ b < k, ∀ t < seqLen ls b, ∀ o < O,
        s.1.val ((seqStart ls b + t) * O + o) = scale (seqLen ls b) * d.val (b * O + o))
    (dX, 0, 0) (by
      refine ⟨hdX, by simp [seqStart], by simp, fun i _ => hzero i, by omega⟩) (by
      intro k hk s hs
      obtain ⟨hs1, hs2, hs3, hs4, hs5⟩ := hs
      have hk' : k < ls.length := by simpa [asInts] using hk
      have hend := seqEnd_le ls k hk'
      have hkO : (k + 1) * O ≤ ls.length * O := Nat.mul_le_mul_right O hk'
      have hkO2 : (k + 1) * O = k * O + O := by ring
      have hTO : (seqStart ls k + seqLen ls k) * O ≤ ls.sum * O := Nat.mul_le_mul_right O hend
      have hTO2 : (seqStart ls k + seqLen ls k) * O = seqStart ls k * O + seqLen ls k * O := by ring
      rw [asInts_get]
      unfold backReduceStep
      rw [hs2, hs3, Int.toNat_natCast, backReduce_inner _ _ _ _ _ _ _ (by omega) (by omega)]
      simp only [bind, Except.bind, pure, Except.pure, Except.ok.injEq, exists_eq_left']
      refine ⟨hs1, ?_, by push_cast; ring, ?_, ?_⟩
      · rw [seqStart_succ ls k hk', hTO2]
      · intro i hi
        rw [seqStart_succ ls k hk', hTO2] at hi
        rw [if_neg (by omega), hs4 i (by omega)]
      · intro b hb t ht o ho
        by_cases hbk : b = k
        · subst hbk
          have h4 := rowMajor_lt ht ho
          have h5 : (seqStart ls b + t) * O + o = seqStart ls b * O + (t * O + o) := by ring
          rw [if_pos (by omega), hs4 _ (by omega), zero_add, h5]
          congr 3
          have h6 : seqStart ls b * O + (t * O + o) - seqStart ls b * O = t * O + o := by omega
          rw [h6, rowMajor_mod O t o ho]
        · have h4 : seqStart ls b + seqLen ls b ≤ seqStart ls k := by
            have hb' : b < ls.length := by omega
            rw [← seqStart_succ ls b hb']
            have hle : b + 1 ≤ k := by omega
            have h7 := seqStart_le (ls.take k) (b + 1)
            simpa [seqStart, List.take_take, Nat.min_eq_left hle] using h7
          have h5 : (seqStart ls b + t) * O + o < seqStart ls k * O := rowMajor_lt (by omega) ho
          rw [if_neg (by omega), hs5 b (by omega) t ht o ho])
  exact ⟨s, h1, h2, fun b hb t ht o ho => h3 b (by simpa [asInts] using hb) t ht o ho⟩

end

theorem sumLengths_ok (ls : List Nat) : sumLengths (asInts ls) = .ok (ls.sum : Int) := by
  have : ∀ (a : Int), forM' (asInts ls) a (fun T length =>
      if length < 0 then Except.error PyErr.valueError else .ok (T + length)) = .ok (a + ls.sum) := by
    induction ls with
    | nil => intro a; simp [asInts, forM']
    | cons l ls ih =>
      intro a
      have h1 : ¬ ((Int.ofNat l) < 0) := by simp
      simp only [asInts, List.map_cons, forM', if_neg h1]
      have := ih (a + Int.ofNat l)
      simp only [asInts] at this
      rw [this]
      simp only [Int.ofNat_eq_natCast, List.sum_cons]
      push_cast
      congr 1
      ring
  have h := this 0
  simpa [sumLengths] using h

end Thinc
