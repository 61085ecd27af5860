import Verif.Model.CMem
import Mathlib.Tactic.Ring
import Mathlib.Algebra.BigOperators.Group.Finset.Basic
import Mathlib.Algebra.BigOperators.Intervals
/-!
# Lemmas about loops and buffers
-/
namespace Thinc
variable {α σ β : Type}

theorem forM'_append {ε : Type} (f : σ → β → Except ε σ) (xs ys : List β) (s : σ) :
    forM' (xs ++ ys) s f = match forM' xs s f with
      | .ok s' => forM' ys s' f
      | .error e => .error e := by
  induction xs generalizing s with
  | nil => simp [forM']
  | cons x xs ih =>
    simp only [List.cons_append, forM']
    cases f s x with
    | ok s' => simp only [ih]
    | error e => rfl

/-- Invariant rule for a loop over a list: `P k` holds after `k` items. -/
theorem forM'_inv {ε : Type} (xs : List β) (f : σ → β → Except ε σ) (P : Nat → σ → Prop) (s : σ)
    (h0 : P 0 s)
    (hstep : ∀ k (hk : k < xs.length) s, P k s → ∃ s', f s xs[k] = .ok s' ∧ P (k + 1) s') :
    ∃ s', forM' xs s f = .ok s' ∧ P xs.length s' := by
  induction xs generalizing s P with
  | nil => exact ⟨s, rfl, h0⟩
  | cons x xs ih =>
    obtain ⟨s1, h1, h2⟩ := hstep 0 (by simp) s h0
    obtain ⟨s2, h3, h4⟩ := ih (fun k => P (k + 1)) s1 h2 (fun k hk s hs => by
      have := hstep (k + 1) (by simpa using hk) s hs
      simpa using this)
    refine ⟨s2, ?_, h4⟩
    simp only [List.getElem_cons_zero] at h1
    simp only [forM', h1, h3]

/-- Invariant rule for a loop that may stop with the error `e`. -/
theorem forM'_inv_or {ε : Type} (e : ε) (xs : List β) (f : σ → β → Except ε σ) (P : Nat → σ → Prop)
    (s : σ) (h0 : P 0 s)
    (hstep : ∀ k (hk : k < xs.length) s, P k s →
      f s xs[k] = .error e ∨ ∃ s', f s xs[k] = .ok s' ∧ P (k + 1) s') :
    forM' xs s f = .error e ∨ ∃ s', forM' xs s f = .ok s' ∧ P xs.length s' := by
  induction xs generalizing s P with
  | nil => exact .inr ⟨s, rfl, h0⟩
  | cons x xs ih =>
    rcases hstep 0 (by simp) s h0 with h1 | ⟨s1, h1, h2⟩
    · simp only [List.getElem_cons_zero] at h1
      exact .inl (by simp only [forM', h1])
    · simp only [List.getElem_cons_zero] at h1
      simp only [forM', h1]
      exact ih (fun k => P (k + 1)) s1 h2 (fun k hk s hs => by
        have := hstep (k + 1) (by simpa using hk) s hs
        simpa using this)

/-- Invariant rule for a counting loop that may stop with the error `e`. -/
theorem forN_inv_or (e : PyErr) (n : Nat) (f : σ → Nat → Except PyErr σ) (P : Nat → σ → Prop) (s : σ)
    (h0 : P 0 s) (hstep : ∀ k, k < n → ∀ s, P k s →
      f s k = .error e ∨ ∃ s', f s k = .ok s' ∧ P (k + 1) s') :
    forN n s f = .error e ∨ ∃ s', forN n s f = .ok s' ∧ P n s' := by
  have := forM'_inv_or e (List.range n) f P s h0 (fun k hk s hs => by
    have hk' : k < n := by simpa using hk
    simpa using hstep k hk' s hs)
  simpa [forN] using this

/-- Invariant rule for a counting loop. -/
theorem forN_inv (n : Nat) (f : σ → Nat → Except PyErr σ) (P : Nat → σ → Prop) (s : σ)
    (h0 : P 0 s) (hstep : ∀ k, k < n → ∀ s, P k s → ∃ s', f s k = .ok s' ∧ P (k + 1) s') :
    ∃ s', forN n s f = .ok s' ∧ P n s' := by
  have := forM'_inv (List.range n) f P s h0 (fun k hk s hs => by
    have hk' : k < n := by simpa using hk
    simpa using hstep k hk' s hs)
  simpa [forN] using this

/-- A counting loop whose iterations all succeed computes the fold. -/
theorem forN_eq (n : Nat) (f : σ → Nat → Except PyErr σ) (g : Nat → σ)
    (hstep : ∀ k, k < n → f (g k) k = .ok (g (k + 1))) : forN n (g 0) f = .ok (g n) := by
  obtain ⟨s, h1, h2⟩ := forN_inv n f (fun k s => s = g k) (g 0) rfl
    (fun k hk s hs => ⟨g (k + 1), by rw [hs]; exact hstep k hk, rfl⟩)
  rw [h1, h2]

theorem Buf.read_ok (b : Buf α) (i : Nat) (h : i < b.size) : b.read (i : Int) = .ok (b.val i) := by
  have h1 : (0 : Int) ≤ (i : Int) ∧ (i : Int) < (b.size : Int) := by omega
  simp only [Buf.read, if_pos h1, Int.toNat_natCast]

theorem Buf.write_ok (b : Buf α) (i : Nat) (x : α) (h : i < b.size) :
    b.write (i : Int) x = .ok ⟨b.size, fun k => if k = i then x else b.val k⟩ := by
  have h1 : (0 : Int) ≤ (i : Int) ∧ (i : Int) < (b.size : Int) := by omega
  simp only [Buf.write, if_pos h1, Int.toNat_natCast]

theorem vecAdd_spec [Add α] [Mul α] (X Y : Buf α) (xo yo : Nat) (scale : α) (n : Nat)
    (hx : xo + n ≤ X.size) (hy : yo + n ≤ Y.size) :
    vecAdd X xo Y yo scale n = .ok ⟨X.size, fun k =>
      if xo ≤ k ∧ k < xo + n then X.val k + scale * Y.val (yo + (k - xo)) else X.val k⟩ := by
  have := forN_eq n (fun (X : Buf α) i => do
      let x ← X.read ((xo : Int) + (i : Nat))
      let y ← Y.read ((yo : Int) + (i : Nat))
      X.write ((xo : Int) + (i : Nat)) (x + scale * y))
    (fun j => ⟨X.size, fun k =>
      if xo ≤ k ∧ k < xo + j then X.val k + scale * Y.val (yo + (k - xo)) else X.val k⟩) (by
    intro j hj
    have h1 : ((xo : Int) + (j : Int)) = ((xo + j : Nat) : Int) := by push_cast; ring
    have h2 : ((yo : Int) + (j : Int)) = ((yo + j : Nat) : Int) := by push_cast; ring
    simp only [h1, h2]
    rw [Buf.read_ok _ _ (by simp only; omega), Buf.read_ok _ _ (by omega)]
    simp only [bind, Except.bind]
    rw [Buf.write_ok _ _ _ (by simp only; omega)]
    simp only [Except.ok.injEq, Buf.mk.injEq, true_and]
    funext k
    by_cases hk : k = xo + j
    · subst hk
      simp
    · rw [if_neg hk]
      by_cases h3 : xo ≤ k ∧ k < xo + j
      · rw [if_pos h3, if_pos (by omega)]
      · rw [if_neg h3, if_neg (by omega)])
  have h0 : (⟨X.size, fun k => if xo ≤ k ∧ k < xo + 0 then X.val k + scale * Y.val (yo + (k - xo))
      else X.val k⟩ : Buf α) = X := by
    cases X
    simp only [Nat.add_zero, Buf.mk.injEq, true_and]
    funext k
    rw [if_neg (by omega)]
  simp only [h0] at this
  exact this

theorem memcpy_spec (X Y : Buf α) (xo yo : Nat) (n : Nat)
    (hx : xo + n ≤ X.size) (hy : yo + n ≤ Y.size) :
    memcpy X xo Y yo n = .ok ⟨X.size, fun k =>
      if xo ≤ k ∧ k < xo + n then Y.val (yo + (k - xo)) else X.val k⟩ := by
  have := forN_eq n (fun (X : Buf α) i => do
      let y ← Y.read ((yo : Int) + (i : Nat))
      X.write ((xo : Int) + (i : Nat)) y)
    (fun j => ⟨X.size, fun k =>
      if xo ≤ k ∧ k < xo + j then Y.val (yo + (k - xo)) else X.val k⟩) (by
    intro j hj
    have h1 : ((xo : Int) + (j : Int)) = ((xo + j : Nat) : Int) := by push_cast; ring
    have h2 : ((yo : Int) + (j : Int)) = ((yo + j : Nat) : Int) := by push_cast; ring
    simp only [h1, h2]
    rw [Buf.read_ok _ _ (by omega)]
    simp only [bind, Except.bind]
    rw [Buf.write_ok _ _ _ (by simp only; omega)]
    simp only [Except.ok.injEq, Buf.mk.injEq, true_and]
    funext k
    by_cases hk : k = xo + j
    · subst hk
      simp
    · rw [if_neg hk]
      by_cases h3 : xo ≤ k ∧ k < xo + j
      · rw [if_pos h3, if_pos (by omega)]
      · rw [if_neg h3, if_neg (by omega)])
  have h0 : (⟨X.size, fun k => if xo ≤ k ∧ k < xo + 0 then Y.val (yo + (k - xo))
      else X.val k⟩ : Buf α) = X := by
    cases X
    simp only [Nat.add_zero, Buf.mk.injEq, true_and]
    funext k
    rw [if_neg (by omega)]
  simp only [h0] at this
  exact this

/-- Row-major offsets: entry `(i, j)` lies in row block `a` exactly when `i = a`. -/
theorem rowBlock_iff (O a i j : Nat) (hj : j < O) :
    (a * O ≤ i * O + j ∧ i * O + j < a * O + O) ↔ i = a := by
  constructor
  · rintro ⟨h1, h2⟩
    have h3 : (i * O + j) / O = i := by
      rw [Nat.mul_comm, Nat.mul_add_div (by omega), Nat.div_eq_of_lt hj, Nat.add_zero]
    have h4 : (i * O + j) / O = a := by
      rw [Nat.div_eq_iff (by omega)]
      omega
    omega
  · rintro rfl
    omega

theorem rowMajor_div (O i j : Nat) (hj : j < O) : (i * O + j) / O = i := by
  rw [Nat.mul_comm, Nat.mul_add_div (by omega), Nat.div_eq_of_lt hj, Nat.add_zero]

theorem rowMajor_mod (O i j : Nat) (hj : j < O) : (i * O + j) % O = j := by
  rw [Nat.mul_comm, Nat.mul_add_mod, Nat.mod_eq_of_lt hj]

theorem rowMajor_lt {O B i j : Nat} (hi : i < B) (hj : j < O) : i * O + j < B * O := by
  have : (i + 1) * O ≤ B * O := Nat.mul_le_mul_right O hi
  have h : (i + 1) * O = i * O + O := by ring
  omega

open Finset in
/-- A sum over all rows, cut into sequences. -/
theorem sum_segments {M : Type} [AddCommMonoid M] (ls : List Nat) (f : Nat → M) :
    ∑ t ∈ range ls.sum, f t =
      ∑ b ∈ range ls.length, ∑ t ∈ range (ls.getD b 0), f ((ls.take b).sum + t) := by
  induction ls generalizing f with
  | nil => simp
  | cons l ls ih =>
    rw [List.sum_cons, Finset.sum_range_add, List.length_cons, Finset.sum_range_succ', ih]
    simp only [List.getD_cons_succ, List.take_succ_cons, List.sum_cons, List.getD_cons_zero,
      List.take_zero, List.sum_nil, Nat.zero_add]
    rw [add_comm]
    congr 1
    refine Finset.sum_congr rfl fun b _ => Finset.sum_congr rfl fun t _ => ?_
    rw [Nat.add_assoc]

end Thinc
