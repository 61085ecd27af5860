import Verif.Model.Maxout
import Verif.Lemmas.PoolMax
/-! # Lemmas for maxout -/
namespace Thinc
open Spec
variable {K : Type}

theorem argmaxArgs_spec [LinearOrder K] (f : Nat → K) (n s : Nat) :
    ∃ w, argmaxArgs (f s) ((List.range' (s + 1) n).map f) = (f (s + w), w) ∧
      firstMax (fun i => f (s + i)) (n + 1) w := by
  induction n generalizing s with
  | zero =>
    refine ⟨0, rfl, by omega, fun t ht => ?_, fun t ht => absurd ht (by omega)⟩
    have : t = 0 := by omega
    subst this
    exact le_refl _
  | succ n ih =>
    obtain ⟨w, h1, h2, h3, h4⟩ := ih (s + 1)
    rw [List.range'_succ, List.map_cons]
    simp only [argmaxArgs, h1]
    have e : ∀ t, s + 1 + t = s + (t + 1) := fun t => by omega
    simp only [e] at h3 h4 ⊢
    by_cases h : f (s + (w + 1)) > f s
    · rw [if_pos h]
      refine ⟨w + 1, rfl, by omega, fun t ht => ?_, fun t ht => ?_⟩
      · match t with
        | 0 => exact le_of_lt h
        | t + 1 => exact h3 t (by omega)
      · match t with
        | 0 => exact h
        | t + 1 => exact h4 t (by omega)
    · rw [if_neg h]
      refine ⟨0, rfl, by omega, fun t ht => ?_, fun t ht => absurd ht (by omega)⟩
      match t with
      | 0 => exact le_refl _
      | t + 1 => exact le_trans (h3 t (by omega)) (not_lt.1 h)

theorem argmaxLoop_spec [LinearOrder K] (arr : Buf K) (off P : Nat) (h : off + (P + 1) ≤ arr.size) :
    argmaxLoop arr (off : Int) (P + 1) =
      .ok (arr.val (off + argmaxTo (fun p => arr.val (off + p)) P),
        argmaxTo (fun p => arr.val (off + p)) P) := by
  unfold argmaxLoop
  rw [Buf.read_ok _ _ (by omega)]
  simp only [bind, Except.bind, Nat.add_sub_cancel]
  refine forN_eq P _ (fun k => (arr.val (off + argmaxTo (fun p => arr.val (off + p)) k),
      argmaxTo (fun p => arr.val (off + p)) k)) (fun k hk => ?_)
  have e : (off : Int) + ((k + 1 : Nat) : Int) = ((off + (k + 1) : Nat) : Int) := by omega
  rw [e, Buf.read_ok _ _ (by omega)]
  simp only [argmaxTo, pure, Except.pure]
  by_cases hc : arr.val (off + (k + 1)) > arr.val (off + argmaxTo (fun p => arr.val (off + p)) k)
  · rw [if_pos hc, if_pos hc]
  · rw [if_neg hc, if_neg hc]

/-- All three code paths of the kernel. -/
theorem cpuMaxout_spec [LinearOrder K] (best : Buf K) (which : Buf Int) (cands : Buf K) (B O P : Nat)
    (hb : best.size = B * O) (hw : which.size = B * O) (hc : cands.size = B * O * (P + 1)) :
    ∃ best' which', cpuMaxout best which cands B O (P + 1) = .ok (best', which') ∧
      ∀ i < B * O, ∃ w, firstMax (fun p => cands.val (i * (P + 1) + p)) (P + 1) w ∧
        which'.val i = w ∧ best'.val i = cands.val (i * (P + 1) + w) := by
  -- the loop, given what one iteration computes
  have main : ∀ (r : Nat → Except PyErr (K × Nat)),
      (∀ i < B * O, ∃ w, r i = .ok (cands.val (i * (P + 1) + w), w) ∧
        firstMax (fun p => cands.val (i * (P + 1) + p)) (P + 1) w) →
      ∀ f : Buf K × Buf Int → Nat → Except PyErr (Buf K × Buf Int),
      (∀ s i, i < B * O → f s i = (do
        let x ← r i
        let which ← s.2.write i (x.2 : Int)
        let best ← s.1.write i x.1
        pure (best, which))) →
      ∃ best' which', forN (B * O) (best, which) f = .ok (best', which') ∧
      ∀ i < B * O, ∃ w, firstMax (fun p => cands.val (i * (P + 1) + p)) (P + 1) w ∧
        which'.val i = w ∧ best'.val i = cands.val (i * (P + 1) + w) := by
    intro r hr f hf
    obtain ⟨s, h1, _, _, h2⟩ := forN_inv (B * O) f (fun n (s : Buf K × Buf Int) =>
      s.1.size = B * O ∧ s.2.size = B * O ∧
      ∀ i < n, ∃ w, firstMax (fun p => cands.val (i * (P + 1) + p)) (P + 1) w ∧
        s.2.val i = w ∧ s.1.val i = cands.val (i * (P + 1) + w)) (best, which)
      ⟨hb, hw, fun i hi => absurd hi (by omega)⟩
      (by
        rintro k hk ⟨b, v⟩ ⟨hb1, hv1, hinv⟩
        obtain ⟨w, hw1, hw2⟩ := hr k hk
        rw [hf _ _ hk, hw1]
        simp only at hb1 hv1 hinv
        simp only [bind, Except.bind]
        rw [Buf.write_ok _ _ _ (by omega), Buf.write_ok _ _ _ (by omega)]
        refine ⟨_, rfl, hb1, hv1, fun i hi => ?_⟩
        by_cases hik : i = k
        · subst hik
          exact ⟨w, hw2, if_pos rfl, if_pos rfl⟩
        · obtain ⟨w', a1, a2, a3⟩ := hinv i (by omega)
          refine ⟨w', a1, ?_, ?_⟩
          · simp only [if_neg hik]
            exact a2
          · simp only [if_neg hik]
            exact a3)
    exact ⟨s.1, s.2, h1, h2⟩
  have hin : ∀ i < B * O, ∀ p < P + 1, i * (P + 1) + p < cands.size := fun i hi p hp => by
    rw [hc]
    exact rowMajor_lt hi hp
  have rd : ∀ i < B * O, ∀ p < P + 1,
      cands.read (((i * (P + 1) : Nat) : Int) + ((p : Nat) : Int)) = .ok (cands.val (i * (P + 1) + p)) := by
    intro i hi p hp
    rw [← Int.natCast_add]
    exact Buf.read_ok _ _ (hin i hi p hp)
  unfold cpuMaxout
  by_cases h2 : P + 1 = 2
  · simp only [if_pos h2]
    refine main (fun i => .ok (argmaxArgs (cands.val (i * (P + 1) + 0)) [cands.val (i * (P + 1) + 1)]))
      (fun i hi => ?_) _ (fun s i hi => ?_)
    · obtain ⟨w, a, b⟩ := argmaxArgs_spec (fun p => cands.val (i * (P + 1) + p)) 1 0
      simp only [List.range'_one, List.map_cons, List.map_nil, Nat.zero_add] at a b
      rw [a]
      refine ⟨w, rfl, ?_⟩
      rw [h2] at b ⊢
      exact b
    · rw [rd i hi 0 (by omega), rd i hi 1 (by omega)]
      rfl
  · rw [if_neg h2]
    by_cases h3 : P + 1 = 3
    · simp only [if_pos h3]
      refine main (fun i => .ok (argmaxArgs (cands.val (i * (P + 1) + 0))
        [cands.val (i * (P + 1) + 1), cands.val (i * (P + 1) + 2)])) (fun i hi => ?_) _ (fun s i hi => ?_)
      · obtain ⟨w, a, b⟩ := argmaxArgs_spec (fun p => cands.val (i * (P + 1) + p)) 2 0
        have e : List.range' (0 + 1) 2 = [1, 2] := by decide
        rw [e] at a
        simp only [List.map_cons, List.map_nil, Nat.zero_add] at a b
        rw [a]
        refine ⟨w, rfl, ?_⟩
        rw [h3] at b ⊢
        exact b
      · rw [rd i hi 0 (by omega), rd i hi 1 (by omega), rd i hi 2 (by omega)]
        rfl
    · simp only [if_neg h3]
      refine main (fun i => argmaxLoop cands (i * (P + 1) : Nat) (P + 1)) (fun i hi => ?_) _
        (fun s i hi => rfl)
      refine ⟨_, argmaxLoop_spec cands (i * (P + 1)) P ?_, argmaxTo_spec _ P⟩
      have := hin i hi P (by omega)
      omega

/-- A nested loop over rows and columns is one loop over all positions. -/
theorem forN_nested {σ : Type} (B O : Nat) (f : σ → Nat → Nat → Except PyErr σ)
    (P : Nat → σ → Prop) (s : σ) (h0 : P 0 s)
    (hstep : ∀ b < B, ∀ o < O, ∀ s, P (b * O + o) s → ∃ s', f s b o = .ok s' ∧ P (b * O + o + 1) s') :
    ∃ s', forN B s (fun s b => forN O s (fun s o => f s b o)) = .ok s' ∧ P (B * O) s' := by
  refine forN_inv B _ (fun b s => P (b * O) s) s (by simpa using h0) (fun b hb s hs => ?_)
  obtain ⟨s', h1, h2⟩ := forN_inv O (fun s o => f s b o) (fun o s => P (b * O + o) s) s hs
    (fun o ho s hs => hstep b hb o ho s hs)
  refine ⟨s', h1, ?_⟩
  rw [Nat.add_mul, Nat.one_mul]
  exact h2

theorem forN_nested_or {σ : Type} (e : PyErr) (B O : Nat) (f : σ → Nat → Nat → Except PyErr σ)
    (P : Nat → σ → Prop) (s : σ) (h0 : P 0 s)
    (hstep : ∀ b < B, ∀ o < O, ∀ s, P (b * O + o) s →
      f s b o = .error e ∨ ∃ s', f s b o = .ok s' ∧ P (b * O + o + 1) s') :
    forN B s (fun s b => forN O s (fun s o => f s b o)) = .error e ∨
      ∃ s', forN B s (fun s b => forN O s (fun s o => f s b o)) = .ok s' ∧ P (B * O) s' := by
  refine forN_inv_or e B _ (fun b s => P (b * O) s) s (by simpa using h0) (fun b hb s hs => ?_)
  rcases forN_inv_or e O (fun s o => f s b o) (fun o s => P (b * O + o) s) s hs
    (fun o ho s hs => hstep b hb o ho s hs) with h | ⟨s', h1, h2⟩
  · exact .inl h
  · refine .inr ⟨s', h1, ?_⟩
    rw [Nat.add_mul, Nat.one_mul]
    exact h2

/-- The kernel of the backward pass.  `A k` says that the pieces named at the first `k` positions
exist. -/
theorem cpuBackpropMaxout_spec [Zero K] (dX dY : Buf K) (which : Buf Int) (B O P : Nat)
    (hX : dX.size = B * O * P) (hY : dY.size = B * O) (hW : which.size = B * O)
    (hz : ∀ k, dX.val k = 0) (hnn : ∀ i < B * O, 0 ≤ which.val i) :
    ((∃ i < B * O, (P : Int) ≤ which.val i) ∧ cpuBackpropMaxout dX dY which B O P = .error .indexError) ∨
    ((∀ i < B * O, which.val i < P) ∧
      ∃ dX', cpuBackpropMaxout dX dY which B O P = .ok dX' ∧
      ∀ i < B * O, ∀ p < P, dX'.val (i * P + p) = if which.val i = (p : Int) then dY.val i else 0) := by
  have key := forN_nested_or .indexError B O (fun (s : BackMaxout K) (_ _ : Nat) => (do
      let w ← which.read s.pos
      if w ≥ P then .error .indexError
      else
        let d ← dY.read s.pos
        let dX ← s.dX.write (s.off + w) d
        pure ⟨dX, s.off + P, s.pos + 1⟩ : Except PyErr (BackMaxout K)))
    (fun n s => s.dX.size = B * O * P ∧ s.off = (n * P : Nat) ∧ s.pos = (n : Nat) ∧
      (∀ i < n, which.val i < P) ∧ (∀ k, n * P ≤ k → s.dX.val k = 0) ∧
      ∀ i < n, ∀ p < P, s.dX.val (i * P + p) = if which.val i = (p : Int) then dY.val i else 0)
    ⟨dX, 0, 0⟩
    ⟨hX, by simp, by simp, fun i hi => absurd hi (by omega), fun k _ => hz k,
      fun i hi => absurd hi (by omega)⟩
    (by
      rintro b hb o ho ⟨b1, off, pos⟩ ⟨h1, h2, h3, h4, h5, h6⟩
      simp only at h1 h2 h3 h5 h6
      have hlt : b * O + o < B * O := rowMajor_lt hb ho
      generalize hn : b * O + o = n at *
      subst h2 h3
      simp only [bind, Except.bind]
      rw [Buf.read_ok _ _ (by omega)]
      simp only
      by_cases hge : which.val n ≥ P
      · left
        rw [if_pos hge]
      · right
        rw [if_neg hge, Buf.read_ok _ _ (by omega)]
        obtain ⟨w, hwv⟩ := Int.eq_ofNat_of_zero_le (hnn n hlt)
        have hwP : w < P := by omega
        have hpos : n * P + w < B * O * P := rowMajor_lt hlt hwP
        simp only [hwv]
        rw [← Int.natCast_add, Buf.write_ok _ _ _ (by omega)]
        refine ⟨_, rfl, h1, ?_, ?_, ?_, ?_, ?_⟩
        · simp only
          rw [← Int.natCast_add, Nat.add_mul, Nat.one_mul]
        · simp only
          omega
        · intro i hi
          by_cases hin : i = n
          · subst hin
            omega
          · exact h4 i (by omega)
        · intro k hk
          rw [Nat.add_mul, Nat.one_mul] at hk
          simp only
          rw [if_neg (by omega)]
          exact h5 k (by omega)
        · intro i hi p hp
          simp only
          by_cases hin : i = n
          · subst hin
            rw [hwv]
            by_cases hpw : p = w
            · subst hpw
              rw [if_pos rfl, if_pos rfl]
            · rw [if_neg (by omega), if_neg (by omega)]
              exact h5 _ (by omega)
          · have hlt2 : i * P + p < n * P := rowMajor_lt (by omega) hp
            rw [if_neg (by omega)]
            exact h6 i (by omega) p hp)
  unfold cpuBackpropMaxout
  rcases key with key | ⟨s, hs, h1, h2, h3, h4, h5, h6⟩
  · left
    constructor
    · by_contra hno
      push Not at hno
      -- with all pieces in range the loop cannot fail
      obtain ⟨s', hs', _⟩ := forN_nested B O (fun (s : BackMaxout K) (_ _ : Nat) => (do
          let w ← which.read s.pos
          if w ≥ P then .error .indexError
          else
            let d ← dY.read s.pos
            let dX ← s.dX.write (s.off + w) d
            pure ⟨dX, s.off + P, s.pos + 1⟩ : Except PyErr (BackMaxout K)))
        (fun n s => s.dX.size = B * O * P ∧ s.off = (n * P : Nat) ∧ s.pos = (n : Nat)) ⟨dX, 0, 0⟩
        ⟨hX, by simp, by simp⟩ (by
          rintro b hb o ho ⟨b1, off, pos⟩ ⟨h1, h2, h3⟩
          simp only at h1 h2 h3
          have hlt : b * O + o < B * O := rowMajor_lt hb ho
          generalize hn : b * O + o = n at *
          subst h2 h3
          simp only [bind, Except.bind]
          rw [Buf.read_ok _ _ (by omega)]
          simp only
          have hge := hno n hlt
          rw [if_neg (by omega), Buf.read_ok _ _ (by omega)]
          obtain ⟨w, hwv⟩ := Int.eq_ofNat_of_zero_le (hnn n hlt)
          have hwP : w < P := by omega
          have hpos : n * P + w < B * O * P := rowMajor_lt hlt hwP
          simp only [hwv]
          rw [← Int.natCast_add, Buf.write_ok _ _ _ (by omega)]
          refine ⟨_, rfl, h1, ?_, ?_⟩
          · simp only
            rw [← Int.natCast_add, Nat.add_mul, Nat.one_mul]
          · simp only
            omega)
      rw [hs'] at key
      cases key
    · rw [key]
      rfl
  · right
    refine ⟨h4, s.dX, ?_, h6⟩
    rw [hs]
    rfl

end Thinc
