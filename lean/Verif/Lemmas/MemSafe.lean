import Verif.Spec.MemSafe
import Verif.Model.Seq2col
import Verif.Model.Maxout
import Verif.Model.Gather
import Verif.Lemmas.CMem
import Mathlib.Tactic.Ring
import Mathlib.Tactic.Linarith
/-!
# Programs that stay inside their buffers
-/
namespace Thinc
variable {α β K : Type}

/-- The program does not leave its buffers, and its result (if there is one) has the property. -/
def Safely (Q : α → Prop) : Except PyErr α → Prop
  | .ok a => Q a
  | .error e => e ≠ .outOfBounds

theorem Safely.inside {Q : α → Prop} {r : Except PyErr α} (h : Safely Q r) : Spec.Memory.Inside r := by
  intro e; subst e; exact h rfl

theorem Safely.result {Q : α → Prop} {r : Except PyErr α} (h : Safely Q r) {a : α} (e : r = .ok a) : Q a := by
  subst e; exact h

theorem safely_ok {Q : α → Prop} {a : α} (h : Q a) : Safely Q (.ok a) := h

theorem safely_pure {Q : α → Prop} {a : α} (h : Q a) : Safely Q (pure a) := h

theorem Safely.mono {Q R : α → Prop} {r : Except PyErr α} (h : Safely Q r) (hi : ∀ a, Q a → R a) : Safely R r := by
  cases r with
  | ok a => exact hi a h
  | error e => exact h

theorem Safely.any {Q : α → Prop} {r : Except PyErr α} (h : Safely Q r) : Safely (fun _ => True) r := h.mono fun _ _ => trivial

theorem Safely.bind {R : α → Prop} {Q : β → Prop} {m : Except PyErr α} {f : α → Except PyErr β} (hm : Safely R m)
    (hf : ∀ a, R a → Safely Q (f a)) : Safely Q (m >>= f) := by
  cases m with
  | ok a => exact hf a hm
  | error e => exact hm

theorem safely_forM' {σ : Type} (xs : List β) (s : σ) (f : σ → β → Except PyErr σ) (I : List β → σ → Prop) (h0 : I xs s)
    (step : ∀ x xs s, I (x :: xs) s → Safely (I xs) (f s x)) : Safely (I []) (forM' xs s f) := by
  induction xs generalizing s with
  | nil => exact h0
  | cons x xs ih =>
    have h := step x xs s h0
    unfold forM'
    cases e : f s x with
    | ok s' => rw [e] at h; exact ih s' h
    | error _ => rw [e] at h; exact h

theorem safely_forN {σ : Type} (n : ℕ) (s : σ) (f : σ → ℕ → Except PyErr σ) (I : ℕ → σ → Prop) (h0 : I 0 s)
    (step : ∀ k < n, ∀ s, I k s → Safely (I (k + 1)) (f s k)) : Safely (I n) (forN n s f) := by
  have := safely_forM' (List.range' 0 n) s f (fun xs s => ∃ k, xs = List.range' k (n - k) ∧ k ≤ n ∧ I k s) ⟨0, rfl, by omega, h0⟩
    (by
      rintro x xs s ⟨k, e, hk, hI⟩
      have hlt : k < n := by
        by_contra h
        rw [show n - k = 0 by omega] at e
        cases e
      rw [show n - k = (n - (k + 1)) + 1 by omega, List.range'_succ] at e
      injection e with e1 e2
      subst e1
      exact (step x hlt s hI).mono fun s' hs' => ⟨x + 1, e2, by omega, hs'⟩)
  unfold forN
  rw [List.range_eq_range']
  refine this.mono ?_
  rintro s' ⟨k, e, hk, hI⟩
  have : n - k = 0 := by
    have := congrArg List.length e
    simpa using this.symm
  rwa [show n = k by omega]

theorem safely_read (b : Buf α) (i : ℤ) (h0 : 0 ≤ i) (h1 : i < b.size) : Safely (fun x => x = b.val i.toNat) (b.read i) := by
  unfold Buf.read
  rw [if_pos ⟨h0, h1⟩]
  rfl

theorem safely_write (b : Buf α) (i : ℤ) (x : α) (h0 : 0 ≤ i) (h1 : i < b.size) :
    Safely (fun b' => b' = ⟨b.size, fun k => if k = i.toNat then x else b.val k⟩) (b.write i x) := by
  unfold Buf.write
  rw [if_pos ⟨h0, h1⟩]
  rfl

theorem safely_vecAdd [Add α] [Mul α] (X : Buf α) (xo : ℤ) (Y : Buf α) (yo : ℤ) (scale : α) (n : ℕ) (hx0 : 0 ≤ xo)
    (hx : xo + n ≤ X.size) (hy0 : 0 ≤ yo) (hy : yo + n ≤ Y.size) : Safely (fun X' => X'.size = X.size) (vecAdd X xo Y yo scale n) := by
  unfold vecAdd
  refine safely_forN n X _ (fun _ X' => X'.size = X.size) rfl ?_
  intro k hk X' hX'
  refine (safely_read X' _ (by omega) (by omega)).bind fun _ _ => ?_
  refine (safely_read Y _ (by omega) (by omega)).bind fun _ _ => ?_
  refine (safely_write X' _ _ (by omega) (by omega)).mono ?_
  rintro _ rfl
  exact hX'

theorem safely_memcpy (D : Buf α) (d : ℤ) (S : Buf α) (s : ℤ) (n : ℕ) (hd0 : 0 ≤ d) (hd : d + n ≤ D.size) (hs0 : 0 ≤ s)
    (hs : s + n ≤ S.size) : Safely (fun D' => D'.size = D.size) (memcpy D d S s n) := by
  unfold memcpy
  refine safely_forN n D _ (fun _ D' => D'.size = D.size) rfl ?_
  intro k hk D' hD'
  refine (safely_read S _ (by omega) (by omega)).bind fun _ _ => ?_
  refine (safely_write D' _ _ (by omega) (by omega)).mono ?_
  rintro _ rfl
  exact hD'

theorem safely_pointer (X : Mat α) : Safely (fun b => b = X.buf ∧ 0 < X.rows ∧ 0 < X.cols) X.pointer := by
  unfold Mat.pointer
  split
  · exact nofun
  · exact ⟨rfl, by omega, by omega⟩

/-- Row `k` of `n` rows of width `O` lies inside. -/
theorem row_inside {k n O : ℤ} (hk : k + 1 ≤ n) (hO : 0 ≤ O) : k * O + O ≤ n * O := by
  have := Int.mul_le_mul_of_nonneg_right hk hO
  rwa [Int.add_mul, Int.one_mul] at this

/-! ### Pooling -/

section
variable [Field K]

theorem safely_reduceStep (scale : ℤ → K) (X : Buf K) (R B O : ℕ) (hX : X.size = R * O) (l : ℤ) (ls : List ℤ) (s : ReduceState K)
    (h : ∃ b t : ℤ, 0 ≤ b ∧ b + (l :: ls).length = B ∧ 0 ≤ t ∧ t + s.T = R ∧ s.out.size = B * O ∧ s.outPtr = b * O ∧ s.xPtr = t * O) :
    Safely (fun s => ∃ b t : ℤ, 0 ≤ b ∧ b + ls.length = B ∧ 0 ≤ t ∧ t + s.T = R ∧ s.out.size = B * O ∧ s.outPtr = b * O ∧
      s.xPtr = t * O) (reduceStep scale X O s l) := by
  obtain ⟨b, t, hb, hbl, ht, hT, hout, ho, hx⟩ := h
  simp only [List.length_cons] at hbl
  unfold reduceStep
  split
  · exact nofun
  split
  · exact nofun
  have hO : (0 : ℤ) ≤ O := by omega
  refine Safely.bind (R := fun p => p.1.size = B * O ∧ p.2 = (t + l) * O) ?_ ?_
  · have := safely_forN l.toNat (s.out, s.xPtr) (fun p _ => do
      let out ← vecAdd p.1 s.outPtr X p.2 (scale l) O
      return (out, p.2 + O)) (fun k p => p.1.size = B * O ∧ p.2 = (t + k) * O) ⟨hout, by simpa using hx⟩
      (by
        rintro k hk ⟨out, x⟩ ⟨h1, h2⟩
        simp only at h1 h2
        subst h2
        have hr : (t + k) * O + O ≤ (R : ℤ) * O := row_inside (by omega) hO
        have hr' : b * O + O ≤ (B : ℤ) * O := row_inside (by omega) hO
        refine (safely_vecAdd out s.outPtr X _ _ O ?_ ?_ ?_ ?_).bind ?_
        · rw [ho]; exact Int.mul_nonneg hb hO
        · rw [ho, h1]; push_cast; exact hr'
        · exact Int.mul_nonneg (by omega) hO
        · rw [hX]; push_cast; exact hr
        · intro out' h'
          exact ⟨h'.trans h1, by push_cast; ring⟩)
    refine this.mono ?_
    rintro ⟨out, x⟩ ⟨h1, h2⟩
    refine ⟨h1, h2.trans ?_⟩
    rw [Int.toNat_of_nonneg (by omega)]
  · rintro ⟨out, x⟩ ⟨h1, h2⟩
    exact ⟨b + 1, t + l, by omega, by omega, by omega, by simp only; omega, h1, by simp only [ho]; ring, h2⟩

theorem safely_reduceLoop (scale : ℤ → K) (X : Mat K) (ls : List ℤ) :
    Safely (fun _ => True) (forM' ls ⟨(Mat.zeros ls.length X.cols : Mat K).buf, 0, 0, X.rows⟩ (reduceStep scale X.buf X.cols)) := by
  have := safely_forM' ls (⟨(Mat.zeros ls.length X.cols : Mat K).buf, 0, 0, X.rows⟩ : ReduceState K) (reduceStep scale X.buf X.cols)
    (fun xs s => ∃ b t : ℤ, 0 ≤ b ∧ b + xs.length = ls.length ∧ 0 ≤ t ∧ t + s.T = X.rows ∧ s.out.size = ls.length * X.cols ∧
      s.outPtr = b * X.cols ∧ s.xPtr = t * X.cols)
    ⟨0, 0, by omega, by simp, by omega, by simp, rfl, by simp, by simp⟩
    fun x xs s h => safely_reduceStep scale X.buf X.rows ls.length X.cols rfl x xs s h
  exact this.any

theorem safely_reduceSum (X : Mat K) (ls : List ℤ) : Safely (fun Y => Y.rows = ls.length ∧ Y.cols = X.cols) (reduceSum X ls) := by
  unfold reduceSum
  split
  · exact ⟨rfl, rfl⟩
  refine (safely_pointer X).bind ?_
  rintro _ ⟨rfl, _⟩
  unfold cpuReduceSum
  refine Safely.bind (R := fun _ => True) ?_ fun _ _ => ⟨rfl, rfl⟩
  exact (safely_reduceLoop (fun _ => 1) X ls).bind fun _ _ => trivial

theorem safely_reduceMean (X : Mat K) (ls : List ℤ) : Safely (fun Y => Y.rows = ls.length ∧ Y.cols = X.cols) (reduceMean X ls) := by
  unfold reduceMean
  split
  · exact ⟨rfl, rfl⟩
  refine (safely_pointer X).bind ?_
  rintro _ ⟨rfl, _⟩
  unfold cpuReduceMean
  refine Safely.bind (R := fun _ => True) ?_ fun _ _ => ⟨rfl, rfl⟩
  exact (safely_reduceLoop (fun l => 1 / (l : K)) X ls).bind fun _ _ => trivial

omit [Field K] in
theorem safely_sumLengths (ls : List ℤ) : Safely (fun T => T = ls.sum ∧ ∀ l ∈ ls, 0 ≤ l) (sumLengths ls) := by
  have := safely_forM' ls (0 : ℤ) (fun T l => if l < 0 then .error .valueError else .ok (T + l))
    (fun xs T => T + xs.sum = ls.sum ∧ (∀ l ∈ ls, l ∈ xs ∨ 0 ≤ l)) ⟨by simp, fun l h => .inl h⟩
    (by
      rintro x xs T ⟨h1, h2⟩
      split
      · exact nofun
      · refine ⟨by simpa [add_assoc] using h1, fun l hl => ?_⟩
        rcases h2 l hl with h | h
        · rcases List.mem_cons.1 h with rfl | h
          · right; omega
          · exact .inl h
        · exact .inr h)
  refine this.mono ?_
  rintro T ⟨h1, h2⟩
  exact ⟨by simpa using h1, fun l hl => by simpa using h2 l hl⟩

theorem safely_backLoop (scale : ℤ → K) (d : Mat K) (ls : List ℤ) (hpos : ∀ l ∈ ls, 0 ≤ l) (hrows : ls.length ≤ d.rows) :
    Safely (fun _ => True) (forM' ls ((Mat.zeros ls.sum.toNat d.cols : Mat K).buf, 0, 0) (backReduceStep scale d.buf d.cols)) := by
  have hs : 0 ≤ ls.sum := List.sum_nonneg hpos
  have hO : (0 : ℤ) ≤ d.cols := by omega
  have := safely_forM' ls (((Mat.zeros ls.sum.toNat d.cols : Mat K).buf, 0, 0) : Buf K × ℤ × ℤ) (backReduceStep scale d.buf d.cols)
    (fun xs s => (∀ l ∈ xs, 0 ≤ l) ∧ ∃ b t : ℤ, 0 ≤ b ∧ b + xs.length = ls.length ∧ 0 ≤ t ∧ t + xs.sum = ls.sum ∧
      s.1.size = ls.sum.toNat * d.cols ∧ s.2.1 = t * d.cols ∧ s.2.2 = b * d.cols)
    ⟨hpos, 0, 0, by omega, by simp, by omega, by simp, rfl, by simp, by simp⟩
    (by
      rintro l xs ⟨dX, xp, dp⟩ ⟨hp, b, t, hb, hbl, ht, htl, hsz, hx, hd⟩
      simp only at hsz hx hd
      simp only [List.length_cons, List.sum_cons] at hbl htl
      have hl := hp l (by simp)
      have hxs : 0 ≤ xs.sum := List.sum_nonneg fun x hx => hp x (by simp [hx])
      unfold backReduceStep
      refine Safely.bind (R := fun p => p.1.size = ls.sum.toNat * d.cols ∧ p.2 = (t + l) * d.cols) ?_ ?_
      · have := safely_forN l.toNat (dX, xp) (fun p _ => do
          let dX ← vecAdd p.1 p.2 d.buf dp (scale l) d.cols
          return (dX, p.2 + d.cols)) (fun k p => p.1.size = ls.sum.toNat * d.cols ∧ p.2 = (t + k) * d.cols) ⟨hsz, by simpa using hx⟩
          (by
            rintro k hk ⟨dX', x⟩ ⟨h1, h2⟩
            simp only at h1 h2
            subst h2
            have hr : (t + k) * d.cols + d.cols ≤ (ls.sum) * d.cols := row_inside (by omega) hO
            have hr' : b * d.cols + d.cols ≤ (d.rows : ℤ) * d.cols := row_inside (by omega) hO
            refine (safely_vecAdd dX' _ d.buf dp _ d.cols ?_ ?_ ?_ ?_).bind ?_
            · exact Int.mul_nonneg (by omega) hO
            · rw [h1]; push_cast; rw [Int.toNat_of_nonneg hs]; exact hr
            · rw [hd]; exact Int.mul_nonneg (by omega) hO
            · rw [hd]; simp only [Mat.buf]; push_cast; exact hr'
            · intro out' h'
              exact ⟨h'.trans h1, by push_cast; ring⟩)
        refine this.mono ?_
        rintro ⟨out, x⟩ ⟨h1, h2⟩
        refine ⟨h1, h2.trans ?_⟩
        rw [Int.toNat_of_nonneg (by omega)]
      · rintro ⟨out, x⟩ ⟨h1, h2⟩
        exact ⟨fun x hx => hp x (by simp [hx]), b + 1, t + l, by omega, by omega, by omega, by omega, h1, h2,
          by simp only [hd]; ring⟩)
  exact this.any

theorem safely_backpropReduceSum (d : Mat K) (ls : List ℤ) (hrows : ls.length ≤ d.rows) :
    Safely (fun _ => True) (backpropReduceSum d ls) := by
  unfold backpropReduceSum
  refine (safely_sumLengths ls).bind ?_
  rintro _ ⟨rfl, hpos⟩
  split
  · trivial
  refine (safely_pointer d).bind ?_
  rintro _ ⟨rfl, _⟩
  unfold cpuBackpropReduceSum
  refine Safely.bind (R := fun _ => True) ?_ fun _ _ => trivial
  exact (safely_backLoop (fun _ => 1) d ls hpos hrows).bind fun _ _ => trivial

theorem safely_backpropReduceMean (d : Mat K) (ls : List ℤ) (hrows : ls.length ≤ d.rows) :
    Safely (fun _ => True) (backpropReduceMean d ls) := by
  unfold backpropReduceMean
  refine (safely_sumLengths ls).bind ?_
  rintro _ ⟨rfl, hpos⟩
  split
  · trivial
  refine (safely_pointer d).bind ?_
  rintro _ ⟨rfl, _⟩
  unfold cpuBackpropReduceMean
  refine Safely.bind (R := fun _ => True) ?_ fun _ _ => trivial
  exact (safely_backLoop (fun l => 1 / (l : K)) d ls hpos hrows).bind fun _ _ => trivial

end

/-! ### Max -/

theorem safely_reduceMax [LinearOrder K] [Zero K] (junk : ℕ → K) (X : Mat K) (ls : List ℤ) :
    Safely (fun r => r.1.rows = ls.length ∧ r.1.cols = X.cols ∧ r.2.rows = ls.length ∧ r.2.cols = X.cols ∧ ∀ i, 0 ≤ r.2.val i)
      (reduceMax junk X ls) := by
  unfold reduceMax
  split
  · exact ⟨rfl, rfl, rfl, rfl, fun _ => le_refl _⟩
  refine (safely_pointer X).bind ?_
  rintro _ ⟨rfl, _⟩
  have hO : (0 : ℤ) ≤ X.cols := by omega
  unfold cpuReduceMax
  have := safely_forM' ls (⟨⟨ls.length * X.cols, junk⟩, (Mat.zeros ls.length X.cols : Mat ℤ).buf, 0, 0, X.rows⟩ : MaxState K)
    (reduceMaxStep X.buf X.cols)
    (fun xs s => ∃ b t : ℤ, 0 ≤ b ∧ b + xs.length = ls.length ∧ 0 ≤ t ∧ t + s.T = X.rows ∧ s.maxes.size = ls.length * X.cols ∧
      s.which.size = ls.length * X.cols ∧ (∀ i, 0 ≤ s.which.val i) ∧ s.outPtr = b * X.cols ∧ s.xPtr = t * X.cols)
    ⟨0, 0, by omega, by simp, by omega, by simp, rfl, rfl, fun _ => le_refl _, by simp, by simp⟩
    (by
      rintro l xs ⟨maxes, which, op, xp, T⟩ ⟨b, t, hb, hbl, ht, hT, hm, hw, hw0, ho, hx⟩
      simp only at hT hm hw hw0 ho hx
      simp only [List.length_cons] at hbl
      have hr' : b * X.cols + X.cols ≤ (ls.length : ℤ) * X.cols := row_inside (by omega) hO
      have hop : 0 ≤ op := by rw [ho]; exact Int.mul_nonneg hb hO
      have hop' : op + X.cols ≤ ((ls.length * X.cols : ℕ) : ℤ) := by rw [ho]; push_cast; exact hr'
      unfold reduceMaxStep
      simp only
      split
      · exact nofun
      split
      · exact nofun
      have hr0 : t * X.cols + X.cols ≤ (X.rows : ℤ) * X.cols := row_inside (by omega) hO
      refine (safely_memcpy maxes op X.buf xp X.cols hop (by rw [hm]; exact hop') ?_ ?_).bind ?_
      · rw [hx]; exact Int.mul_nonneg (by omega) hO
      · rw [hx]; simp only [Mat.buf]; push_cast; exact hr0
      intro maxes' hm'
      refine Safely.bind (R := fun p => p.1.size = ls.length * X.cols ∧ p.2.1.size = ls.length * X.cols ∧ (∀ i, 0 ≤ p.2.1.val i) ∧
        p.2.2 = (t + l) * X.cols) ?_ ?_
      · have := safely_forN (l.toNat - 1) (maxes', which, xp + X.cols) (fun p k => do
          let (maxes, which) ← forN X.cols (p.1, p.2.1) (maxStep X.buf p.2.2 op (k + 1))
          return (maxes, which, p.2.2 + X.cols))
          (fun k p => p.1.size = ls.length * X.cols ∧ p.2.1.size = ls.length * X.cols ∧ (∀ i, 0 ≤ p.2.1.val i) ∧
            p.2.2 = (t + (k + 1)) * X.cols) ⟨hm'.trans hm, hw, hw0, by simp only [hx]; push_cast; ring⟩
          (by
            rintro k hk ⟨m1, w1, x1⟩ ⟨h1, h2, h3, h4⟩
            simp only at h1 h2 h3 h4
            subst h4
            have hr : (t + (k + 1)) * X.cols + X.cols ≤ (X.rows : ℤ) * X.cols := row_inside (by omega) hO
            have hx0 : 0 ≤ (t + (k + 1)) * X.cols := Int.mul_nonneg (by omega) hO
            refine Safely.bind (R := fun q => q.1.size = ls.length * X.cols ∧ q.2.size = ls.length * X.cols ∧ ∀ i, 0 ≤ q.2.val i) ?_ ?_
            · refine safely_forN X.cols (m1, w1) _ (fun _ q => q.1.size = ls.length * X.cols ∧ q.2.size = ls.length * X.cols ∧
                ∀ i, 0 ≤ q.2.val i) ⟨h1, h2, h3⟩ ?_
              rintro j hj ⟨m2, w2⟩ ⟨g1, g2, g3⟩
              simp only at g1 g2 g3
              unfold maxStep
              simp only
              refine (safely_read X.buf _ (by omega) ?_).bind fun _ _ => ?_
              · simp only [Mat.buf]; push_cast; omega
              refine (safely_read m2 _ (by omega) (by rw [g1]; omega)).bind fun _ _ => ?_
              split
              · refine (safely_write m2 _ _ (by omega) (by rw [g1]; omega)).bind ?_
                rintro _ rfl
                refine (safely_write w2 _ _ (by omega) (by rw [g2]; omega)).bind ?_
                rintro _ rfl
                refine ⟨g1, g2, fun i => ?_⟩
                simp only
                split
                · omega
                · exact g3 i
              · exact ⟨g1, g2, g3⟩
            · rintro ⟨m3, w3⟩ ⟨g1, g2, g3⟩
              exact ⟨g1, g2, g3, by push_cast; ring⟩)
        refine this.mono ?_
        rintro ⟨m3, w3, x3⟩ ⟨h1, h2, h3, h4⟩
        refine ⟨h1, h2, h3, h4.trans ?_⟩
        congr 1
        omega
      · rintro ⟨m3, w3, x3⟩ ⟨h1, h2, h3, h4⟩
        exact ⟨b + 1, t + l, by omega, by omega, by omega, by simp only; omega, h1, h2, h3, by simp only [ho]; ring, h4⟩)
  refine Safely.bind (R := fun r => ∀ i, 0 ≤ r.2.val i) ?_ ?_
  · refine this.bind ?_
    rintro s ⟨b, t, _, _, _, _, _, _, h, _⟩
    exact h
  · rintro ⟨m, w⟩ h
    exact ⟨rfl, rfl, rfl, rfl, h⟩

theorem safely_sumPosLengths (ls : List ℤ) : Safely (fun T => T = ls.sum ∧ ∀ l ∈ ls, 0 < l) (sumPosLengths ls) := by
  have := safely_forM' ls (0 : ℤ) (fun T l => if l ≤ 0 then .error .valueError else .ok (T + l))
    (fun xs T => T + xs.sum = ls.sum ∧ (∀ l ∈ ls, l ∈ xs ∨ 0 < l)) ⟨by simp, fun l h => .inl h⟩
    (by
      rintro x xs T ⟨h1, h2⟩
      split
      · exact nofun
      · refine ⟨by simpa [add_assoc] using h1, fun l hl => ?_⟩
        rcases h2 l hl with h | h
        · rcases List.mem_cons.1 h with rfl | h
          · right; omega
          · exact .inl h
        · exact .inr h)
  refine this.mono ?_
  rintro T ⟨h1, h2⟩
  exact ⟨by simpa using h1, fun l hl => by simpa using h2 l hl⟩

theorem safely_backpropReduceMax [Zero K] (d : Mat K) (which : Mat ℤ) (ls : List ℤ) (hrows : ls.length ≤ d.rows)
    (hsize : ls.length * d.cols ≤ which.rows * which.cols) (hw : ∀ i < ls.length * d.cols, 0 ≤ which.val i) :
    Safely (fun _ => True) (backpropReduceMax d which ls) := by
  unfold backpropReduceMax
  refine (safely_sumPosLengths ls).bind ?_
  rintro _ ⟨rfl, hpos⟩
  split
  · trivial
  refine (safely_pointer d).bind ?_
  rintro _ ⟨rfl, _⟩
  refine (safely_pointer which).bind ?_
  rintro _ ⟨rfl, _⟩
  have hs : 0 ≤ ls.sum := List.sum_nonneg fun l hl => (hpos l hl).le
  have hO : (0 : ℤ) ≤ d.cols := by omega
  have hsz' : (ls.length : ℤ) * d.cols ≤ which.rows * which.cols := by exact_mod_cast hsize
  have hrow : (ls.length : ℤ) * d.cols ≤ d.rows * d.cols := by exact_mod_cast Nat.mul_le_mul_right _ hrows
  unfold cpuBackpropReduceMax
  have := safely_forM' ls (((Mat.zeros ls.sum.toNat d.cols : Mat K).buf, 0, 0) : Buf K × ℤ × ℤ) (backMaxStep d.buf which.buf d.cols)
    (fun xs s => (∀ l ∈ xs, 0 < l) ∧ ∃ b t : ℤ, 0 ≤ b ∧ b + xs.length = ls.length ∧ 0 ≤ t ∧ t + xs.sum = ls.sum ∧
      s.1.size = ls.sum.toNat * d.cols ∧ s.2.1 = t * d.cols ∧ s.2.2 = b * d.cols)
    ⟨hpos, 0, 0, by omega, by simp, by omega, by simp, rfl, by simp, by simp⟩
    (by
      rintro l xs ⟨dX, xp, dp⟩ ⟨hp, b, t, hb, hbl, ht, htl, hsz, hx, hd⟩
      simp only at hsz hx hd
      simp only [List.length_cons, List.sum_cons] at hbl htl
      have hl := hp l (by simp)
      have hxs : 0 ≤ xs.sum := List.sum_nonneg fun x hx => (hp x (by simp [hx])).le
      have hr' : b * d.cols + d.cols ≤ (ls.length : ℤ) * d.cols := row_inside (by omega) hO
      have hdp : 0 ≤ dp := by rw [hd]; exact Int.mul_nonneg hb hO
      have hdp' : dp + d.cols ≤ (ls.length : ℤ) * d.cols := by rw [hd]; exact hr'
      have hxp : 0 ≤ xp := by rw [hx]; exact Int.mul_nonneg ht hO
      unfold backMaxStep
      simp only
      refine Safely.bind (R := fun D => D.size = ls.sum.toNat * d.cols) ?_ ?_
      · refine safely_forN d.cols dX _ (fun _ D => D.size = ls.sum.toNat * d.cols) hsz ?_
        intro i hi D hD
        refine (safely_read which.buf _ (by omega) ?_).bind ?_
        · simp only [Mat.buf]; push_cast; omega
        rintro item rfl
        have hitem : 0 ≤ which.buf.val (dp + i).toNat := by
          refine hw _ ?_
          have : (dp + i) < (ls.length : ℤ) * d.cols := by omega
          have h2 : (dp + i) < ((ls.length * d.cols : ℕ) : ℤ) := by push_cast; exact this
          omega
        generalize which.buf.val (dp + i).toNat = item at hitem
        split
        · exact nofun
        refine (safely_read d.buf _ (by omega) ?_).bind ?_
        · simp only [Mat.buf]; push_cast; omega
        rintro g -
        have h1 : 0 ≤ item * d.cols := Int.mul_nonneg hitem hO
        have h2 : item * d.cols + d.cols ≤ l * d.cols := row_inside (by omega) hO
        have h3 : (t + l) * d.cols ≤ ls.sum * d.cols := Int.mul_le_mul_of_nonneg_right (by omega) hO
        have h4 : xp + l * d.cols ≤ ls.sum * d.cols := by rw [hx]; linarith [Int.add_mul t l (d.cols : ℤ)]
        refine (safely_write D _ g (by omega) ?_).mono ?_
        · rw [hD]; push_cast; rw [Int.toNat_of_nonneg hs]; omega
        · rintro _ rfl; exact hD
      · intro D hD
        exact ⟨fun x hx => hp x (by simp [hx]), b + 1, t + l, by omega, by omega, by omega, by omega, hD,
          by simp only [hx]; ring, by simp only [hd]; ring⟩)
  refine Safely.bind (R := fun _ => True) (this.bind fun _ _ => trivial) fun _ _ => trivial

/-! ### Maxout -/

theorem safely_cubePointer (X : Cube α) : Safely (fun b => b = X.buf ∧ 0 < X.d0 ∧ 0 < X.d1 ∧ 0 < X.d2) X.pointer := by
  unfold Cube.pointer
  split
  · exact ⟨rfl, ‹_›⟩
  · exact nofun

theorem safely_argmaxLoop [LinearOrder K] (arr : Buf K) (off : ℤ) (len : ℕ) (h0 : 0 ≤ off) (hl : 0 < len) (h : off + len ≤ arr.size) :
    Safely (fun _ => True) (argmaxLoop arr off len) := by
  unfold argmaxLoop
  refine (safely_read arr _ h0 (by omega)).bind fun _ _ => ?_
  refine (safely_forN (len - 1) _ _ (fun _ _ => True) trivial ?_).any
  intro k hk r _
  refine (safely_read arr _ (by omega) (by push_cast; omega)).bind fun _ _ => ?_
  split <;> trivial

theorem safely_maxout [LinearOrder K] (junk : ℕ → K) (junkW : ℕ → ℤ) (X : Cube K) :
    Safely (fun r => r.1.rows = X.d0 ∧ r.1.cols = X.d1 ∧ r.2.rows = X.d0 ∧ r.2.cols = X.d1 ∧
      ∀ i < X.d0 * X.d1, 0 ≤ r.2.val i) (maxout junk junkW X) := by
  unfold maxout
  split
  · refine (safely_cubePointer X).bind ?_
    rintro _ ⟨rfl, h0, h1, h2⟩
    refine Safely.bind (R := fun s => ∀ i < X.d0 * X.d1, 0 ≤ s.2.val i) ?_ ?_
    · have inside : ∀ i < X.d0 * X.d1, ∀ p < X.d2, ((i * X.d2 : ℕ) : ℤ) + (p : ℕ) < X.buf.size := by
        intro i hi p hp
        have : (i + 1) * X.d2 ≤ X.d0 * X.d1 * X.d2 := Nat.mul_le_mul_right _ hi
        have e : (i + 1) * X.d2 = i * X.d2 + X.d2 := by ring
        simp only [Cube.buf]
        omega
      have put : ∀ (s : Buf K × Buf ℤ) (i : ℕ) (r : K × ℕ), i < X.d0 * X.d1 →
          (s.1.size = X.d0 * X.d1 ∧ s.2.size = X.d0 * X.d1 ∧ ∀ k < i, 0 ≤ s.2.val k) →
          Safely (fun s : Buf K × Buf ℤ => s.1.size = X.d0 * X.d1 ∧ s.2.size = X.d0 * X.d1 ∧ ∀ k < i + 1, 0 ≤ s.2.val k) (do
            let which ← s.2.write i r.2
            let best ← s.1.write i r.1
            pure (best, which)) := by
        rintro ⟨b, w⟩ i r hi ⟨g1, g2, g3⟩
        simp only at g1 g2 g3
        refine (safely_write w _ _ (by omega) (by rw [g2]; omega)).bind ?_
        rintro _ rfl
        refine (safely_write b _ _ (by omega) (by rw [g1]; omega)).bind ?_
        rintro _ rfl
        refine ⟨g1, g2, fun k hk => ?_⟩
        simp only [Int.toNat_natCast]
        split
        · omega
        · exact g3 k (by omega)
      have done : ∀ {r : Except PyErr (Buf K × Buf ℤ)}, Safely (fun s => s.1.size = X.d0 * X.d1 ∧ s.2.size = X.d0 * X.d1 ∧
          ∀ k < X.d0 * X.d1, 0 ≤ s.2.val k) r → Safely (fun s => ∀ i < X.d0 * X.d1, 0 ≤ s.2.val i) r :=
        fun h => h.mono fun _ h => h.2.2
      unfold cpuMaxout
      simp only
      split
      · refine done (safely_forN (X.d0 * X.d1) _ _ (fun i (s : Buf K × Buf ℤ) => s.1.size = X.d0 * X.d1 ∧ s.2.size = X.d0 * X.d1 ∧
          ∀ k < i, 0 ≤ s.2.val k) ⟨rfl, rfl, by simp⟩ ?_)
        intro i hi s hs
        refine (safely_read X.buf _ (by omega) (inside i hi 0 (by omega))).bind fun _ _ => ?_
        refine (safely_read X.buf _ (by omega) (inside i hi 1 (by omega))).bind fun _ _ => ?_
        exact put s i _ hi hs
      split
      · refine done (safely_forN (X.d0 * X.d1) _ _ (fun i (s : Buf K × Buf ℤ) => s.1.size = X.d0 * X.d1 ∧ s.2.size = X.d0 * X.d1 ∧
          ∀ k < i, 0 ≤ s.2.val k) ⟨rfl, rfl, by simp⟩ ?_)
        intro i hi s hs
        refine (safely_read X.buf _ (by omega) (inside i hi 0 (by omega))).bind fun _ _ => ?_
        refine (safely_read X.buf _ (by omega) (inside i hi 1 (by omega))).bind fun _ _ => ?_
        refine (safely_read X.buf _ (by omega) (inside i hi 2 (by omega))).bind fun _ _ => ?_
        exact put s i _ hi hs
      · refine done (safely_forN (X.d0 * X.d1) _ _ (fun i (s : Buf K × Buf ℤ) => s.1.size = X.d0 * X.d1 ∧ s.2.size = X.d0 * X.d1 ∧
          ∀ k < i, 0 ≤ s.2.val k) ⟨rfl, rfl, by simp⟩ ?_)
        intro i hi s hs
        refine (safely_argmaxLoop X.buf _ X.d2 (by omega) h2 ?_).bind fun r _ => ?_
        · have := inside i hi (X.d2 - 1) (by omega)
          omega
        exact put s i r hi hs
    · rintro ⟨b, w⟩ h
      exact ⟨rfl, rfl, rfl, rfl, h⟩
  · refine ⟨rfl, rfl, rfl, rfl, ?_⟩
    intro i hi
    have : X.d0 = 0 := by omega
    rw [this, Nat.zero_mul] at hi
    omega

theorem safely_backpropMaxout [Zero K] (dY : Mat K) (which : Mat ℤ) (P : ℕ) (hsize : dY.rows * dY.cols ≤ which.rows * which.cols)
    (hw : ∀ i < dY.rows * dY.cols, 0 ≤ which.val i) : Safely (fun _ => True) (backpropMaxout dY which P) := by
  unfold backpropMaxout
  refine (safely_pointer dY).bind ?_
  rintro _ ⟨rfl, _⟩
  refine (safely_pointer which).bind ?_
  rintro _ ⟨rfl, _⟩
  refine Safely.bind (R := fun _ => True) ?_ fun _ _ => trivial
  unfold cpuBackpropMaxout
  refine Safely.bind (R := fun _ => True) ?_ fun _ _ => trivial
  refine (safely_forN dY.rows _ _ (fun b (s : BackMaxout K) => s.dX.size = dY.rows * dY.cols * P ∧ s.off = ((b * dY.cols * P : ℕ) : ℤ) ∧
    s.pos = ((b * dY.cols : ℕ) : ℤ)) ⟨rfl, by simp, by simp⟩ ?_).any
  rintro b hb s hs
  refine (safely_forN dY.cols s _ (fun o (s : BackMaxout K) => s.dX.size = dY.rows * dY.cols * P ∧
    s.off = (((b * dY.cols + o) * P : ℕ) : ℤ) ∧ s.pos = ((b * dY.cols + o : ℕ) : ℤ)) (by simpa using hs) ?_).mono ?_
  · rintro o ho ⟨dX, off, pos⟩ ⟨h1, h2, h3⟩
    simp only at h1 h2 h3
    subst h2 h3
    simp only
    have hk : b * dY.cols + o < dY.rows * dY.cols := rowMajor_lt hb ho
    refine (safely_read which.buf _ (by omega) (by simp only [Mat.buf]; omega)).bind ?_
    rintro w rfl
    have hw0 : 0 ≤ which.buf.val ((b * dY.cols + o : ℕ) : ℤ).toNat := hw _ (by omega)
    generalize which.buf.val ((b * dY.cols + o : ℕ) : ℤ).toNat = w at hw0
    split
    · exact nofun
    refine (safely_read dY.buf _ (by omega) (by simp only [Mat.buf]; omega)).bind fun _ _ => ?_
    have hin : (b * dY.cols + o + 1) * P ≤ dY.rows * dY.cols * P := Nat.mul_le_mul_right _ hk
    have e : (b * dY.cols + o + 1) * P = (b * dY.cols + o) * P + P := by ring
    refine (safely_write dX _ _ (by omega) (by rw [h1]; omega)).bind ?_
    rintro _ rfl
    exact ⟨h1, by push_cast; ring, by push_cast; ring⟩
  · rintro s' ⟨h1, h2, h3⟩
    exact ⟨h1, by rw [h2]; congr 1; ring, by rw [h3]; congr 1; ring⟩

/-! ### Windows -/

theorem safely_checkLengths (ls : Option (List ℤ)) (B : ℕ) :
    Safely (fun l => (∀ x ∈ l, 0 ≤ x) ∧ l.sum = (B : ℤ)) (checkSeq2colLengths ls B) := by
  unfold checkSeq2colLengths
  cases ls with
  | none => exact ⟨by simp, by simp⟩
  | some l =>
    simp only
    split
    · exact nofun
    split
    · exact nofun
    · rename_i h1 h2
      exact ⟨by simpa using h1, by simpa using h2⟩

/-- The places that one row of a window touches. -/
theorem window_inside (I B nW : ℕ) (j a e : ℤ) (ha : 0 ≤ a) (haj : a ≤ j) (hje : j < e) (he : e ≤ B) :
    0 ≤ max a (j - nW) * I ∧
    max a (j - nW) * I + (((min e (j + nW + 1) - max a (j - nW)) * I).toNat : ℤ) ≤ B * I ∧
    0 ≤ j * (nW * 2 + 1 : ℤ) * I + (max a (j - nW) - (j - nW)) * I ∧
    j * (nW * 2 + 1 : ℤ) * I + (max a (j - nW) - (j - nW)) * I + (((min e (j + nW + 1) - max a (j - nW)) * I).toNat : ℤ) ≤
      B * ((nW * 2 + 1) * I) := by
  obtain ⟨s, hs⟩ : ∃ s, s = max a (j - nW) := ⟨_, rfl⟩
  obtain ⟨f, hf⟩ : ∃ f, f = min e (j + nW + 1) := ⟨_, rfl⟩
  rw [← hs, ← hf]
  have hI : (0 : ℤ) ≤ I := by omega
  have h1 : 0 ≤ s := by omega
  have h2 : s ≤ f := by omega
  have h3 : f ≤ B := by omega
  have h5 : 0 ≤ s - (j - nW) := by omega
  have h6 : f - (j - nW) ≤ nW * 2 + 1 := by omega
  have hn : (((f - s) * I).toNat : ℤ) = (f - s) * I := Int.toNat_of_nonneg (Int.mul_nonneg (by omega) hI)
  rw [hn]
  refine ⟨Int.mul_nonneg h1 hI, ?_, ?_, ?_⟩
  · have := Int.mul_le_mul_of_nonneg_right h3 hI
    linarith [Int.sub_mul f s I]
  · exact Int.add_nonneg (Int.mul_nonneg (Int.mul_nonneg (by omega) (by omega)) hI) (Int.mul_nonneg h5 hI)
  · have e1 : j * (nW * 2 + 1 : ℤ) * I + (s - (j - nW)) * I + (f - s) * I = (j * (nW * 2 + 1) + (f - (j - nW))) * I := by ring
    have e2 : (B : ℤ) * ((nW * 2 + 1) * I) = (B * (nW * 2 + 1)) * I := by ring
    rw [e1, e2]
    refine Int.mul_le_mul_of_nonneg_right ?_ hI
    have : (j + 1) * (nW * 2 + 1 : ℤ) ≤ B * (nW * 2 + 1) := Int.mul_le_mul_of_nonneg_right (by omega) (by omega)
    linarith [Int.add_mul j 1 (nW * 2 + 1 : ℤ)]

/-- The loop over the rows of the sequences: every row lies in its sequence and in the array. -/
theorem safely_rows {σ : Type} (B : ℕ) (row : ℤ → ℤ → σ → ℤ → Except PyErr σ) (Q : σ → Prop) (ls : List ℤ) (hpos : ∀ l ∈ ls, 0 ≤ l)
    (hsum : ls.sum = (B : ℤ)) (s : σ) (h0 : Q s)
    (step : ∀ (a e : ℤ) (s : σ) (j : ℤ), 0 ≤ a → a ≤ j → j < e → e ≤ (B : ℤ) → Q s → Safely Q (row a e s j)) :
    Safely (fun p => Q p.1) (forM' ls (s, (0 : ℤ)) (fun s length => do
      let out ← forN length.toNat s.1 (fun out k => row s.2 (s.2 + length) out (s.2 + k))
      return (out, s.2 + length))) := by
  have := safely_forM' ls (s, (0 : ℤ)) (fun s length => do
      let out ← forN length.toNat s.1 (fun out k => row s.2 (s.2 + length) out (s.2 + k))
      return (out, s.2 + length)) (fun xs p => Q p.1 ∧ 0 ≤ p.2 ∧ p.2 + xs.sum = B ∧ ∀ l ∈ xs, 0 ≤ l)
    ⟨h0, by simp, by simpa using hsum, hpos⟩ (by
      rintro l xs ⟨s, a⟩ ⟨h1, h2, h3, h4⟩
      simp only at h1 h2 h3
      simp only [List.sum_cons] at h3
      have hl := h4 l (by simp)
      have hxs : 0 ≤ xs.sum := List.sum_nonneg fun x hx => h4 x (by simp [hx])
      refine Safely.bind (R := Q) ?_ ?_
      · refine safely_forN l.toNat s _ (fun _ => Q) h1 ?_
        intro k hk s' hs'
        exact step a (a + l) s' (a + k) h2 (by omega) (by omega) (by omega) hs'
      · intro s' hs'
        exact ⟨hs', by simp only; omega, by simp only; omega, fun x hx => h4 x (by simp [hx])⟩)
  exact this.mono fun _ h => h.1

theorem safely_seq2col [Zero K] (seq : Mat K) (nW : ℕ) (ls : Option (List ℤ)) : Safely (fun _ => True) (seq2col seq nW ls) := by
  unfold seq2col
  refine (safely_checkLengths ls seq.rows).bind ?_
  rintro l ⟨hpos, hsum⟩
  simp only
  split
  · refine Safely.bind (R := fun _ => True) ?_ fun _ _ => trivial
    unfold cpuSeq2col
    refine (safely_rows seq.rows (seq2colRow seq.buf nW seq.cols)
      (fun out => out.size = seq.rows * ((2 * nW + 1) * seq.cols)) l hpos hsum _ rfl ?_).bind fun _ _ => trivial
    intro a e out j ha haj hje he hout
    obtain ⟨h1, h2, h3, h4⟩ := window_inside seq.cols seq.rows nW j a e ha haj hje he
    unfold seq2colRow
    refine (safely_memcpy out _ seq.buf _ _ h3 ?_ h1 ?_).mono fun _ h => h.trans hout
    · rw [hout]; push_cast; rw [Int.mul_comm 2 (nW : ℤ)]; exact h4
    · simp only [Mat.buf]; push_cast; exact h2
  · trivial

theorem safely_backpropSeq2col [Semiring K] (dY : Mat K) (nW : ℕ) (ls : Option (List ℤ)) :
    Safely (fun _ => True) (backpropSeq2col dY nW ls) := by
  unfold backpropSeq2col
  refine (safely_checkLengths ls dY.rows).bind ?_
  rintro l ⟨hpos, hsum⟩
  simp only
  split
  · refine Safely.bind (R := fun _ => True) ?_ fun _ _ => trivial
    unfold cpuBackpropSeq2col
    refine (safely_rows dY.rows (backpropSeq2colRow dY.buf nW (dY.cols / (nW * 2 + 1)))
      (fun dX => dX.size = dY.rows * (dY.cols / (nW * 2 + 1))) l hpos hsum _ rfl ?_).bind fun _ _ => trivial
    intro a e dX j ha haj hje he hdX
    obtain ⟨h1, h2, h3, h4⟩ := window_inside (dY.cols / (nW * 2 + 1)) dY.rows nW j a e ha haj hje he
    have hI : (nW * 2 + 1) * (dY.cols / (nW * 2 + 1)) ≤ dY.cols := Nat.mul_div_le _ _
    unfold backpropSeq2colRow
    refine (safely_vecAdd dX _ dY.buf _ _ _ h1 ?_ h3 ?_).mono fun _ h => h.trans hdX
    · rw [hdX]; rw [Nat.cast_mul]; exact h2
    · have hb : dY.rows * ((nW * 2 + 1) * (dY.cols / (nW * 2 + 1))) ≤ dY.rows * dY.cols := Nat.mul_le_mul_left _ hI
      refine h4.trans ?_
      simp only [Mat.buf]
      exact_mod_cast hb
  · trivial

/-! ### Tables -/

theorem safely_gatherAdd [Semiring K] (table : Mat K) (idx : Mat ℤ)
    (h : ∀ i < idx.rows * idx.cols, 0 ≤ idx.val i ∧ (idx.val i < table.rows ∨ (table.rows : ℤ) < idx.val i)) :
    Safely (fun _ => True) (gatherAdd table idx) := by
  unfold gatherAdd
  refine (safely_pointer table).bind ?_
  rintro _ ⟨rfl, _⟩
  refine (safely_pointer idx).bind ?_
  rintro _ ⟨rfl, _⟩
  refine Safely.bind (R := fun _ => True) ?_ fun _ _ => trivial
  have hO : (0 : ℤ) ≤ table.cols := by omega
  unfold cpuGatherAdd
  refine (safely_forN idx.rows _ _ (fun _ (out : Buf K) => out.size = idx.rows * table.cols) rfl ?_).any
  intro b hb out hout
  refine safely_forN idx.cols out _ (fun _ (out : Buf K) => out.size = idx.rows * table.cols) hout ?_
  intro k hk out hout
  have hin : b * idx.cols + k < idx.rows * idx.cols := rowMajor_lt hb hk
  refine (safely_read idx.buf _ (by omega) (by simp only [Mat.buf]; omega)).bind ?_
  rintro i rfl
  have hi : 0 ≤ idx.buf.val ((b * idx.cols + k : ℕ) : ℤ).toNat ∧ (idx.buf.val ((b * idx.cols + k : ℕ) : ℤ).toNat < table.rows ∨
    (table.rows : ℤ) < idx.buf.val ((b * idx.cols + k : ℕ) : ℤ).toNat) := h _ (by omega)
  generalize idx.buf.val ((b * idx.cols + k : ℕ) : ℤ).toNat = i at hi
  split
  · exact nofun
  have hr : (b : ℤ) * table.cols + table.cols ≤ idx.rows * table.cols := row_inside (by omega) hO
  have ht : i * table.cols + table.cols ≤ table.rows * table.cols := row_inside (by omega) hO
  refine (safely_vecAdd out _ table.buf _ _ _ (by omega) ?_ (Int.mul_nonneg hi.1 hO) ?_).mono fun _ h => h.trans hout
  · rw [hout]; push_cast; exact hr
  · simp only [Mat.buf]; push_cast; exact ht

theorem safely_addAt [Semiring K] (table : Mat K) (is : List ℤ) (values : Mat K) :
    Safely (fun T => T.rows = table.rows ∧ T.cols = table.cols) (addAt table is values) := by
  unfold addAt
  split
  · exact nofun
  split
  · exact nofun
  · exact ⟨rfl, rfl⟩

theorem safely_scatterAdd [Semiring K] (fast : Bool) (table : Mat K) (is : List ℤ) (values : Mat K) (h : ∀ i ∈ is, i < table.rows) :
    Safely (fun T => T.rows = table.rows ∧ T.cols = table.cols) (scatterAdd fast table is values) := by
  unfold scatterAdd
  split
  · rename_i hc
    have hO : (0 : ℤ) ≤ table.cols := by omega
    refine Safely.bind (R := fun _ => True) ?_ fun _ _ => ⟨rfl, rfl⟩
    unfold cpuScatterAdd
    refine Safely.bind (R := fun _ => True) ?_ fun _ _ => trivial
    refine (safely_forM' is _ _ (fun xs (s : Buf K × ℕ) => s.1.size = table.rows * table.cols ∧ s.2 + xs.length = is.length ∧
      ∀ x ∈ xs, x < table.rows) ⟨rfl, by simp, h⟩ ?_).any
    rintro i xs ⟨dest, n⟩ ⟨h1, h2, h3⟩
    simp only at h1 h2
    simp only [List.length_cons] at h2
    simp only
    split
    · have hi := h3 i (by simp)
      have ht : i * table.cols + table.cols ≤ table.rows * table.cols := row_inside (by omega) hO
      have hv : (n : ℤ) * table.cols + table.cols ≤ is.length * table.cols := row_inside (by omega) hO
      refine (safely_vecAdd dest _ values.buf _ _ _ (Int.mul_nonneg (by omega) hO) ?_ (by omega) ?_).bind ?_
      · rw [h1]; push_cast; exact ht
      · simp only [Mat.buf]; rw [hc.2.1, hc.2.2]; push_cast; exact hv
      · intro d hd
        exact ⟨hd.trans h1, by simp only; omega, fun x hx => h3 x (by simp [hx])⟩
    · exact ⟨h1, by simp only; omega, fun x hx => h3 x (by simp [hx])⟩
  · exact safely_addAt table is values

theorem safely_scatterColumns [Semiring K] (fast : Bool) (rows cols : ℕ) (keys : Mat ℤ) (d : Mat K)
    (h : ∀ b < keys.rows, ∀ k < keys.cols, keys.at b k < rows) : Safely (fun _ => True) (scatterColumns fast rows cols keys d) := by
  unfold scatterColumns
  refine (safely_forN keys.cols _ _ (fun _ (T : Mat K) => T.rows = rows) rfl ?_).any
  intro k hk T hT
  refine (safely_scatterAdd fast T _ d ?_).mono fun T' h' => h'.1.trans hT
  intro i hi
  simp only [Mat.column, List.mem_map, List.mem_range] at hi
  obtain ⟨b, hb, rfl⟩ := hi
  rw [hT]
  exact h b hb k hk

end Thinc
