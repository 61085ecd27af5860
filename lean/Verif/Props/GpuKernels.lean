import Verif.Spec.Gpu
import Verif.Lemmas.GpuKernels
import Verif.Props.Pooling
import Verif.Props.Seq2col
import Verif.Props.Pad
import Verif.Lemmas.Softmax
import Mathlib.Tactic.Ring
import Mathlib.Data.List.GetD
/-!
# C95: the CUDA kernels give the specified result for every launch size and every schedule
-/
namespace Thinc.Gpu
open Finset Spec
variable {K : Type}

/-! ### From items to arrays -/

theorem always_rows {N w : Nat} {R : Type} {m0 : Mem K} {J : Nat → R → Prop} {f : Nat → Nat → K} (body : R → Nat → Prog K R) (s0 : R)
    (hsize : m0.size 0 = N * w) (hJ0 : J 0 s0) (hJ : ∀ b b' s, b ≤ b' → J b s → J b' s)
    (hbody : ∀ b < N, ∀ s m, J b s → m.size = m0.size → (∀ p n, p ≠ 0 → m.get (p, n) = m0.get (p, n)) →
      (∀ o < w, m.get (0, b * w + o) = m0.get (0, b * w + o)) →
      (body s b).wp (fun l => l.1 ≠ 0 ∨ ownRow 0 w b l) (ownRow 0 w b) m
        (fun s m => J b s ∧ ∀ o < w, m.get (0, b * w + o) = .num (f b o))) :
    Always (grid N s0 body) m0 (fun m => m.Holds 0 N w f ∧ m.SameFrom 1 m0) := by
  refine Always.mono (always_grid (O := ownRow 0 w) (ro := fun l => l.1 ≠ 0) (P := fun b m => ∀ o < w, m.get (0, b * w + o) = .num (f b o))
    (J := J) body s0 (fun b b' l _ _ => ownRow_disj 0 w b b' l) (fun b l _ h hr => hr h.1)
    (fun b m m' h hp o ho => by rw [← h _ ⟨rfl, o, ho, rfl⟩]; exact hp o ho) hJ0 hJ ?_) ?_
  · intro b hb s m hj hs hro hO
    exact hbody b hb s m hj hs (fun p n hp => hro _ hp) (fun o ho => hO _ ⟨rfl, o, ho, rfl⟩)
  · rintro m ⟨h1, h2, h3⟩
    refine ⟨⟨by rw [h1, hsize], h2⟩, fun p hp => ⟨by rw [h1], fun i => h3 _ (fun b _ h => ?_)⟩⟩
    have := h.1
    simp only at this
    omega

/-- When no kernel is launched, nothing changes. -/
theorem always_none (m0 : Mem K) : Always (fun _ _ => .ret ()) m0 (fun m => m.size = m0.size ∧ ∀ l, m.get l = m0.get l) := by
  have h := always_grid (N := 0) (O := fun _ _ => False) (ro := fun _ => True) (P := fun _ _ => True) (m0 := m0) (J := fun _ _ => True)
    (fun (_ : Unit) _ => .ret ()) () (fun _ _ _ _ _ h => h.elim) (fun _ _ _ h => h.elim) (fun _ _ _ _ _ => trivial) trivial
    (fun _ _ _ _ _ => trivial) (fun b hb => absurd hb (by omega))
  exact Always.mono h (fun m h => ⟨h.1, fun l => h.2.2 l (fun _ _ h => h)⟩)

theorem lens_size (ls : List Nat) : (lens (asInts ls) : Nat × (Nat → Cell K)).1 = ls.length := asInts_length ls

theorem lens_val (ls : List Nat) (k : Nat) (hk : k < ls.length) : (lens (asInts ls) : Nat × (Nat → Cell K)).2 k = .int (ls.getD k 0) := by
  simp [lens, ints, asInts, hk]

theorem checkLengths_fine (ls : List Nat) (n : Nat) (lo : Int) (hlo : ∀ l ∈ ls, lo ≤ l) (h : ls.sum = n) :
    gpuCheckLengths (asInts ls) n lo = .ok () := by
  unfold gpuCheckLengths
  rw [if_neg, if_neg]
  · rw [asInts_sum, h]
    simp
  · rw [not_not]
    simpa [asInts] using hlo

theorem checkLengths_bad (ls : List Int) (n : Nat) (lo : Int) :
    ((∃ l ∈ ls, l < lo) → gpuCheckLengths ls n lo = .error .valueError) ∧
    ((∀ l ∈ ls, lo ≤ l) → ls.sum ≠ n → gpuCheckLengths ls n lo = .error .indexError) := by
  constructor
  · rintro ⟨l, hl, hlt⟩
    unfold gpuCheckLengths
    rw [if_pos]
    intro h
    have := of_decide_eq_true (List.all_eq_true.1 h l hl)
    omega
  · intro h1 h2
    unfold gpuCheckLengths
    rw [if_neg, if_pos h2]
    rw [not_not]
    simpa using h1

theorem row_of {ls : List Nat} {b : Nat} (hb : b < ls.sum) : ∃ q < ls.length, ∃ t < seqLen ls q, b = seqStart ls q + t := by
  induction ls generalizing b with
  | nil => simp at hb
  | cons l ls ih =>
    by_cases h : b < l
    · exact ⟨0, by simp, b, by simpa [seqLen] using h, by simp [seqStart]⟩
    · obtain ⟨q, hq, t, ht, e⟩ := ih (b := b - l) (by simp at hb; omega)
      refine ⟨q + 1, by simpa using hq, t, by simpa [seqLen] using ht, ?_⟩
      simp only [seqStart] at e ⊢
      simp only [List.take_succ_cons, List.sum_cons]
      omega

theorem seqVar0 (ls : List Nat) : SeqVar ls 0 (0, 0) := ⟨by simp, by simp [seqStart], by simp [seqStart]⟩

/-- A matrix with a row for each row of the sequences, given sequence by sequence. -/
theorem always_seqRows {w : Nat} {ls : List Nat} {m0 : Mem K} {f : Nat → Nat → Nat → K} (body : Nat × Int → Nat → Prog K (Nat × Int))
    (hsize : m0.size 0 = ls.sum * w)
    (hbody : ∀ b < ls.sum, ∀ s m, SeqVar ls b s → m.size = m0.size → (∀ p n, p ≠ 0 → m.get (p, n) = m0.get (p, n)) →
      (∀ o < w, m.get (0, b * w + o) = m0.get (0, b * w + o)) →
      (body s b).wp (fun l => l.1 ≠ 0 ∨ ownRow 0 w b l) (ownRow 0 w b) m
        (fun s m => SeqVar ls b s ∧ ∀ q < ls.length, ∀ t < seqLen ls q, b = seqStart ls q + t → ∀ o < w,
          m.get (0, b * w + o) = .num (f q t o))) :
    ∃ Y : Mat K, Y.rows = ls.sum ∧ Y.cols = w ∧ (∀ q < ls.length, ∀ t < seqLen ls q, ∀ o < w, seqAt Y ls q t o = f q t o) ∧
      Always (grid ls.sum (0, 0) body) m0 (fun m => m.Holds 0 Y.rows Y.cols Y.at ∧ m.SameFrom 1 m0) := by
  classical
  have hex : ∀ b, ∃ g : Nat → K, ∀ q < ls.length, ∀ t < seqLen ls q, b = seqStart ls q + t → ∀ o < w, g o = f q t o := by
    intro b
    by_cases hb : b < ls.sum
    · obtain ⟨q, hq, t, ht, rfl⟩ := row_of hb
      refine ⟨f q t, fun q' hq' t' ht' e o _ => ?_⟩
      have hat : SeqAt ls (seqStart ls q + t) (q, (seqStart ls q : Int)) := ⟨hq, rfl, Nat.le_add_right _ _, Nat.add_lt_add_left ht _⟩
      rw [e] at hat
      have := hat.unique hq' ht'
      simp only at this
      subst this
      obtain rfl : t = t' := by omega
      rfl
    · refine ⟨fun o => f 0 0 o, fun q hq t ht e => absurd (seqEnd_le ls q hq) ?_⟩
      simp only [seqLen] at ht ⊢
      omega
  choose g hg using hex
  refine ⟨Mat.ofFn ls.sum w g, rfl, rfl, fun q hq t ht o ho => ?_, ?_⟩
  · rw [seqAt, ofFn_at _ _ _ _ _ ho]
    exact hg _ q hq t ht rfl o ho
  · have := always_rows (J := SeqVar ls) (f := g) body (0, 0) hsize (seqVar0 ls) (fun b b' s h => SeqVar.mono h) (fun b hb s m h1 h2 h3 h4 =>
      wp_mono (fun s m' h => ⟨h.1, fun o ho => by
        obtain ⟨q, hq, t, ht, e⟩ := row_of hb
        rw [h.2 q hq t ht e o ho, hg b q hq t ht e o ho]⟩) (hbody b hb s m h1 h2 h3 h4))
    refine Always.mono this (fun m h => ⟨⟨h.1.1, fun i hi j hj => ?_⟩, h.2⟩)
    rw [ofFn_at ls.sum w g i j hj]
    exact h.1.2 i hi j hj

/-! ### gather_add -/

theorem toInt32_small (k : Int) (h0 : -2 ^ 31 ≤ k) (h : k < 2 ^ 31) : toInt32 k = k := by
  unfold toInt32
  omega

/-- **C95**: `gather_add` on the GPU, with any number of blocks and threads and any interleaving, adds up the rows with the given
indices.  Missing from the full claim: indices outside of the table are not always rejected (`C95_gather_add_wraps`). -/
theorem C95_gather_add_partial [AddCommMonoid K] (table : Mat K) (idx : Mat Int) (hT : table.rows ≤ 2 ^ 31)
    (hix : ∀ b < idx.rows, ∀ k < idx.cols, 0 ≤ idx.at b k ∧ idx.at b k < table.rows) :
    ∃ L, gpuGatherAdd table idx = .ok L ∧ Always L.kernel L.mem (fun m =>
      m.Holds 0 idx.rows table.cols (fun b o => ∑ k ∈ range idx.cols, table.at (idx.at b k).toNat o) ∧ m.SameFrom 1 L.mem) := by
  unfold gpuGatherAdd
  have hall : ∀ k < idx.rows * idx.cols, 0 ≤ idx.val k ∧ idx.val k < table.rows := by
    intro k hk
    have hc : 0 < idx.cols := by
      rcases Nat.eq_zero_or_pos idx.cols with h | h
      · rw [h] at hk; omega
      · exact h
    have h := hix (k / idx.cols) (Nat.div_lt_of_lt_mul (by rwa [Nat.mul_comm])) (k % idx.cols) (Nat.mod_lt _ hc)
    simpa only [Mat.at, Nat.div_add_mod'] using h
  have h32 : ∀ k < idx.rows * idx.cols, toInt32 (idx.val k) = idx.val k := fun k hk =>
    toInt32_small _ (by have := hall k hk; omega) (by have := hall k hk; omega)
  rw [if_pos (by
    rw [List.all_eq_true]
    intro k hk
    have hk := List.mem_range.1 hk
    simp only [h32 k hk]
    exact decide_eq_true (hall k hk))]
  refine ⟨_, rfl, ?_⟩
  refine always_rows (J := fun _ _ => True) _ _ rfl trivial (fun _ _ _ _ _ => trivial) ?_
  intro b hb s m _ hs hro h0
  refine wp_mono (fun _ m' h => ⟨trivial, fun o ho => ?_⟩) (wp_gatherAdd (T := table.rows) (tab := table.val)
    (idx := fun k => idx.at b k) ?_ ?_ ?_ ?_ ?_ ?_ ?_)
  · intro o ho
    rw [hs]
    exact rowMajor_lt hb ho
  · intro j hj
    rw [hs]
    exact hj
  · intro k hk
    rw [hs]
    exact rowMajor_lt hb hk
  · intro o ho
    rw [h0 o ho]
    rfl
  · intro j hj
    rw [hro _ _ (by simp)]
    rfl
  · intro k hk
    rw [hro _ _ (by simp)]
    show Cell.int (toInt32 (idx.val (b * idx.cols + k))) = _
    rw [h32 _ (rowMajor_lt hb hk)]
    rfl
  · exact fun k hk => hix b hb k hk
  · rw [h o ho]
    rfl

example : let table : Mat ℚ := ⟨3, 2, fun k => k⟩
    let idx : Mat Int := ⟨2, 2, fun k => [2, 0, 1, 1].getD k 0⟩
    table.rows ≤ 2 ^ 31 ∧ ∀ b < idx.rows, ∀ k < idx.cols, 0 ≤ idx.at b k ∧ idx.at b k < table.rows := by decide

/-- **C95**: an index that is negative or too large raises IndexError, if it fits into 32 bits. -/
theorem C95_gather_add_raises [Add K] [Zero K] (table : Mat K) (idx : Mat Int) (b k : Nat) (hb : b < idx.rows) (hk : k < idx.cols)
    (h1 : -2 ^ 31 ≤ idx.at b k) (h2 : idx.at b k < 2 ^ 31) (hbad : idx.at b k < 0 ∨ (table.rows : Int) ≤ idx.at b k) :
    gpuGatherAdd table idx = .error .indexError := by
  unfold gpuGatherAdd
  refine if_neg fun h => ?_
  have := of_decide_eq_true (List.all_eq_true.1 h (b * idx.cols + k) (List.mem_range.2 (rowMajor_lt hb hk)))
  simp only [Mat.at] at h1 h2 hbad
  simp only [toInt32_small _ h1 h2] at this
  omega

example : let table : Mat ℚ := ⟨3, 2, fun k => k⟩
    let idx : Mat Int := ⟨1, 1, fun _ => 3⟩
    (-2 ^ 31 : Int) ≤ idx.at 0 0 ∧ idx.at 0 0 < 2 ^ 31 ∧ (idx.at 0 0 < 0 ∨ (table.rows : Int) ≤ idx.at 0 0) := by decide

/-- **C95**, where the claim fails: the indices are converted to 32 bits before they are checked, so that the index 2^32 is taken for 0. -/
theorem C95_gather_add_wraps : ∃ L, gpuGatherAdd (⟨1, 1, fun _ => 5⟩ : Mat ℚ) ⟨1, 1, fun _ => 2 ^ 32⟩ = .ok L := ⟨_, rfl⟩

/-! ### seq2col -/

theorem gpuLengths_fine (lengths : Option (List Nat)) (n : Nat) (hsum : (effLengths lengths n).sum = n) :
    gpuSeq2colLengths (lengths.map asInts) n = .ok (asInts (effLengths lengths n)) := by
  cases lengths with
  | none => rfl
  | some ls =>
    simp only [effLengths, Option.getD_some, Option.map_some] at *
    unfold gpuSeq2colLengths
    simp only [checkLengths_fine ls n 0 (fun l _ => by omega) hsum, bind, Except.bind, pure, Except.pure]

/-- **C95**: `seq2col` on the GPU gives for each row the rows of its window that belong to the same sequence, and zeros elsewhere. -/
theorem C95_seq2col [Zero K] (X : Mat K) (nW : Nat) (lengths : Option (List Nat)) (ls : List Nat)
    (hls : ls = effLengths lengths X.rows) (hsum : ls.sum = X.rows) :
    ∃ L Y, gpuSeq2col X nW (lengths.map asInts) = .ok L ∧ Y.rows = X.rows ∧ Y.cols = (2 * nW + 1) * X.cols ∧
      (∀ b < ls.length, ∀ t < seqLen ls b, ∀ k < 2 * nW + 1, ∀ i < X.cols, seqAt Y ls b t (k * X.cols + i) =
        if nW ≤ t + k ∧ t + k - nW < seqLen ls b then seqAt X ls b (t + k - nW) i else 0) ∧
      Always L.kernel L.mem (fun m => m.Holds 0 Y.rows Y.cols Y.at ∧ m.SameFrom 1 L.mem) := by
  have hl := gpuLengths_fine lengths X.rows (by rw [← hls]; exact hsum)
  rw [← hls] at hl
  unfold gpuSeq2col
  rw [hl]
  simp only [bind, Except.bind, pure, Except.pure]
  by_cases h0 : X.rows * X.cols ≠ 0 ∧ (asInts ls).length ≠ 0
  · rw [if_pos h0]
    rw [asInts_length, ← hsum]
    have key := always_seqRows (K := K) (w := X.cols * (nW * 2 + 1)) (ls := ls)
      (m0 := memOf [nums (ls.sum * (X.cols * (nW * 2 + 1))) (fun _ => 0), nums (ls.sum * X.cols) X.val, lens (asInts ls)])
      (f := fun q t o => if nW ≤ t + o / X.cols ∧ t + o / X.cols - nW < seqLen ls q then seqAt X ls q (t + o / X.cols - nW) (o % X.cols) else 0)
      (seq2colBody 0 1 2 nW X.cols ls.length) rfl ?_
    · obtain ⟨Y, hY1, hY2, hY3, hY4⟩ := key
      refine ⟨_, Y, rfl, hY1, by rw [hY2]; ring, fun b hb t ht k hk i hi => ?_, hY4⟩
      rw [hY3 b hb t ht _ (by rw [Nat.mul_comm X.cols]; exact rowMajor_lt (by omega) hi), rowMajor_div _ _ _ hi, rowMajor_mod _ _ _ hi]
    · intro b hb s m hv hs hro hz
      have hw := wp_seq2col (nW := nW) (I := X.cols) (x := X.val) hv hb (m := m) (fun j hj => by rw [hs]; exact hj)
        (fun j hj => by rw [hs]; exact hj) (fun k hk => by rw [hs]; exact hk.trans_eq (lens_size (K := K) ls).symm)
        (fun j hj => by rw [hz j hj]; rfl) (fun j hj => by rw [hro _ _ (by simp)]; rfl)
        (fun k hk => by rw [hro _ _ (by simp)]; exact lens_val ls k hk)
      refine wp_mono (fun s m' h => ⟨h.1, fun q hq t ht e o ho => ?_⟩) hw
      have hI : 0 < X.cols := by
        rcases Nat.eq_zero_or_pos X.cols with h | h
        · rw [h] at ho; omega
        · exact h
      have := h.2 q hq t ht e (o / X.cols) (Nat.div_lt_of_lt_mul (by rw [Nat.mul_comm 2]; exact ho)) (o % X.cols) (Nat.mod_lt _ hI)
      rw [Nat.div_add_mod'] at this
      rw [this]
      rfl
  · rw [if_neg h0]
    rw [asInts_length] at h0
    have hz : ls.sum * X.cols = 0 := by
      by_contra hc
      rw [hsum] at hc
      have : ls.length = 0 := by
        by_contra h
        exact h0 ⟨hc, h⟩
      rw [List.length_eq_zero_iff.1 this] at hsum
      simp at hsum
      rw [← hsum] at hc
      simp at hc
    refine ⟨_, ⟨X.rows, (2 * nW + 1) * X.cols, fun _ => 0⟩, rfl, rfl, rfl, fun b hb t ht k hk i hi => ?_, ?_⟩
    · exfalso
      have := seqEnd_le ls b hb
      have : 0 < ls.sum * X.cols := Nat.mul_pos (by simp only [seqLen] at ht this; omega) (by omega)
      omega
    · refine Always.mono (always_none _) (fun m h => ⟨⟨?_, fun i hi j hj => ?_⟩, fun p _ => ⟨by rw [h.1], fun i => h.2 _⟩⟩)
      · rw [h.1]
        show X.rows * (X.cols * (nW * 2 + 1)) = _
        ring
      · rw [h.2]
        rfl

example : (effLengths (some [2, 0, 3]) 5).sum = 5 ∧ (effLengths none 5).sum = 5 := by decide

/-- **C95**: `backprop_seq2col` on the GPU sums up for each row the gradients of all the windows it was copied to. -/
theorem C95_backprop_seq2col [AddCommMonoid K] (dY : Mat K) (nW I : Nat) (lengths : Option (List Nat)) (ls : List Nat)
    (hls : ls = effLengths lengths dY.rows) (hsum : ls.sum = dY.rows) (hI : dY.cols = (2 * nW + 1) * I) :
    ∃ L dX, gpuBackpropSeq2col dY nW (lengths.map asInts) = .ok L ∧ dX.rows = dY.rows ∧ dX.cols = I ∧
      (∀ b < ls.length, ∀ s < seqLen ls b, ∀ i < I, seqAt dX ls b s i =
        ∑ t ∈ range (seqLen ls b), if t ≤ s + nW ∧ s ≤ t + nW then seqAt dY ls b t ((s + nW - t) * I + i) else 0) ∧
      Always L.kernel L.mem (fun m => m.Holds 0 dX.rows dX.cols dX.at ∧ m.SameFrom 1 L.mem) := by
  have hl := gpuLengths_fine lengths dY.rows (by rw [← hls]; exact hsum)
  rw [← hls] at hl
  have hdiv : dY.cols / (nW * 2 + 1) = I := by
    rw [hI, Nat.mul_comm nW 2, Nat.mul_div_cancel_left _ (by omega)]
  have hcols : dY.cols = I * (nW * 2 + 1) := by rw [hI]; ring
  unfold gpuBackpropSeq2col
  rw [hl]
  simp only [bind, Except.bind, pure, Except.pure, hdiv]
  by_cases h0 : dY.rows * dY.cols ≠ 0 ∧ (asInts ls).length ≠ 0
  · rw [if_pos h0, asInts_length, ← hsum]
    have key := always_seqRows (K := K) (w := I) (ls := ls)
      (m0 := memOf [nums (ls.sum * I) (fun _ => 0), nums (ls.sum * dY.cols) dY.val, lens (asInts ls)])
      (f := fun q s i => ∑ t ∈ range (seqLen ls q), if t ≤ s + nW ∧ s ≤ t + nW then seqAt dY ls q t ((s + nW - t) * I + i) else 0)
      (backpropSeq2colBody 0 1 2 nW I ls.length) rfl ?_
    · obtain ⟨Y, hY1, hY2, hY3, hY4⟩ := key
      exact ⟨_, Y, rfl, hY1, hY2, hY3, hY4⟩
    · intro b hb s m hv hs hro hz
      have hw := wp_backpropSeq2col (nW := nW) (I := I) (y := dY.val) hv hb (m := m) (fun j hj => by rw [hs]; exact hj)
        (fun j hj => by rw [hs]; rw [← hcols] at hj; exact hj)
        (fun k hk => by rw [hs]; exact hk.trans_eq (lens_size (K := K) ls).symm)
        (fun j hj => by rw [hz j hj]; rfl) (fun j hj => by rw [hro _ _ (by simp)]; rfl)
        (fun k hk => by rw [hro _ _ (by simp)]; exact lens_val ls k hk)
      refine wp_mono (fun s m' h => ⟨h.1, fun q hq t ht e o ho => ?_⟩) hw
      rw [h.2 q hq t ht e o ho]
      simp only [seqAt, Mat.at, hcols]
  · rw [if_neg h0]
    rw [asInts_length] at h0
    refine ⟨_, ⟨dY.rows, I, fun _ => 0⟩, rfl, rfl, rfl, fun b hb t ht i hi => ?_, ?_⟩
    · exfalso
      have hle := seqEnd_le ls b hb
      have h1 : 0 < dY.rows := by simp only [seqLen] at ht hle; omega
      have h2 : 0 < dY.cols := by rw [hI]; exact Nat.mul_pos (by omega) (by omega)
      exact h0 ⟨(Nat.mul_pos h1 h2).ne', by omega⟩
    · refine Always.mono (always_none _) (fun m h => ⟨⟨?_, fun i hi j hj => ?_⟩, fun p _ => ⟨by rw [h.1], fun i => h.2 _⟩⟩)
      · rw [h.1]
        rfl
      · rw [h.2]
        rfl

example : let dY : Mat ℚ := ⟨5, 6, fun k => k⟩
    (effLengths (some [2, 0, 3]) dY.rows).sum = dY.rows ∧ dY.cols = (2 * 1 + 1) * 2 := by decide

/-- **C95**: lengths that are negative or do not add up to the number of rows raise an exception on the GPU as well. -/
theorem C95_seq2col_bad_lengths [AddCommMonoid K] (X : Mat K) (nW : Nat) (ls : List Int) :
    ((∃ l ∈ ls, l < 0) → gpuSeq2col X nW (some ls) = .error .valueError ∧ gpuBackpropSeq2col X nW (some ls) = .error .valueError) ∧
    ((∀ l ∈ ls, 0 ≤ l) → ls.sum ≠ X.rows →
      gpuSeq2col X nW (some ls) = .error .indexError ∧ gpuBackpropSeq2col X nW (some ls) = .error .indexError) := by
  obtain ⟨h1, h2⟩ := checkLengths_bad ls X.rows 0
  constructor
  · intro h
    simp only [gpuSeq2col, gpuBackpropSeq2col, gpuSeq2colLengths, h1 h, bind, Except.bind, and_self]
  · intro h h'
    simp only [gpuSeq2col, gpuBackpropSeq2col, gpuSeq2colLengths, h2 h h', bind, Except.bind, and_self]

example : (∃ l ∈ [2, -1], l < (0 : Int)) ∧ (∀ l ∈ [2, 1], (0 : Int) ≤ l) ∧ [2, 1].sum ≠ ((⟨4, 2, fun _ => 0⟩ : Mat ℚ).rows : Int) := by decide

/-! ### Pooling -/

/-- **C95**: `reduce_sum` on the GPU sums up the rows of each sequence; empty sequences and empty batches are allowed. -/
theorem C95_reduce_sum [AddCommMonoid K] (X : Mat K) (ls : List Nat) (hsum : ls.sum = X.rows) :
    ∃ L, gpuReduceSum X (asInts ls) = .ok L ∧ Always L.kernel L.mem (fun m =>
      m.Holds 0 ls.length X.cols (fun b o => ∑ t ∈ range (seqLen ls b), seqAt X ls b t o) ∧ m.SameFrom 1 L.mem) := by
  unfold gpuReduceSum
  rw [checkLengths_fine ls X.rows 0 (fun l _ => by omega) hsum]
  simp only [bind, Except.bind, pure, Except.pure, asInts_length]
  refine ⟨_, rfl, always_rows (J := fun _ _ => True) _ _ rfl trivial (fun _ _ _ _ _ => trivial) ?_⟩
  intro b hb s m _ hs hro h0
  have hw := wp_reduceSum (m := m) (O := X.cols) (T := X.rows) (x := X.val) hb hsum.le (fun o ho => by rw [hs]; exact rowMajor_lt hb ho)
    (fun j hj => by rw [hs]; exact hj) (fun k hk => by rw [hs]; exact hk.trans_eq (lens_size (K := K) ls).symm)
    (fun o ho => by rw [h0 o ho]; rfl) (fun j hj => by rw [hro _ _ (by simp)]; rfl)
    (fun k hk => by rw [hro _ _ (by simp)]; exact lens_val ls k hk)
  exact wp_mono (fun _ m' h => ⟨trivial, fun o ho => h o ho⟩) hw

example : ([2, 0, 3] : List Nat).sum = (⟨5, 2, fun k => k⟩ : Mat ℚ).rows := by decide

/-- **C95**: `backprop_reduce_sum` on the GPU gives each row the gradient of its sequence.  Missing: the number of
gradients is not checked (`C95_backprop_reduce_sum_unchecked`). -/
theorem C95_backprop_reduce_sum_partial (junk : Nat → K) (d : Mat K) (ls : List Nat) (hd : ls.length ≤ d.rows) :
    ∃ L dX, gpuBackpropReduceSum junk d (asInts ls) = .ok L ∧ dX.rows = ls.sum ∧ dX.cols = d.cols ∧
      (∀ b < ls.length, ∀ t < seqLen ls b, ∀ o < d.cols, seqAt dX ls b t o = d.at b o) ∧
      Always L.kernel L.mem (fun m => m.Holds 0 dX.rows dX.cols dX.at ∧ m.SameFrom 1 L.mem) := by
  unfold gpuBackpropReduceSum
  rw [asInts_sum, Int.toNat_natCast, checkLengths_fine ls ls.sum 0 (fun l _ => by omega) rfl]
  simp only [bind, Except.bind, pure, Except.pure, asInts_length]
  have key := always_seqRows (K := K) (w := d.cols) (ls := ls)
      (m0 := memOf [nums (ls.sum * d.cols) junk, nums (d.rows * d.cols) d.val, lens (asInts ls)])
      (f := fun q _ o => d.at q o) (backpropReduceSumBody 0 1 2 ls.length d.cols) rfl ?_
  · obtain ⟨Y, hY1, hY2, hY3, hY4⟩ := key
    exact ⟨_, Y, rfl, hY1, hY2, hY3, hY4⟩
  · intro b hb s m hv hs hro hz
    exact wp_backpropReduceSum (d := d.val) hv hb hd (fun j hj => by rw [hs]; exact hj) (fun j hj => by rw [hs]; exact hj)
      (fun k hk => by rw [hs]; exact hk.trans_eq (lens_size (K := K) ls).symm)
      (fun j hj => by rw [hro _ _ (by simp)]; rfl) (fun k hk => by rw [hro _ _ (by simp)]; exact lens_val ls k hk)

/-- **C95**: `backprop_reduce_mean` on the GPU gives each row the gradient of its sequence divided by the length.
Missing: the number of gradients is not checked. -/
theorem C95_backprop_reduce_mean_partial [Field K] (junk : Nat → K) (d : Mat K) (ls : List Nat) (hd : ls.length ≤ d.rows) :
    ∃ L dX, gpuBackpropReduceMean junk d (asInts ls) = .ok L ∧ dX.rows = ls.sum ∧ dX.cols = d.cols ∧
      (∀ b < ls.length, ∀ t < seqLen ls b, ∀ o < d.cols, seqAt dX ls b t o = d.at b o / (seqLen ls b : K)) ∧
      Always L.kernel L.mem (fun m => m.Holds 0 dX.rows dX.cols dX.at ∧ m.SameFrom 1 L.mem) := by
  unfold gpuBackpropReduceMean
  rw [asInts_sum, Int.toNat_natCast, checkLengths_fine ls ls.sum 0 (fun l _ => by omega) rfl]
  simp only [bind, Except.bind, pure, Except.pure, asInts_length]
  have key := always_seqRows (K := K) (w := d.cols) (ls := ls)
      (m0 := memOf [nums (ls.sum * d.cols) junk, nums (d.rows * d.cols) d.val, lens (asInts ls)])
      (f := fun q _ o => d.at q o / (seqLen ls q : K)) (backpropReduceMeanBody 0 1 2 ls.length d.cols) rfl ?_
  · obtain ⟨Y, hY1, hY2, hY3, hY4⟩ := key
    exact ⟨_, Y, rfl, hY1, hY2, hY3, hY4⟩
  · intro b hb s m hv hs hro hz
    refine wp_mono (fun s m' h => ⟨h.1, fun q hq t ht e o ho => ?_⟩)
      (wp_backpropReduceMean (d := d.val) hv hb hd (fun j hj => by rw [hs]; exact hj) (fun j hj => by rw [hs]; exact hj)
      (fun k hk => by rw [hs]; exact hk.trans_eq (lens_size (K := K) ls).symm)
      (fun j hj => by rw [hro _ _ (by simp)]; rfl) (fun k hk => by rw [hro _ _ (by simp)]; exact lens_val ls k hk))
    rw [h.2 q hq t ht e o ho, Int.cast_natCast]
    rfl

example : ([2, 0, 3] : List Nat).length ≤ (⟨3, 2, fun k => k⟩ : Mat ℚ).rows := by decide

theorem checkWhich_fine {ls : List Nat} {W : Mat Int} {c : Nat} (hWr : W.rows = ls.length) (hWc : W.cols = c)
    (hin : ∀ b < ls.length, ∀ o < c, 0 ≤ W.at b o ∧ W.at b o < seqLen ls b) :
    (List.range W.rows).all (fun b => (List.range W.cols).all (fun o => 0 ≤ W.at b o ∧ W.at b o < (asInts ls).getD b 0)) = true := by
  rw [List.all_eq_true]
  intro b hb
  rw [List.all_eq_true]
  intro o ho
  rw [List.mem_range] at hb ho
  rw [hWr] at hb
  rw [hWc] at ho
  have h := hin b hb o ho
  have e : (asInts ls).getD b 0 = (seqLen ls b : Int) := by simp [asInts, seqLen, hb]
  rw [e]
  exact decide_eq_true h

/-- **C95**: `reduce_max` on the GPU gives the maxima of the sequences and the rows where they occur first. -/
theorem C95_reduce_max [LinearOrder K] (junk : Nat → K) (junkW : Nat → Int) (X : Mat K) (ls : List Nat)
    (hpos : ∀ l ∈ ls, 0 < l) (hsum : ls.sum = X.rows) :
    ∃ L, gpuReduceMax junk junkW X (asInts ls) = .ok L ∧ Always L.kernel L.mem (fun m => ∃ W : Nat → Nat → Nat,
      m.Holds 0 ls.length X.cols (fun b o => seqAt X ls b (W b o) o) ∧ m.HoldsInts 1 ls.length X.cols (fun b o => W b o) ∧
      (∀ b < ls.length, ∀ o < X.cols, firstMax (fun t => seqAt X ls b t o) (seqLen ls b) (W b o)) ∧ m.SameFrom 2 L.mem) := by
  unfold gpuReduceMax
  rw [checkLengths_fine ls X.rows 1 (fun l hl => by have := hpos l hl; omega) hsum]
  simp only [bind, Except.bind, pure, Except.pure, asInts_length]
  refine ⟨_, rfl, ?_⟩
  refine Always.mono (always_grid (O := ownRow2 X.cols) (ro := fun l => 2 ≤ l.1)
    (P := fun b m => ∀ o < X.cols, ∃ w, firstMax (fun t => X.val ((seqStart ls b + t) * X.cols + o)) (seqLen ls b) w ∧
        m.get (1, b * X.cols + o) = .int w ∧ m.get (0, b * X.cols + o) = .num (X.val ((seqStart ls b + w) * X.cols + o)))
    (J := fun _ _ => True) _ _ (fun b b' l _ _ => ownRow2_disj X.cols b b' l) (fun b l _ h hr => ?_)
    (fun b m m' h hp o ho => ?_) trivial (fun _ _ _ _ _ => trivial) ?_) ?_
  · have := h.1
    omega
  · rw [← h _ ⟨by simp, o, ho, rfl⟩, ← h _ ⟨by simp, o, ho, rfl⟩]
    exact hp o ho
  · intro b hb s m _ hs hro hO
    have hw := wp_reduceMax (m := m) (O := X.cols) (T := X.rows) (x := X.val) hb hsum.le
      (hpos _ (by rw [seqLen, List.getD_eq_getElem _ _ hb]; exact List.getElem_mem hb))
      (fun o ho => by rw [hs]; exact rowMajor_lt hb ho) (fun o ho => by rw [hs]; exact rowMajor_lt hb ho)
      (fun j hj => by rw [hs]; exact hj) (fun k hk => by rw [hs]; exact hk.trans_eq (lens_size (K := K) ls).symm)
      (fun j hj => by rw [hro _ (by simp)]; rfl)
      (fun k hk => by rw [hro _ (by simp)]; exact lens_val ls k hk)
    exact wp_mono (fun _ m' h => ⟨trivial, h⟩) hw
  · rintro m ⟨h1, h2, h3⟩
    choose! W hW using h2
    refine ⟨W, ⟨by rw [h1]; rfl, fun i hi j hj => (hW i hi j hj).2.2⟩, ⟨by rw [h1]; rfl, fun i hi j hj => (hW i hi j hj).2.1⟩,
      fun b hb o ho => (hW b hb o ho).1, fun p hp => ⟨by rw [h1], fun i => h3 _ (fun b _ h => ?_)⟩⟩
    have := h.1
    simp only at this
    omega

example : let ls : List Nat := [2, 3]
    (∀ l ∈ ls, 0 < l) ∧ ls.sum = (⟨5, 2, fun k => k⟩ : Mat ℚ).rows := by decide

/-- **C95**: `backprop_reduce_max` on the GPU gives the gradient to the rows with the maxima and zero to the others.
Missing: the number of gradients is not checked. -/
theorem C95_backprop_reduce_max_partial [Zero K] (d : Mat K) (W : Mat Int) (ls : List Nat) (hpos : ∀ l ∈ ls, 0 < l) (hd : ls.length ≤ d.rows)
    (hWr : W.rows = ls.length) (hWc : W.cols = d.cols)
    (hin : ∀ b < ls.length, ∀ o < d.cols, 0 ≤ W.at b o ∧ W.at b o < seqLen ls b) :
    ∃ L dX, gpuBackpropReduceMax d W (asInts ls) = .ok L ∧ dX.rows = ls.sum ∧ dX.cols = d.cols ∧
      (∀ b < ls.length, ∀ t < seqLen ls b, ∀ o < d.cols, seqAt dX ls b t o = if W.at b o = (t : Int) then d.at b o else 0) ∧
      Always L.kernel L.mem (fun m => m.Holds 0 dX.rows dX.cols dX.at ∧ m.SameFrom 1 L.mem) := by
  unfold gpuBackpropReduceMax
  rw [asInts_sum, Int.toNat_natCast, checkLengths_fine ls ls.sum 1 (fun l hl => by have := hpos l hl; omega) rfl]
  simp only [bind, Except.bind]
  rw [if_neg (by rw [asInts_length]; exact not_not.2 ⟨hWr, hWc⟩), if_pos (checkWhich_fine hWr hWc hin)]
  simp only [asInts_length]
  have key := always_seqRows (K := K) (w := d.cols) (ls := ls)
      (m0 := memOf [nums (ls.sum * d.cols) (fun _ => 0), nums (d.rows * d.cols) d.val, ints (W.rows * W.cols) W.val, lens (asInts ls)])
      (f := fun q t o => if W.at q o = (t : Int) then d.at q o else 0) (backpropReduceMaxBody 0 1 2 3 ls.length d.cols) rfl ?_
  · obtain ⟨Y, hY1, hY2, hY3, hY4⟩ := key
    exact ⟨_, Y, rfl, hY1, hY2, hY3, hY4⟩
  · intro b hb s m hv hs hro hz
    have hw := wp_backpropReduceMax (d := d.val) (w := W.val) hv hb hd (m := m) (fun j hj => by rw [hs]; exact hj)
      (fun j hj => by rw [hs]; exact hj) (fun j hj => by rw [hs, ← hWr, ← hWc] at *; exact hj)
      (fun k hk => by rw [hs]; exact hk.trans_eq (lens_size (K := K) ls).symm) (fun o ho => by rw [hz o ho]; rfl)
      (fun j hj => by rw [hro _ _ (by simp)]; rfl) (fun j hj => by rw [hro _ _ (by simp)]; rfl)
      (fun k hk => by rw [hro _ _ (by simp)]; exact lens_val ls k hk)
    refine wp_mono (fun s m' h => ⟨h.1, fun q hq t ht e o ho => ?_⟩) hw
    rw [h.2 q hq t ht e o ho]
    simp only [Mat.at, hWc]

example : let ls : List Nat := [2, 3]
    let d : Mat ℚ := ⟨2, 1, fun k => k⟩
    let W : Mat Int := ⟨2, 1, fun k => [1, 2].getD k 0⟩
    (∀ l ∈ ls, 0 < l) ∧ ls.length ≤ d.rows ∧ W.rows = ls.length ∧ W.cols = d.cols ∧
      ∀ b < ls.length, ∀ o < d.cols, 0 ≤ W.at b o ∧ W.at b o < seqLen ls b := by decide

/-- **C95**: the checks of the pooling functions: lengths that are too small raise ValueError, lengths that do not add up to the number of
rows IndexError, and so do row numbers outside of their sequence, including negative ones. -/
theorem C95_pooling_raises [LinearOrder K] [AddCommMonoid K] (junk : Nat → K) (junkW : Nat → Int) (X d : Mat K) (W : Mat Int) (ls : List Int) :
    ((∃ l ∈ ls, l < 0) → gpuReduceSum X ls = .error .valueError ∧ gpuBackpropReduceSum junk d ls = .error .valueError) ∧
    ((∀ l ∈ ls, 0 ≤ l) → ls.sum ≠ X.rows → gpuReduceSum X ls = .error .indexError) ∧
    ((∃ l ∈ ls, l < 1) → gpuReduceMax junk junkW X ls = .error .valueError ∧ gpuBackpropReduceMax d W ls = .error .valueError) ∧
    ((∀ l ∈ ls, 1 ≤ l) → ls.sum ≠ X.rows → gpuReduceMax junk junkW X ls = .error .indexError) ∧
    ((∀ l ∈ ls, 1 ≤ l) → ¬ (W.rows = ls.length ∧ W.cols = d.cols) → gpuBackpropReduceMax d W ls = .error .valueError) ∧
    ((∀ l ∈ ls, 1 ≤ l) → W.rows = ls.length → W.cols = d.cols →
      (∃ b < ls.length, ∃ o < d.cols, W.at b o < 0 ∨ ls.getD b 0 ≤ W.at b o) → gpuBackpropReduceMax d W ls = .error .indexError) := by
  have hok : (∀ l ∈ ls, 1 ≤ l) → gpuCheckLengths ls ls.sum.toNat 1 = .ok () := by
    intro h
    unfold gpuCheckLengths
    rw [if_neg, if_neg]
    · have : 0 ≤ ls.sum := List.sum_nonneg (fun l hl => by have := h l hl; omega)
      omega
    · rw [not_not]
      simpa using h
  refine ⟨fun h => ?_, fun h h' => ?_, fun h => ?_, fun h h' => ?_, fun h h' => ?_, fun h hr hc hbad => ?_⟩
  · simp only [gpuReduceSum, gpuBackpropReduceSum, (checkLengths_bad ls _ 0).1 h, bind, Except.bind, and_self]
  · simp only [gpuReduceSum, (checkLengths_bad ls _ 0).2 h h', bind, Except.bind]
  · simp only [gpuReduceMax, gpuBackpropReduceMax, (checkLengths_bad ls _ 1).1 h, bind, Except.bind, and_self]
  · simp only [gpuReduceMax, (checkLengths_bad ls _ 1).2 h h', bind, Except.bind]
  · simp only [gpuBackpropReduceMax, hok h, bind, Except.bind]
    rw [if_pos h']
  · simp only [gpuBackpropReduceMax, hok h, bind, Except.bind]
    rw [if_neg (not_not.2 ⟨hr, hc⟩), if_neg]
    intro hall
    obtain ⟨b, hb, o, ho, hbo⟩ := hbad
    have h1 := List.all_eq_true.1 hall b (List.mem_range.2 (by omega))
    have h2 := of_decide_eq_true (List.all_eq_true.1 h1 o (List.mem_range.2 (by omega)))
    omega

/-- **C95**, where the claim fails: `reduce_mean` on the GPU divides the sums by the length plus `1e-10`; the result is not the mean that
the gradient belongs to. -/
theorem C95_reduce_mean_offset : gpuReduceMeanDivide (1e-10 : ℚ) [1] 0 1 ≠ 1 / 1 ∧
    ∀ (x : ℚ) (ls : List Nat) (b n : Nat), ls[b]? = some n → 0 < n →
      |gpuReduceMeanDivide (1e-10 : ℚ) (asInts ls) b x - x / n| ≤ |x| * 1e-10 := by
  constructor
  · norm_num [gpuReduceMeanDivide]
  · intro x ls b n hb hn
    have hn' : (1 : ℚ) ≤ n := by exact_mod_cast hn
    have h0 : (0 : ℚ) < (n : ℚ) := by linarith
    have h1 : (0 : ℚ) < (n : ℚ) + 1e-10 := by positivity
    have hl : (asInts ls).getD b 0 = (n : Int) := by
      simp [asInts, List.getD_eq_getElem?_getD, hb]
    simp only [gpuReduceMeanDivide, hl, Int.cast_natCast]
    have e : x / ((n : ℚ) + 1e-10) - x / n = -(x * (1e-10 / (n * (n + 1e-10)))) := by
      field_simp
      ring
    rw [e, abs_neg, abs_mul]
    refine mul_le_mul_of_nonneg_left ?_ (abs_nonneg _)
    rw [abs_of_nonneg (by positivity)]
    refine div_le_self (by norm_num) ?_
    nlinarith

/-- **C95**, where the claim fails: `backprop_reduce_sum` does not check that there is a gradient for each sequence.  If there are too few,
every launch in which the thread of the last row gets to run reads outside of the array of gradients. -/
theorem C95_backprop_reduce_sum_unchecked : ∃ L, gpuBackpropReduceSum (fun _ => (0 : ℚ)) ⟨1, 1, fun _ => 7⟩ [1, 1] = .ok L ∧
    (launch 1 2 L.kernel L.mem).run [1, 1, 1, 1, 1] = none := ⟨_, rfl, by decide +kernel⟩

/-! ### Maxout -/

/-- **C95**: `maxout` on the GPU gives the largest piece of each unit and its (first) number. -/
theorem C95_maxout [LinearOrder K] (junk : Nat → K) (junkW : Nat → Int) (X : Cube K) (hP : 0 < X.d2) :
    Always (gpuMaxout junk junkW X).kernel (gpuMaxout junk junkW X).mem (fun m => ∃ W : Nat → Nat → Nat,
      m.Holds 0 X.d0 X.d1 (fun b o => X.at b o (W b o)) ∧ m.HoldsInts 1 X.d0 X.d1 (fun b o => W b o) ∧
      (∀ b < X.d0, ∀ o < X.d1, firstMax (fun p => X.at b o p) X.d2 (W b o)) ∧ m.SameFrom 2 (gpuMaxout junk junkW X).mem) := by
  unfold gpuMaxout
  refine Always.mono (always_grid (O := fun bo l => l.1 < 2 ∧ l.2 = bo) (ro := fun l => 2 ≤ l.1)
    (P := fun bo m => ∃ w, firstMax (fun p => X.val (bo * X.d2 + p)) X.d2 w ∧ m.get (1, bo) = .int w ∧
      m.get (0, bo) = .num (X.val (bo * X.d2 + w)))
    (J := fun _ _ => True) _ _ (fun b b' l _ _ h h' => h.2.symm.trans h'.2) (fun b l _ h hr => ?_)
    (fun b m m' h hp => ?_) trivial (fun _ _ _ _ _ => trivial) ?_) ?_
  · have := h.1
    omega
  · rw [← h _ ⟨by simp, rfl⟩, ← h _ ⟨by simp, rfl⟩]
    exact hp
  · intro b hb s m _ hs hro hO
    have hw := wp_maxout (m := m) (x := X.val) hb hP (by rw [hs]; exact le_rfl) (by rw [hs]; exact le_rfl)
      (fun j hj => by rw [hs]; exact hj) (fun j hj => by rw [hro _ (by simp)]; rfl)
    exact wp_mono (fun _ m' h => ⟨trivial, h⟩) hw
  · rintro m ⟨h1, h2, h3⟩
    have h4 : ∀ b < X.d0, ∀ o < X.d1, ∃ w, firstMax (fun p => X.at b o p) X.d2 w ∧ m.get (1, b * X.d1 + o) = .int w ∧
        m.get (0, b * X.d1 + o) = .num (X.at b o w) := fun b hb o ho => h2 _ (rowMajor_lt hb ho)
    choose! W hW using h4
    refine ⟨W, ⟨by rw [h1]; rfl, fun i hi j hj => (hW i hi j hj).2.2⟩, ⟨by rw [h1]; rfl, fun i hi j hj => (hW i hi j hj).2.1⟩,
      fun b hb o ho => (hW b hb o ho).1, fun p hp => ⟨by rw [h1], fun i => h3 _ (fun b _ h => ?_)⟩⟩
    have := h.1
    simp only at this
    omega

example : 0 < (⟨2, 3, 2, fun k => k⟩ : Cube ℚ).d2 := by decide

/-- **C95**: `backprop_maxout` on the GPU gives the gradient to the chosen pieces and zero to the others, and checks the numbers of the
pieces: a number that is negative or too large raises IndexError. -/
theorem C95_backprop_maxout [Zero K] (dY : Mat K) (which : Mat Int) (P : Nat) (hr : which.rows = dY.rows) (hc : which.cols = dY.cols) :
    ((∀ b < dY.rows, ∀ o < dY.cols, 0 ≤ which.at b o ∧ which.at b o < P) →
      ∃ L, gpuBackpropMaxout dY which P = .ok L ∧ Always L.kernel L.mem (fun m =>
        m.Holds 0 (dY.rows * dY.cols) P (fun bo p => if which.at (bo / dY.cols) (bo % dY.cols) = p then dY.at (bo / dY.cols) (bo % dY.cols) else 0) ∧
        m.SameFrom 1 L.mem)) ∧
    ((∃ b < dY.rows, ∃ o < dY.cols, which.at b o < 0 ∨ (P : Int) ≤ which.at b o) → gpuBackpropMaxout dY which P = .error .indexError) := by
  have hchk : (∀ b < dY.rows, ∀ o < dY.cols, 0 ≤ which.at b o ∧ which.at b o < P) ↔
      ∀ j < dY.rows * dY.cols, 0 ≤ which.val j ∧ which.val j < P := by
    constructor
    · intro h j hj
      have hcp : 0 < dY.cols := by
        rcases Nat.eq_zero_or_pos dY.cols with h | h
        · rw [h] at hj; omega
        · exact h
      have := h (j / dY.cols) (Nat.div_lt_of_lt_mul (by rwa [Nat.mul_comm])) (j % dY.cols) (Nat.mod_lt _ hcp)
      simpa only [Mat.at, hc, Nat.div_add_mod'] using this
    · intro h b hb o ho
      simp only [Mat.at, hc]
      exact h _ (rowMajor_lt hb ho)
  constructor
  · intro hin
    have hin' := hchk.1 hin
    unfold gpuBackpropMaxout
    rw [if_neg (not_not.2 ⟨hr, hc⟩), if_pos (by
      rw [List.all_eq_true]
      intro j hj
      rw [List.mem_range, hr, hc] at hj
      exact decide_eq_true (hin' j hj))]
    refine ⟨_, rfl, ?_⟩
    have key := always_rows (J := fun _ _ => True) (w := dY.cols * P)
      (m0 := memOf [nums (dY.rows * dY.cols * P) (fun _ => 0), nums (dY.rows * dY.cols) dY.val, ints (which.rows * which.cols) which.val])
      (f := fun b j => if which.val (b * dY.cols + j / P) = ((j % P : Nat) : Int) then dY.val (b * dY.cols + j / P) else 0)
      (N := dY.rows) (backpropMaxoutBody 0 1 2 dY.cols P) () (Nat.mul_assoc _ _ _) trivial (fun _ _ _ _ _ => trivial) ?_
    · refine Always.mono key fun m h => ⟨⟨h.1.1.trans (Nat.mul_assoc _ _ _).symm, fun bo hbo p hp => ?_⟩, h.2⟩
      have hcp : 0 < dY.cols := by
        rcases Nat.eq_zero_or_pos dY.cols with h | h
        · rw [h] at hbo; omega
        · exact h
      have := h.1.2 (bo / dY.cols) (Nat.div_lt_of_lt_mul (by rwa [Nat.mul_comm])) (bo % dY.cols * P + p) (rowMajor_lt (Nat.mod_lt _ hcp) hp)
      simp only [rowMajor_div _ _ _ hp, rowMajor_mod _ _ _ hp] at this
      have e : bo / dY.cols * (dY.cols * P) + (bo % dY.cols * P + p) = bo * P + p := by
        conv_rhs => rw [← Nat.div_add_mod' bo dY.cols]
        ring
      rw [e] at this
      rw [this]
      simp only [Mat.at, hc]
    · intro b hb s m _ hs hro hz
      have hw := wp_backpropMaxout (y := dY.val) (w := which.val) (P := P) hb (m := m) (O := dY.cols) (by rw [hs]; exact le_rfl)
        (by rw [hs]; exact le_rfl) (by rw [hs, ← hr, ← hc]; exact le_rfl) (fun j hj => by rw [hz j hj]; rfl)
        (fun j hj => by rw [hro _ _ (by simp)]; rfl) (fun j hj => by rw [hro _ _ (by simp)]; rfl) hin'
      refine wp_mono (fun _ m' h => ⟨trivial, fun j hj => ?_⟩) hw
      have hPp : 0 < P := by
        rcases Nat.eq_zero_or_pos P with h | h
        · rw [h] at hj; omega
        · exact h
      have := h (j / P) (Nat.div_lt_of_lt_mul (by rwa [Nat.mul_comm])) (j % P) (Nat.mod_lt _ hPp)
      rwa [Nat.div_add_mod'] at this
  · rintro ⟨b, hb, o, ho, hbad⟩
    unfold gpuBackpropMaxout
    rw [if_neg (not_not.2 ⟨hr, hc⟩), if_neg]
    intro hall
    have h := (hchk.2 (fun j hj => of_decide_eq_true (List.all_eq_true.1 hall j (List.mem_range.2 (by rwa [hr, hc]))))) b hb o ho
    omega

example : let dY : Mat ℚ := ⟨2, 2, fun k => k⟩
    let which : Mat Int := ⟨2, 2, fun k => [0, 2, 1, 1].getD k 0⟩
    which.rows = dY.rows ∧ which.cols = dY.cols ∧ ∀ b < dY.rows, ∀ o < dY.cols, 0 ≤ which.at b o ∧ which.at b o < 3 := by decide

/-! ### Padding -/

/-- **C95**: `pad` on the GPU refuses to round to a multiple of a number below 1. -/
theorem C95_pad_rejects [Zero K] (junk : Nat → K) (seqs : List (Mat K)) (stride : Nat) (roundTo : Int) (hr : roundTo < 1) :
    gpuPad junk seqs stride roundTo = .error .valueError := by
  unfold gpuPad
  rw [if_pos hr]

/-- **C95**: `pad` on the GPU: the sequences, in order, each followed by zeros up to the smallest multiple of `round_to` that is at least
as large as the longest. -/
theorem C95_pad [Zero K] (junk : Nat → K) (seqs : List (Mat K)) (stride : Nat) (roundTo : Int) (hstr : ∀ s ∈ seqs, s.cols = stride)
    (hr : 1 ≤ roundTo) :
    ∃ len L, gpuPad junk seqs stride roundTo = .ok (len, L) ∧ roundTo ∣ (len : Int) ∧ (∀ s ∈ seqs, s.rows ≤ len) ∧
      (∀ n : Nat, roundTo ∣ (n : Int) → (∀ s ∈ seqs, s.rows ≤ n) → len ≤ n) ∧
      Always L.kernel L.mem (fun m => m.size 0 = seqs.length * (len * stride) ∧
        (∀ (j : Nat) (s : Mat K), seqs[j]? = some s → ∀ t < len, ∀ o < stride,
          m.get (0, j * (len * stride) + (t * stride + o)) = .num (if t < s.rows then s.at t o else 0)) ∧ m.SameFrom 1 L.mem) := by
  unfold gpuPad
  rw [if_neg (by omega)]
  obtain ⟨M, hM⟩ : ∃ M, M = (seqs.map Mat.rows).foldl max 0 := ⟨_, rfl⟩
  obtain ⟨L, hL⟩ : ∃ L : Nat, L = M + (-(M : Int) % roundTo).toNat := ⟨_, rfl⟩
  have hle : ∀ s ∈ seqs, s.rows ≤ M := fun s hs => hM ▸ le_foldl_max _ 0 s.rows (List.mem_map.2 ⟨s, hs, rfl⟩)
  obtain ⟨hd1, hd2, hd3⟩ := emod_pad M roundTo hr
  have hcast : (L : Int) = M + -(M : Int) % roundTo := by omega
  simp only
  rw [← hM, ← hL]
  refine ⟨L, _, rfl, by rw [hcast]; exact hd1, fun s hs => (hle s hs).trans (by omega), fun n hn hall => ?_, ?_⟩
  · have hmax : M ≤ n := by
      rw [hM]
      rcases foldl_max_mem (seqs.map Mat.rows) 0 with h0 | h0
      · omega
      · obtain ⟨s, hs, he⟩ := List.mem_map.1 h0
        rw [← he]
        exact hall s hs
    by_contra hcon
    have hdiv : roundTo ∣ (L : Int) - n := Int.dvd_sub (by rw [hcast]; exact hd1) hn
    have := Int.le_of_dvd (by omega) hdiv
    omega
  · obtain ⟨len, hlen⟩ : ∃ len : Nat → Nat, len = fun j => (seqs[j]?.map Mat.rows).getD 0 := ⟨_, rfl⟩
    obtain ⟨x, hx⟩ : ∃ x : Nat → Nat → K, x = fun j => (seqs[j]?.map Mat.val).getD (fun _ => 0) := ⟨_, rfl⟩
    refine Always.mono (always_grid (O := ownCol seqs.length (L * stride)) (ro := fun l => l.1 ≠ 0)
      (P := fun i m => ∀ j < seqs.length, m.get (0, j * (L * stride) + i) = .num (if i < len j * stride then x j i else 0))
      (J := fun _ _ => True) _ _ (fun b b' l hb hb' h h' => ?_) (fun b l _ h hr => hr h.1)
      (fun b m m' h hp j hj => ?_) trivial (fun _ _ _ _ _ => trivial) ?_) ?_
    · obtain ⟨_, j, _, e⟩ := h
      obtain ⟨_, j', _, e'⟩ := h'
      exact (row_inj hb hb' (e.symm.trans e')).2
    · rw [← h _ ⟨rfl, j, hj, rfl⟩]
      exact hp j hj
    · intro i hi s m _ hs hro hO
      have hsome : ∀ j < seqs.length, ∃ s ∈ seqs, seqs[j]? = some s := fun j hj =>
        ⟨seqs[j], List.getElem_mem hj, List.getElem?_eq_getElem hj⟩
      have hw := wp_pad (m := m) (N := seqs.length) (L := L) (stride := stride) (len := len) (x := x) hi
        (by rw [hs]; exact (Nat.mul_assoc _ _ _).symm.le)
        (fun j hj => by
          rw [hs]
          show j < ((seqs.map Mat.rows).map Int.ofNat).length
          simpa using hj)
        (fun j hj => by
          obtain ⟨s, hsm, hsj⟩ := hsome j hj
          rw [hs]
          show _ ≤ ((seqs.map (fun s => nums (s.rows * s.cols) s.val)).getD j (0, fun _ => .int 0)).1
          rw [List.getD_eq_getElem?_getD, List.getElem?_map, hsj, hlen]
          simp only [hsj, Option.map_some, Option.getD_some, nums, hstr s hsm, Nat.le_refl])
        (fun j hj => by
          obtain ⟨s, hsm, hsj⟩ := hsome j hj
          rw [hro _ (by simp)]
          show Cell.int (((seqs.map Mat.rows).map Int.ofNat).getD j 0) = _
          rw [List.getD_eq_getElem?_getD, List.getElem?_map, List.getElem?_map, hsj, hlen]
          simp [hsj])
        (fun j hj k hk => by
          obtain ⟨s, hsm, hsj⟩ := hsome j hj
          rw [hro _ (by simp)]
          show ((seqs.map (fun s => nums (s.rows * s.cols) s.val)).getD j (0, fun _ => .int 0)).2 k = _
          rw [List.getD_eq_getElem?_getD, List.getElem?_map, hsj, hx]
          simp only [hsj, Option.map_some, Option.getD_some, nums])
      exact wp_mono (fun _ m' h => ⟨trivial, h⟩) hw
    · rintro m ⟨h1, h2, h3⟩
      refine ⟨by rw [h1]; exact Nat.mul_assoc _ _ _, fun j s hsj t ht o ho => ?_, fun p hp => ⟨by rw [h1], fun i => h3 _ (fun b _ h => ?_)⟩⟩
      · have hj : j < seqs.length := (List.getElem?_eq_some_iff.1 hsj).1
        have hsm : s ∈ seqs := List.mem_of_getElem? hsj
        rw [h2 _ (rowMajor_lt ht ho) j hj]
        simp only [hlen, hx, hsj, Option.map_some, Option.getD_some]
        congr 1
        by_cases hc : t < s.rows
        · rw [if_pos (rowMajor_lt hc ho), if_pos hc, Mat.at, hstr s hsm]
        · rw [if_neg, if_neg hc]
          have : s.rows * stride ≤ t * stride := Nat.mul_le_mul_right _ (by omega)
          omega
      · have := h.1
        simp only at this
        omega

example : let seqs : List (Mat ℚ) := [⟨3, 2, fun k => k⟩, ⟨0, 2, fun _ => 0⟩, ⟨1, 2, fun k => k⟩]
    ∀ s ∈ seqs, s.cols = 2 := by simp

/-! ### The model can tell -/

/-- Adding to the same element from two threads: the model sees the data race. -/
def racyKernel : Kernel ℚ := grid 2 () (fun _ _ => do
  let x ← readNum 0 0
  writeNum 0 0 (x + 1))

/-- A kernel in which two threads add to the same element does not satisfy `Always`, whatever is claimed of the result: that is what
the kernels above are shown to be free of. -/
theorem race_detected (Q : Mem ℚ → Prop) : ¬ Always racyKernel (memOf [nums 1 (fun _ => 0)]) Q := by
  intro h
  obtain ⟨c, hc, hr, _⟩ := (h 1 2 (by omega) (by omega)).1 [0, 1, 0, 1]
  have hlog : ((launch 1 2 racyKernel (memOf [nums 1 (fun _ => 0)])).run [0, 1, 0, 1]).map Config.log =
      some [⟨1, (0, 0), true⟩, ⟨0, (0, 0), true⟩, ⟨1, (0, 0), false⟩, ⟨0, (0, 0), false⟩] := by decide +kernel
  rw [hc] at hlog
  simp only [Option.map_some, Option.some.injEq] at hlog
  rw [hlog] at hr
  have := hr ⟨1, (0, 0), true⟩ (by simp) ⟨0, (0, 0), true⟩ (by simp) (by simp) rfl
  simp at this

end Thinc.Gpu
