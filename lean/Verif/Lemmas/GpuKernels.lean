import Verif.Lemmas.Gpu
import Verif.Model.GpuKernels
import Verif.Lemmas.Seq2col
import Mathlib.Algebra.BigOperators.Intervals
/-!
# What one round of each kernel's loop does
-/
namespace Thinc.Gpu
open Finset Spec
variable {α : Type}

/-- Row `b` of an array with rows of width `w`. -/
def ownRow (p w b : Nat) (l : Loc) : Prop := l.1 = p ∧ ∃ o < w, l.2 = b * w + o

theorem row_inj {w b b' o o' : Nat} (ho : o < w) (ho' : o' < w) (h : b * w + o = b' * w + o') : b = b' ∧ o = o' := by
  have h1 : (b * w + o) / w = b := by rw [Nat.mul_comm, Nat.mul_add_div (by omega), Nat.div_eq_of_lt ho]; rfl
  have h2 : (b' * w + o') / w = b' := by rw [Nat.mul_comm, Nat.mul_add_div (by omega), Nat.div_eq_of_lt ho']; rfl
  rw [h, h2] at h1
  subst h1
  exact ⟨rfl, by omega⟩

theorem ownRow_disj (p w b b' : Nat) (l : Loc) (h : ownRow p w b l) (h' : ownRow p w b' l) : b = b' := by
  obtain ⟨_, o, ho, he⟩ := h
  obtain ⟨_, o', ho', he'⟩ := h'
  exact (row_inj ho ho' (he.symm.trans he')).1

theorem loc_ne {p n n' : Nat} (h : n ≠ n') : ((p, n) : Loc) ≠ (p, n') := fun e => h (by injection e)

/-- `for o < O: out[b, o] += src[off + o]` -/
theorem wp_addRow [Add α] {rd own : Loc → Prop} {m : Mem α} {p q O b base : Nat} {off : Int} {a v : Nat → α} (hpq : p ≠ q)
    (hoff : off = base) (hrd : ∀ l, own l → rd l) (hown : ∀ o < O, own (p, b * O + o)) (hq : ∀ o < O, rd (q, base + o))
    (hnq : ∀ l, own l → l.1 = p)
    (hsp : ∀ o < O, b * O + o < m.size p) (hsq : ∀ o < O, base + o < m.size q)
    (ha : ∀ o < O, m.get (p, b * O + o) = .num (a o)) (hv : ∀ o < O, m.get (q, base + o) = .num (v o)) :
    (loop O () (fun _ o => do
      let x ← readNum p (b * O + o : Nat)
      let y ← readNum q (off + o)
      writeNum p (b * O + o : Nat) (x + y))).wp rd own m
      (fun _ m' => (∀ o < O, m'.get (p, b * O + o) = .num (a o + v o)) ∧ Frame own m m') := by
  refine wp_mono (fun _ m' h => ⟨fun o ho => ?_, h.2⟩) (wp_loopF (m0 := m)
    (fun k _ m' => ∀ o < O, m'.get (p, b * O + o) = .num (if o < k then a o + v o else a o)) ?_ (Frame.refl _ _) ?_)
  · intro o ho
    rw [ha o ho, if_neg (by omega)]
  · intro k hk _ m' hi hf
    have hn : m'.get (q, base + k) = m.get (q, base + k) := hf.2 _ (fun h => hpq (hnq _ h).symm)
    rw [wp_bind']
    refine wp_readNum _ rfl (by rw [hf.1]; exact hsp k hk) (hrd _ (hown k hk)) (by rw [hi k hk, if_neg (by omega)]) ?_
    rw [wp_bind']
    refine wp_readNum (base + k) (by omega) (by rw [hf.1]; exact hsq k hk) (hq k hk) (by rw [hn, hv k hk]) ?_
    refine wp_writeNum _ rfl (by rw [hf.1]; exact hsp k hk) (hown k hk) ?_
    intro o ho
    by_cases e : o = k
    · subst e
      rw [get_set_self, if_pos (by omega)]
    · rw [get_set_ne _ _ (loc_ne (by omega)), hi o ho]
      by_cases h2 : o < k
      · rw [if_pos h2, if_pos (by omega)]
      · rw [if_neg h2, if_neg (by omega)]
  · rw [h.1 o ho, if_pos ho]

theorem wp_gatherAdd [AddCommMonoid α] {m : Mem α} {O K b T : Nat} {tab : Nat → α} {idx : Nat → Int}
    (hs0 : ∀ o < O, b * O + o < m.size 0) (hs1 : ∀ j < T * O, j < m.size 1) (hs2 : ∀ k < K, b * K + k < m.size 2)
    (h0 : ∀ o < O, m.get (0, b * O + o) = .num 0) (h1 : ∀ j < T * O, m.get (1, j) = .num (tab j))
    (h2 : ∀ k < K, m.get (2, b * K + k) = .int (idx k)) (hi : ∀ k < K, 0 ≤ idx k ∧ idx k < T) :
    (gatherAddBody 0 1 2 O K () b).wp (fun l => l.1 ≠ 0 ∨ ownRow 0 O b l) (ownRow 0 O b) m
      (fun _ m' => ∀ o < O, m'.get (0, b * O + o) = .num (∑ k ∈ range K, tab ((idx k).toNat * O + o))) := by
  unfold gatherAddBody
  refine wp_mono (fun _ m' h => h.1) (wp_loopF (m0 := m)
    (fun n _ m' => ∀ o < O, m'.get (0, b * O + o) = .num (∑ k ∈ range n, tab ((idx k).toNat * O + o))) ?_ (Frame.refl _ _) ?_)
  · intro o ho
    rw [h0 o ho]
    simp
  · intro k hk _ m' hinv hf
    have hro : ∀ p n, p ≠ 0 → m'.get (p, n) = m.get (p, n) := fun p n hp => hf.2 _ (fun h => hp h.1)
    rw [wp_bind']
    refine wp_readInt _ rfl (by rw [hf.1]; exact hs2 k hk) (.inl (by simp)) (by rw [hro _ _ (by simp), h2 k hk]) ?_
    have hlt : ∀ o < O, (idx k).toNat * O + o < T * O := fun o ho =>
      rowMajor_lt (by have := hi k hk; omega) ho
    refine wp_mono (fun _ m'' h o ho => ?_) (wp_addRow (p := 0) (q := 1) (base := (idx k).toNat * O) (by simp)
      (by rw [Nat.cast_mul, Int.toNat_of_nonneg (hi k hk).1]) (fun l hl => .inr hl) (fun o ho => ⟨rfl, o, ho, rfl⟩)
      (fun o ho => .inl (by simp)) (fun l hl => hl.1) (fun o ho => by rw [hf.1]; exact hs0 o ho)
      (fun o ho => by rw [hf.1]; exact hs1 _ (hlt o ho)) hinv (fun o ho => by rw [hro _ _ (by simp), h1 _ (hlt o ho)]))
    rw [h.1 o ho, Finset.sum_range_succ]

/-- The first rows of the sequences are added up; nothing is written. -/
theorem wp_startOf {rd own : Loc → Prop} {m : Mem α} {ls : List Nat} {q b : Nat} (hb : b ≤ ls.length)
    (hs : ∀ k < ls.length, k < m.size q) (hr : ∀ k, rd (q, k))
    (h : ∀ k < ls.length, m.get (q, k) = .int (ls.getD k 0)) :
    (startOf q b).wp rd own m (fun t m' => t = (seqStart ls b : Int) ∧ m' = m) := by
  unfold startOf
  refine wp_loop (fun n t m' => t = (seqStart ls n : Int) ∧ m' = m) (by simp [seqStart]) ?_
  rintro k hk t m' ⟨rfl, rfl⟩
  rw [wp_bind']
  refine wp_readInt _ rfl (hs k (by omega)) (hr k) (h k (by omega)) ?_
  rw [wp_pure, seqStart_succ ls k (by omega)]
  simp [seqLen]

theorem wp_reduceSum [AddCommMonoid α] {m : Mem α} {O b T : Nat} {x : Nat → α} {ls : List Nat} (hb : b < ls.length) (hsum : ls.sum ≤ T)
    (hs0 : ∀ o < O, b * O + o < m.size 0) (hs1 : ∀ j < T * O, j < m.size 1) (hs2 : ∀ k < ls.length, k < m.size 2)
    (h0 : ∀ o < O, m.get (0, b * O + o) = .num 0) (h1 : ∀ j < T * O, m.get (1, j) = .num (x j))
    (h2 : ∀ k < ls.length, m.get (2, k) = .int (ls.getD k 0)) :
    (reduceSumBody 0 1 2 O () b).wp (fun l => l.1 ≠ 0 ∨ ownRow 0 O b l) (ownRow 0 O b) m
      (fun _ m' => ∀ o < O, m'.get (0, b * O + o) = .num (∑ t ∈ range (seqLen ls b), x ((seqStart ls b + t) * O + o))) := by
  unfold reduceSumBody
  rw [wp_bind']
  refine wp_mono ?_ (wp_startOf (q := 2) (b := b) (ls := ls) (by omega) hs2 (fun k => .inl (by simp)) h2)
  rintro _ m1 ⟨rfl, rfl⟩
  rw [wp_bind']
  refine wp_readInt _ rfl (hs2 b hb) (.inl (by simp)) (h2 b hb) ?_
  rw [Int.toNat_natCast]
  refine wp_mono (fun _ m' h => h.1) (wp_loopF (m0 := m1)
    (fun n _ m' => ∀ o < O, m'.get (0, b * O + o) = .num (∑ t ∈ range n, x ((seqStart ls b + t) * O + o))) ?_ (Frame.refl _ _) ?_)
  · intro o ho
    rw [h0 o ho]
    simp
  · intro t ht _ m' hinv hf
    have hro : ∀ p n, p ≠ 0 → m'.get (p, n) = m1.get (p, n) := fun p n hp => hf.2 _ (fun h => hp h.1)
    have hlt : ∀ o < O, (seqStart ls b + t) * O + o < T * O := fun o ho =>
      rowMajor_lt (by have := seqEnd_le ls b hb; simp only [seqLen] at this; omega) ho
    refine wp_mono (fun _ m'' h o ho => ?_) (wp_addRow (p := 0) (q := 1) (base := (seqStart ls b + t) * O) (by simp)
      (by push_cast; rfl) (fun l hl => .inr hl) (fun o ho => ⟨rfl, o, ho, rfl⟩)
      (fun o ho => .inl (by simp)) (fun l hl => hl.1) (fun o ho => by rw [hf.1]; exact hs0 o ho)
      (fun o ho => by rw [hf.1]; exact hs1 _ (hlt o ho)) hinv (fun o ho => by rw [hro _ _ (by simp), h1 _ (hlt o ho)]))
    rw [h.1 o ho, Finset.sum_range_succ]

/-- Local variables that describe a sequence that does not begin after row `b`. -/
def SeqVar (ls : List Nat) (b : Nat) (s : Nat × Int) : Prop := s.1 ≤ ls.length ∧ s.2 = (seqStart ls s.1 : Int) ∧ seqStart ls s.1 ≤ b

/-- Local variables that describe the sequence of row `b`. -/
def SeqAt (ls : List Nat) (b : Nat) (s : Nat × Int) : Prop :=
  s.1 < ls.length ∧ s.2 = (seqStart ls s.1 : Int) ∧ seqStart ls s.1 ≤ b ∧ b < seqStart ls s.1 + seqLen ls s.1

theorem SeqAt.seqVar {ls : List Nat} {b : Nat} {s : Nat × Int} (h : SeqAt ls b s) : SeqVar ls b s := ⟨h.1.le, h.2.1, h.2.2.1⟩

theorem SeqVar.mono {ls : List Nat} {b b' : Nat} {s : Nat × Int} (hb : b ≤ b') (h : SeqVar ls b s) : SeqVar ls b' s :=
  ⟨h.1, h.2.1, h.2.2.trans hb⟩

theorem SeqAt.unique {ls : List Nat} {s : Nat × Int} {q t : Nat} (h : SeqAt ls (seqStart ls q + t) s) (hq : q < ls.length)
    (ht : t < seqLen ls q) : s.1 = q := by
  obtain ⟨h1, _, h3, h4⟩ := h
  rcases Nat.lt_trichotomy s.1 q with hlt | heq | hgt
  · have := seqStart_mono ls s.1 q hlt h1
    simp only [seqLen] at *
    omega
  · exact heq
  · have := seqStart_mono ls q s.1 hgt hq
    simp only [seqLen] at *
    omega

theorem seqStart_all (ls : List Nat) : seqStart ls ls.length = ls.sum := by simp [seqStart]

theorem SeqVar.lt {ls : List Nat} {b : Nat} {s : Nat × Int} (hb : b < ls.sum) (h : SeqVar ls b s) : s.1 < ls.length := by
  rcases Nat.lt_or_ge s.1 ls.length with h1 | h1
  · exact h1
  · have : s.1 = ls.length := le_antisymm h.1 h1
    have h3 := h.2.2
    rw [this, seqStart_all] at h3
    omega

theorem SeqVar.next {ls : List Nat} {b : Nat} {s : Nat × Int} (hb : b < ls.sum) (h : SeqVar ls b s)
    (hn : seqStart ls s.1 + seqLen ls s.1 ≤ b) : SeqVar ls b (s.1 + 1, s.2 + (ls.getD s.1 0 : Nat)) := by
  have hlt := h.lt hb
  refine ⟨hlt, ?_, ?_⟩
  · rw [seqStart_succ ls _ hlt, h.2.1]
    simp [seqLen]
  · rw [seqStart_succ ls _ hlt]
    exact hn

theorem wp_findSeq {rd own : Loc → Prop} {m : Mem α} {ls : List Nat} {q b : Nat} (hb : b < ls.sum)
    (hs : ∀ k < ls.length, k < m.size q) (hr : ∀ k, rd (q, k)) (h : ∀ k < ls.length, m.get (q, k) = .int (ls.getD k 0)) :
    ∀ (fuel : Nat) {s : Nat × Int}, SeqVar ls b s → ls.length ≤ s.1 + fuel →
      (findSeq q ls.length b fuel s).wp rd own m (fun s m' => SeqAt ls b s ∧ m' = m)
  | 0, s, hv, hf => absurd (hv.lt hb) (by omega)
  | fuel + 1, s, hv, hf => by
    have hlt := hv.lt hb
    unfold findSeq
    rw [if_pos hlt, wp_bind']
    refine wp_readInt _ rfl (hs _ hlt) (hr _) (h _ hlt) ?_
    have h2 := hv.2.1
    split_ifs with hc
    · refine ⟨⟨hlt, h2, hv.2.2, ?_⟩, rfl⟩
      rw [h2] at hc
      simp only [seqLen]
      omega
    · refine wp_findSeq hb hs hr h fuel (hv.next hb ?_) (by simp only; omega)
      rw [h2] at hc
      simp only [seqLen]
      omega

theorem wp_advance {rd own : Loc → Prop} {m : Mem α} {ls : List Nat} {q b : Nat} (hb : b < ls.sum)
    (hs : ∀ k < ls.length, k < m.size q) (hr : ∀ k, rd (q, k)) (h : ∀ k < ls.length, m.get (q, k) = .int (ls.getD k 0)) :
    ∀ (fuel : Nat) {s : Nat × Int}, SeqVar ls b s → ls.length ≤ s.1 + fuel →
      (advance q ls.length b fuel s).wp rd own m (fun s m' => SeqAt ls b s ∧ m' = m)
  | 0, s, hv, hf => absurd (hv.lt hb) (by omega)
  | fuel + 1, s, hv, hf => by
    have hlt := hv.lt hb
    unfold advance
    rw [if_pos hlt, wp_bind']
    refine wp_readInt _ rfl (hs _ hlt) (hr _) (h _ hlt) ?_
    have h2 := hv.2.1
    split_ifs with hc
    · refine wp_advance hb hs hr h fuel (hv.next hb ?_) (by simp only; omega)
      rw [h2] at hc
      simp only [seqLen]
      omega
    · refine ⟨⟨hlt, h2, hv.2.2, ?_⟩, rfl⟩
      rw [h2] at hc
      simp only [seqLen]
      omega

/-- `for i < n: out[d + i] = src[c + i]` -/
theorem wp_copy {rd own : Loc → Prop} {m : Mem α} {p q n d c : Nat} {off src : Int} {v : Nat → α} (hpq : p ≠ q)
    (hoff : off = d) (hsrc : src = c) (hown : ∀ i < n, own (p, d + i)) (hq : ∀ i < n, rd (q, c + i)) (hnq : ∀ l, own l → l.1 = p)
    (hsp : ∀ i < n, d + i < m.size p) (hsq : ∀ i < n, c + i < m.size q) (hv : ∀ i < n, m.get (q, c + i) = .num (v i)) :
    (loop n () (fun _ i => do
      let x ← readNum q (src + i)
      writeNum p (off + i) x)).wp rd own m
      (fun _ m' => (∀ i < n, m'.get (p, d + i) = .num (v i)) ∧ (∀ j, (j < d ∨ d + n ≤ j) → m'.get (p, j) = m.get (p, j)) ∧ Frame own m m') := by
  have key := wp_loopF (m0 := m) (rd := rd) (own := own) (n := n) (s := ()) (m := m) (body := (fun _ i => do
      let x ← readNum q (src + i)
      writeNum p (off + i) x))
    (fun k _ m' => (∀ i < k, m'.get (p, d + i) = .num (v i)) ∧ (∀ j, (j < d ∨ d + n ≤ j) → m'.get (p, j) = m.get (p, j)))
    ⟨fun i hi => absurd hi (by omega), fun _ _ => rfl⟩ (Frame.refl _ _) (by
      intro k hk _ m' ⟨hi1, hi2⟩ hf
      rw [wp_bind']
      refine wp_readNum (c + k) (by omega) (by rw [hf.1]; exact hsq k hk) (hq k hk)
        (by rw [hf.2 _ (fun h => hpq (hnq _ h).symm), hv k hk]) ?_
      refine wp_writeNum (d + k) (by omega) (by rw [hf.1]; exact hsp k hk) (hown k hk) ⟨fun i hi => ?_, fun j hj => ?_⟩
      · by_cases e : i = k
        · subst e
          rw [get_set_self]
        · rw [get_set_ne _ _ (loc_ne (by omega)), hi1 i (by omega)]
      · rw [get_set_ne _ _ (loc_ne (by omega)), hi2 j hj])
  exact wp_mono (fun _ m' h => ⟨h.1.1, h.1.2, h.2⟩) key

theorem wp_seq2col [Zero α] {m : Mem α} {nW I b : Nat} {x : Nat → α} {ls : List Nat} {s : Nat × Int} (hv : SeqVar ls b s) (hb : b < ls.sum)
    (hs0 : ∀ j < ls.sum * (I * (nW * 2 + 1)), j < m.size 0) (hs1 : ∀ j < ls.sum * I, j < m.size 1) (hs2 : ∀ k < ls.length, k < m.size 2)
    (h0 : ∀ j < I * (nW * 2 + 1), m.get (0, b * (I * (nW * 2 + 1)) + j) = .num 0) (h1 : ∀ j < ls.sum * I, m.get (1, j) = .num (x j))
    (h2 : ∀ k < ls.length, m.get (2, k) = .int (ls.getD k 0)) :
    (seq2colBody 0 1 2 nW I ls.length s b).wp (fun l => l.1 ≠ 0 ∨ ownRow 0 (I * (nW * 2 + 1)) b l) (ownRow 0 (I * (nW * 2 + 1)) b) m
      (fun s m' => SeqVar ls b s ∧ ∀ q < ls.length, ∀ t < seqLen ls q, b = seqStart ls q + t → ∀ k < 2 * nW + 1, ∀ i < I,
        m'.get (0, b * (I * (nW * 2 + 1)) + (k * I + i)) =
          .num (if nW ≤ t + k ∧ t + k - nW < seqLen ls q then x ((seqStart ls q + (t + k - nW)) * I + i) else 0)) := by
  unfold seq2colBody
  rw [wp_bind']
  refine wp_mono ?_ (wp_findSeq hb hs2 (fun k => .inl (by simp)) h2 ls.length hv (by omega))
  rintro s m ⟨hat, rfl⟩
  obtain ⟨hq1, hq2, hq3, hq4⟩ := hat
  rw [wp_bind']
  refine wp_readInt _ rfl (hs2 _ hq1) (.inl (by simp)) (h2 _ hq1) ?_
  rw [hq2]
  have hle := seqEnd_le ls s.1 hq1
  have hlen : ls.getD s.1 0 = seqLen ls s.1 := rfl
  rw [hlen]
  obtain ⟨xs, hxs⟩ : ∃ xs : Nat, xs = max (seqStart ls s.1) (b - nW) := ⟨_, rfl⟩
  obtain ⟨xe, hxe⟩ : ∃ xe : Nat, xe = min (seqStart ls s.1 + seqLen ls s.1) (b + nW + 1) := ⟨_, rfl⟩
  have e1 : max ((seqStart ls s.1 : Nat) : Int) ((b : Int) - nW) = xs := by omega
  have e2 : min (((seqStart ls s.1 : Nat) : Int) + (seqLen ls s.1 : Nat)) ((b : Int) + nW + 1) = xe := by omega
  obtain ⟨off, hoff⟩ : ∃ off : Nat, off = xs + nW - b := ⟨_, rfl⟩
  have e3 : (xs : Int) - ((b : Int) - nW) = off := by omega
  have e4 : (((xe : Int) - xs) * (I : Int)).toNat = (xe - xs) * I := by
    rw [← Int.toNat_natCast ((xe - xs) * I)]
    congr 1
    push_cast
    rw [Int.ofNat_sub (by omega)]
  simp only [e1, e2, e3, e4]
  have hW : off + (xe - xs) ≤ nW * 2 + 1 := by omega
  have hWI : ∀ j < (xe - xs) * I, off * I + j < I * (nW * 2 + 1) := by
    intro j hj
    have h3 : (off + (xe - xs)) * I ≤ (nW * 2 + 1) * I := Nat.mul_le_mul_right I hW
    rw [Nat.add_mul] at h3
    rw [Nat.mul_comm I]
    omega
  have hX : ∀ j < (xe - xs) * I, xs * I + j < ls.sum * I := by
    intro j hj
    have h3 : (xs + (xe - xs)) * I ≤ ls.sum * I := Nat.mul_le_mul_right I (by omega)
    rw [Nat.add_mul] at h3
    omega
  rw [wp_bind']
  refine wp_mono ?_ (wp_copy (p := 0) (q := 1) (d := b * (I * (nW * 2 + 1)) + off * I) (c := xs * I) (v := fun j => x (xs * I + j)) (by simp)
    (by push_cast; ring) (by push_cast; rfl) (fun j hj => ⟨rfl, off * I + j, hWI j hj, by omega⟩) (fun j hj => .inl (by simp)) (fun l hl => hl.1)
    (fun j hj => hs0 _ (by rw [Nat.add_assoc]; exact rowMajor_lt hb (hWI j hj))) (fun j hj => hs1 _ (hX j hj)) (fun j hj => h1 _ (hX j hj)))
  rintro _ m' ⟨g1, g2, _⟩
  rw [wp_pure]
  refine ⟨⟨hq1.le, hq2, hq3⟩, ?_⟩
  rintro q hq t ht rfl k hk i hi
  have hu : s.1 = q := SeqAt.unique ⟨hq1, hq2, hq3, hq4⟩ hq ht
  subst hu
  have hkI : k * I + i < I * (nW * 2 + 1) := by
    rw [Nat.mul_comm I]
    exact rowMajor_lt (by omega) hi
  have hwi := window_iff I k i off (off + (xe - xs)) hi
  by_cases hc : nW ≤ t + k ∧ t + k - nW < seqLen ls s.1
  · rw [if_pos hc]
    have h3 := hwi.2 ⟨by omega, by omega⟩
    rw [Nat.add_mul] at h3
    have h4 := g1 (k * I + i - off * I) (by omega)
    rw [show (seqStart ls s.1 + t) * (I * (nW * 2 + 1)) + (k * I + i) =
      (seqStart ls s.1 + t) * (I * (nW * 2 + 1)) + off * I + (k * I + i - off * I) by omega, h4]
    congr 2
    have h5 : (seqStart ls s.1 + (t + k - nW)) + off = xs + k := by omega
    have h6 := congrArg (· * I) h5
    simp only [Nat.add_mul] at h6
    rw [Nat.add_mul]
    omega
  · rw [if_neg hc]
    have h3 : ¬ (off * I ≤ k * I + i ∧ k * I + i < (off + (xe - xs)) * I) := by
      rw [hwi]
      omega
    rw [Nat.add_mul] at h3
    rw [g2 _ (by omega), h0 _ hkI]

/-- The rows of a sequence that have a given row in their window. -/
theorem sum_window [AddCommMonoid α] (g : Nat → α) (start len nW b ds de : Nat) (h1 : start ≤ b) (h2 : b < start + len)
    (hds : ds = max start (b - nW)) (hde : de = min (start + len) (b + nW + 1)) :
    ∑ j ∈ range (de - ds), g (ds + j) =
      ∑ t ∈ range len, if t ≤ (b - start) + nW ∧ (b - start) ≤ t + nW then g (start + t) else 0 := by
  rw [← Finset.sum_filter]
  refine Finset.sum_bij' (fun j _ => ds + j - start) (fun t _ => start + t - ds) ?_ ?_ ?_ ?_ ?_
  · intro j hj
    simp only [mem_filter, mem_range] at hj ⊢
    omega
  · intro t ht
    simp only [mem_filter, mem_range] at ht ⊢
    omega
  · intro j hj
    simp only [mem_range] at hj
    omega
  · intro t ht
    simp only [mem_filter, mem_range] at ht
    omega
  · intro j hj
    simp only [mem_range] at hj
    congr 1
    omega

theorem wp_backpropSeq2col [AddCommMonoid α] {m : Mem α} {nW I b : Nat} {y : Nat → α} {ls : List Nat} {s : Nat × Int} (hv : SeqVar ls b s)
    (hb : b < ls.sum)
    (hs0 : ∀ j < ls.sum * I, j < m.size 0) (hs1 : ∀ j < ls.sum * (I * (nW * 2 + 1)), j < m.size 1) (hs2 : ∀ k < ls.length, k < m.size 2)
    (h0 : ∀ i < I, m.get (0, b * I + i) = .num 0) (h1 : ∀ j < ls.sum * (I * (nW * 2 + 1)), m.get (1, j) = .num (y j))
    (h2 : ∀ k < ls.length, m.get (2, k) = .int (ls.getD k 0)) :
    (backpropSeq2colBody 0 1 2 nW I ls.length s b).wp (fun l => l.1 ≠ 0 ∨ ownRow 0 I b l) (ownRow 0 I b) m
      (fun s m' => SeqVar ls b s ∧ ∀ q < ls.length, ∀ r < seqLen ls q, b = seqStart ls q + r → ∀ i < I,
        m'.get (0, b * I + i) = .num (∑ t ∈ range (seqLen ls q), if t ≤ r + nW ∧ r ≤ t + nW then
          y ((seqStart ls q + t) * (I * (nW * 2 + 1)) + ((r + nW - t) * I + i)) else 0)) := by
  unfold backpropSeq2colBody
  rw [wp_bind']
  refine wp_mono ?_ (wp_findSeq hb hs2 (fun k => .inl (by simp)) h2 ls.length hv (by omega))
  rintro s m ⟨hat, rfl⟩
  obtain ⟨hq1, hq2, hq3, hq4⟩ := hat
  rw [wp_bind']
  refine wp_readInt _ rfl (hs2 _ hq1) (.inl (by simp)) (h2 _ hq1) ?_
  rw [hq2]
  have hle := seqEnd_le ls s.1 hq1
  have hlen : ls.getD s.1 0 = seqLen ls s.1 := rfl
  rw [hlen]
  obtain ⟨ds, hds⟩ : ∃ ds : Nat, ds = max (seqStart ls s.1) (b - nW) := ⟨_, rfl⟩
  obtain ⟨de, hde⟩ : ∃ de : Nat, de = min (seqStart ls s.1 + seqLen ls s.1) (b + nW + 1) := ⟨_, rfl⟩
  have e1 : max ((seqStart ls s.1 : Nat) : Int) ((b : Int) - nW) = ds := by omega
  have e2 : min (((seqStart ls s.1 : Nat) : Int) + (seqLen ls s.1 : Nat)) ((b : Int) + nW + 1) = de := by omega
  have e3 : ((de : Int) - ds).toNat = de - ds := by omega
  simp only [e1, e2, e3]
  rw [wp_bind']
  refine wp_mono ?_ (wp_loopF (m0 := m)
    (fun n _ m' => ∀ i < I, m'.get (0, b * I + i) =
      .num (∑ j ∈ range n, y ((ds + j) * (I * (nW * 2 + 1)) + ((b + nW - (ds + j)) * I + i)))) ?_ (Frame.refl _ _) ?_)
  · rintro _ m' ⟨g, _⟩
    rw [wp_pure]
    refine ⟨⟨hq1.le, hq2, hq3⟩, ?_⟩
    rintro q hq r hr rfl i hi
    have hu : s.1 = q := SeqAt.unique ⟨hq1, hq2, hq3, hq4⟩ hq hr
    subst hu
    rw [g i hi, sum_window (fun c => y (c * (I * (nW * 2 + 1)) + ((seqStart ls s.1 + r + nW - c) * I + i))) _ _ _ _ _ _ hq3 hq4 hds hde]
    congr 1
    refine Finset.sum_congr rfl fun t _ => ?_
    rw [show seqStart ls s.1 + r - seqStart ls s.1 = r by omega, show seqStart ls s.1 + r + nW - (seqStart ls s.1 + t) = r + nW - t by omega]
  · intro i hi
    rw [h0 i hi]
    simp
  · intro j hj _ m' hinv hf
    have hro : ∀ p n, p ≠ 0 → m'.get (p, n) = m.get (p, n) := fun p n hp => hf.2 _ (fun h => hp h.1)
    have hlt : ∀ i < I, (ds + j) * (I * (nW * 2 + 1)) + (b + nW - (ds + j)) * I + i < ls.sum * (I * (nW * 2 + 1)) := fun i hi => by
      rw [Nat.add_assoc]
      refine rowMajor_lt (by omega) ?_
      rw [Nat.mul_comm I]
      exact rowMajor_lt (by omega) hi
    refine wp_mono (fun _ m'' h i hi => ?_) (wp_addRow (p := 0) (q := 1)
      (base := (ds + j) * (I * (nW * 2 + 1)) + (b + nW - (ds + j)) * I) (by simp) ?_
      (fun l hl => .inr hl) (fun i hi => ⟨rfl, i, hi, rfl⟩)
      (fun i hi => .inl (by simp)) (fun l hl => hl.1) (fun i hi => by rw [hf.1]; exact hs0 _ (rowMajor_lt hb hi))
      (fun i hi => by rw [hf.1]; exact hs1 _ (hlt i hi)) hinv (fun i hi => by rw [hro _ _ (by simp), h1 _ (hlt i hi)]))
    · rw [h.1 i hi, Finset.sum_range_succ, Nat.add_assoc]
    · have : ((b + nW - (ds + j) : Nat) : Int) = 2 * nW - ((ds : Int) + j - ((b : Int) - nW)) := by omega
      push_cast [this]
      ring

/-- The running maximum of `maxout`. -/
theorem wp_maxout [LinearOrder α] {m : Mem α} {bo N P : Nat} {x : Nat → α} (hbo : bo < N) (hP : 0 < P)
    (hs0 : N ≤ m.size 0) (hs1 : N ≤ m.size 1) (hs2 : ∀ j < N * P, j < m.size 2) (h2 : ∀ j < N * P, m.get (2, j) = .num (x j)) :
    (maxoutBody 0 1 2 P () bo).wp (fun l => 2 ≤ l.1 ∨ (l.1 < 2 ∧ l.2 = bo)) (fun l => l.1 < 2 ∧ l.2 = bo) m
      (fun _ m' => ∃ w, firstMax (fun p => x (bo * P + p)) P w ∧ m'.get (1, bo) = .int w ∧ m'.get (0, bo) = .num (x (bo * P + w))) := by
  unfold maxoutBody
  have hlt : ∀ p < P, bo * P + p < N * P := fun p hp => rowMajor_lt hbo hp
  rw [wp_bind']
  refine wp_readNum _ rfl (hs2 _ (hlt 0 hP)) (.inl (by simp)) (h2 _ (hlt 0 hP)) ?_
  rw [wp_bind']
  refine wp_mono ?_ (wp_loop (fun n (r : α × Nat) m' => m' = m ∧ firstMax (fun p => x (bo * P + p)) (n + 1) r.2 ∧ r.1 = x (bo * P + r.2)) ?_ ?_)
  · rintro r m' ⟨rfl, hr1, hr2⟩
    rw [Nat.sub_add_cancel hP] at hr1
    rw [wp_bind']
    refine wp_writeInt bo rfl (by omega) ⟨by simp, rfl⟩ ?_
    refine wp_writeNum bo rfl (by simp only [Mem.set]; omega) ⟨by simp, rfl⟩ ⟨r.2, hr1, ?_, ?_⟩
    · rw [get_set_ne _ _ (by simp), get_set_self]
    · rw [get_set_self, hr2]
  · refine ⟨rfl, ⟨by omega, fun t ht => ?_, fun t ht => absurd ht (by simp)⟩, rfl⟩
    obtain rfl : t = 0 := by omega
    exact le_rfl
  · rintro i hi r m' ⟨rfl, ⟨hw, hle, hlt'⟩, hr⟩
    rw [wp_bind']
    refine wp_readNum _ rfl (hs2 _ (hlt (i + 1) (by omega))) (.inl (by simp)) (h2 _ (hlt (i + 1) (by omega))) ?_
    rw [wp_pure]
    simp only at hle hlt'
    split_ifs with hc
    · rw [hr] at hc
      refine ⟨rfl, ⟨by omega, fun t ht => ?_, fun t ht => ?_⟩, rfl⟩
      · by_cases e : t = i + 1
        · subst e
          exact le_rfl
        · exact (hle t (by omega)).trans hc.le
      · exact (hle t (by simp only at ht; omega)).trans_lt hc
    · rw [hr] at hc
      refine ⟨rfl, ⟨by omega, fun t ht => ?_, fun t ht => hlt' t ht⟩, hr⟩
      by_cases e : t = i + 1
      · subst e
        exact not_lt.1 hc
      · exact hle t (by omega)

theorem wp_backpropMaxout [Zero α] {m : Mem α} {b B O P : Nat} {y : Nat → α} {w : Nat → Int} (hb : b < B)
    (hs0 : B * O * P ≤ m.size 0) (hs1 : B * O ≤ m.size 1) (hs2 : B * O ≤ m.size 2)
    (h0 : ∀ j < O * P, m.get (0, b * (O * P) + j) = .num 0)
    (h1 : ∀ j < B * O, m.get (1, j) = .num (y j)) (h2 : ∀ j < B * O, m.get (2, j) = .int (w j)) (hw : ∀ j < B * O, 0 ≤ w j ∧ w j < P) :
    (backpropMaxoutBody 0 1 2 O P () b).wp (fun l => l.1 ≠ 0 ∨ ownRow 0 (O * P) b l) (ownRow 0 (O * P) b) m
      (fun _ m' => ∀ o < O, ∀ p < P, m'.get (0, b * (O * P) + (o * P + p)) = .num (if w (b * O + o) = p then y (b * O + o) else 0)) := by
  unfold backpropMaxoutBody
  refine wp_mono (fun _ m' h o ho p hp => ?_) (wp_loopF (m0 := m)
    (fun n _ m' => ∀ o < O, ∀ p < P, m'.get (0, b * (O * P) + (o * P + p)) =
      .num (if o < n ∧ w (b * O + o) = p then y (b * O + o) else 0)) ?_ (Frame.refl _ _) ?_)
  · rw [h.1 o ho p hp]
    congr 1
    exact if_congr ⟨fun h => h.2, fun h => ⟨ho, h⟩⟩ rfl rfl
  · intro o ho p hp
    rw [h0 _ (rowMajor_lt ho hp), if_neg (by omega)]
  · intro k hk _ m' hinv hf
    have hro : ∀ p n, p ≠ 0 → m'.get (p, n) = m.get (p, n) := fun p n hp => hf.2 _ (fun h => hp h.1)
    have hlt := rowMajor_lt hb hk
    have hwk := hw _ hlt
    obtain ⟨q, hq⟩ : ∃ q : Nat, w (b * O + k) = q := ⟨(w (b * O + k)).toNat, by omega⟩
    rw [hq] at hwk
    rw [wp_bind']
    refine wp_readInt _ rfl (by rw [hf.1]; omega) (.inl (by simp)) (by rw [hro _ _ (by simp), h2 _ hlt]) ?_
    rw [wp_bind']
    refine wp_readNum _ rfl (by rw [hf.1]; omega) (.inl (by simp)) (by rw [hro _ _ (by simp), h1 _ hlt]) ?_
    have hqP : k * P + q < O * P := rowMajor_lt hk (by omega)
    have hin : b * (O * P) + (k * P + q) < B * (O * P) := rowMajor_lt hb hqP
    refine wp_writeNum (b * (O * P) + (k * P + q)) (by rw [hq]; push_cast; ring) (by rw [hf.1]; exact hin.trans_le (by rw [← Nat.mul_assoc]; exact hs0))
      ⟨rfl, _, hqP, rfl⟩ ?_
    intro o ho p hp
    by_cases e : o = k ∧ p = q
    · obtain ⟨rfl, rfl⟩ := e
      rw [get_set_self, if_pos ⟨by omega, hq⟩]
    · have hne : b * (O * P) + (o * P + p) ≠ b * (O * P) + (k * P + q) := by
        intro h
        have := row_inj hp (by omega) (show o * P + p = k * P + q by omega)
        exact e this
      rw [get_set_ne _ _ (loc_ne hne), hinv o ho p hp]
      by_cases h3 : o = k
      · subst h3
        have : ¬ w (b * O + o) = p := by
          intro h
          rw [hq] at h
          exact e ⟨rfl, by omega⟩
        rw [if_neg (fun h => this h.2), if_neg (fun h => this h.2)]
      · congr 1
        apply if_congr _ rfl rfl
        constructor <;> rintro ⟨ha, hb'⟩ <;> exact ⟨by omega, hb'⟩

/-- Row `b` of the two results of `reduce_max`. -/
def ownRow2 (w b : Nat) (l : Loc) : Prop := l.1 < 2 ∧ ∃ o < w, l.2 = b * w + o

theorem ownRow2_disj (w b b' : Nat) (l : Loc) (h : ownRow2 w b l) (h' : ownRow2 w b' l) : b = b' := by
  obtain ⟨_, o, ho, he⟩ := h
  obtain ⟨_, o', ho', he'⟩ := h'
  exact (row_inj ho ho' (he.symm.trans he')).1

theorem firstMax_step [LinearOrder α] {x : Nat → α} {n w : Nat} (h : firstMax x (n + 1) w) :
    firstMax x (n + 2) (if x (n + 1) > x w then n + 1 else w) := by
  obtain ⟨hw, hle, hlt'⟩ := h
  split_ifs with hc
  · refine ⟨by omega, fun t ht => ?_, fun t ht => (hle t ht).trans_lt hc⟩
    by_cases e : t = n + 1
    · subst e
      exact le_rfl
    · exact (hle t (by omega)).trans hc.le
  · refine ⟨by omega, fun t ht => ?_, hlt'⟩
    by_cases e : t = n + 1
    · subst e
      exact not_lt.1 hc
    · exact hle t (by omega)

theorem wp_reduceMax [LinearOrder α] {m : Mem α} {O b T : Nat} {x : Nat → α} {ls : List Nat} (hb : b < ls.length) (hsum : ls.sum ≤ T)
    (hpos : 0 < seqLen ls b)
    (hs0 : ∀ o < O, b * O + o < m.size 0) (hs1 : ∀ o < O, b * O + o < m.size 1)
    (hs2 : ∀ j < T * O, j < m.size 2) (hs3 : ∀ k < ls.length, k < m.size 3)
    (h2 : ∀ j < T * O, m.get (2, j) = .num (x j)) (h3 : ∀ k < ls.length, m.get (3, k) = .int (ls.getD k 0)) :
    (reduceMaxBody 0 1 2 3 O () b).wp (fun l => 2 ≤ l.1 ∨ ownRow2 O b l) (ownRow2 O b) m
      (fun _ m' => ∀ o < O, ∃ w, firstMax (fun t => x ((seqStart ls b + t) * O + o)) (seqLen ls b) w ∧
        m'.get (1, b * O + o) = .int w ∧ m'.get (0, b * O + o) = .num (x ((seqStart ls b + w) * O + o))) := by
  have hlt : ∀ t < seqLen ls b, ∀ o < O, (seqStart ls b + t) * O + o < T * O := fun t ht o ho =>
    rowMajor_lt (by have := seqEnd_le ls b hb; simp only [seqLen] at this ht; omega) ho
  unfold reduceMaxBody
  rw [wp_bind']
  refine wp_mono ?_ (wp_startOf (q := 3) (b := b) (ls := ls) (by omega) hs3 (fun k => .inl (by simp)) h3)
  rintro _ m1 ⟨rfl, rfl⟩
  rw [wp_bind']
  refine wp_mono ?_ (wp_loopF (m0 := m1) (fun k _ m' => ∀ o < k, m'.get (1, b * O + o) = .int 0 ∧
    m'.get (0, b * O + o) = .num (x (seqStart ls b * O + o))) (fun o ho => absurd ho (by omega)) (Frame.refl _ _) ?_)
  · rintro _ m' ⟨hi, hf⟩
    rw [wp_bind']
    refine wp_readInt _ rfl (by rw [hf.1]; exact hs3 b hb) (.inl (by simp)) (by rw [hf.2 _ (fun h => absurd h.1 (by simp)), h3 b hb]) ?_
    rw [Int.toNat_natCast]
    refine wp_mono ?_ (wp_loopF (m0 := m1) (fun n _ m' => ∀ o < O, ∃ w, firstMax (fun t => x ((seqStart ls b + t) * O + o)) (n + 1) w ∧
        m'.get (1, b * O + o) = .int w ∧ m'.get (0, b * O + o) = .num (x ((seqStart ls b + w) * O + o))) ?_ hf ?_)
    · rintro _ m'' ⟨h, _⟩ o ho
      have h := h o ho
      have e : ls.getD b 0 - 1 + 1 = seqLen ls b := Nat.sub_add_cancel hpos
      rwa [e] at h
    · intro o ho
      refine ⟨0, ⟨by omega, fun t ht => ?_, fun t ht => absurd ht (by simp)⟩, ?_, ?_⟩
      · obtain rfl : t = 0 := by omega
        exact le_rfl
      · exact (hi o ho).1
      · exact (hi o ho).2
    · intro n hn _ m' hinv hf
      have hn' : n + 1 < seqLen ls b := by simp only [seqLen]; omega
      refine wp_mono ?_ (wp_loopF (m0 := m1) (fun k _ m' => ∀ o < O, ∃ w, firstMax (fun t => x ((seqStart ls b + t) * O + o)) (if o < k then n + 2 else n + 1) w ∧
        m'.get (1, b * O + o) = .int w ∧ m'.get (0, b * O + o) = .num (x ((seqStart ls b + w) * O + o))) ?_ hf ?_)
      · rintro _ m'' ⟨h, _⟩ o ho
        have h := h o ho
        rwa [if_pos ho] at h
      · intro o ho
        simp only [Nat.not_lt_zero, if_false]
        exact hinv o ho
      · intro j hj _ m' hinv hf
        rw [wp_bind']
        refine wp_readNum ((seqStart ls b + (n + 1)) * O + j) (by push_cast; rfl) (by rw [hf.1]; exact hs2 _ (hlt _ hn' _ hj)) (.inl (by simp))
          (by rw [hf.2 _ (fun h => absurd h.1 (by simp)), h2 _ (hlt _ hn' _ hj)]) ?_
        obtain ⟨w, hw, hm1, hm0⟩ := hinv j hj
        rw [if_neg (by omega)] at hw
        rw [wp_bind']
        refine wp_readNum (b * O + j) rfl (by rw [hf.1]; exact hs0 _ hj) (.inr ⟨by simp, j, hj, rfl⟩) hm0 ?_
        have hst := firstMax_step hw
        have hother : ∀ m'' : Mem α, (∀ l : Loc, l.2 ≠ b * O + j → m''.get l = m'.get l) → ∀ o < O, o ≠ j →
            ∃ w, firstMax (fun t => x ((seqStart ls b + t) * O + o)) (if o < j + 1 then n + 2 else n + 1) w ∧
        m''.get (1, b * O + o) = .int w ∧ m''.get (0, b * O + o) = .num (x ((seqStart ls b + w) * O + o)) := by
          intro m'' hm o ho hoj
          have h := hinv o ho
          rw [hm _ (by simp only; omega), hm _ (by simp only; omega)]
          by_cases e : o < j
          · rw [if_pos (by omega)]
            rwa [if_pos e] at h
          · rw [if_neg (by omega)]
            rwa [if_neg e] at h
        split_ifs with hc
        · rw [wp_bind']
          refine wp_writeNum (b * O + j) rfl (by rw [hf.1]; exact hs0 _ hj) ⟨by simp, j, hj, rfl⟩ ?_
          refine wp_writeInt (b * O + j) rfl (by simp only [Mem.set]; rw [hf.1]; exact hs1 _ hj) ⟨by simp, j, hj, rfl⟩ ?_
          intro o ho
          by_cases e : o = j
          · subst e
            rw [if_pos (by omega)]
            rw [if_pos hc] at hst
            refine ⟨n + 1, hst, ?_, ?_⟩
            · rw [get_set_self]
            · rw [get_set_ne _ _ (by simp), get_set_self]
          · refine hother _ (fun l hl => ?_) o ho e
            rw [get_set_ne _ _ (fun h => hl (by rw [h])), get_set_ne _ _ (fun h => hl (by rw [h]))]
        · rw [wp_pure]
          intro o ho
          by_cases e : o = j
          · subst e
            rw [if_pos (by omega)]
            rw [if_neg hc] at hst
            exact ⟨w, hst, hm1, hm0⟩
          · exact hother _ (fun l hl => rfl) o ho e
  · intro k hk _ m' hi hf
    rw [wp_bind']
    refine wp_readNum (seqStart ls b * O + k) (by push_cast; rfl) (by rw [hf.1]; exact hs2 _ (hlt 0 hpos k hk)) (.inl (by simp))
      (by rw [hf.2 _ (fun h => absurd h.1 (by simp)), h2 _ (by simpa using hlt 0 hpos k hk)]) ?_
    rw [wp_bind']
    refine wp_writeNum (b * O + k) rfl (by rw [hf.1]; exact hs0 _ hk) ⟨by simp, k, hk, rfl⟩ ?_
    refine wp_writeInt (b * O + k) rfl (by simp only [Mem.set]; rw [hf.1]; exact hs1 _ hk) ⟨by simp, k, hk, rfl⟩ ?_
    intro o ho
    by_cases e : o = k
    · subst e
      refine ⟨?_, ?_⟩
      · rw [get_set_self]
      · rw [get_set_ne _ _ (by simp), get_set_self]
    · have := hi o (by omega)
      rw [get_set_ne _ _ (loc_ne (by omega)), get_set_ne _ _ (by simp), get_set_ne _ _ (by simp), get_set_ne _ _ (loc_ne (by omega))]
      exact this

/-- `for i < O: dX[t, i] = f(i, dY[c + i])` -/
theorem wp_mapRow {rd own : Loc → Prop} {m : Mem α} {p q O t c : Nat} {v : Nat → α} (f : α → α) (hpq : p ≠ q)
    (hown : ∀ i < O, own (p, t * O + i)) (hq : ∀ i < O, rd (q, c * O + i)) (hnq : ∀ l, own l → l.1 = p)
    (hsp : ∀ i < O, t * O + i < m.size p) (hsq : ∀ i < O, c * O + i < m.size q) (hv : ∀ i < O, m.get (q, c * O + i) = .num (v i)) :
    (loop O () (fun _ i => do
      let x ← readNum q (c * O + i : Nat)
      writeNum p (t * O + i : Nat) (f x))).wp rd own m
      (fun _ m' => (∀ i < O, m'.get (p, t * O + i) = .num (f (v i))) ∧ Frame own m m') := by
  refine wp_loopF (m0 := m) (fun k _ m' => ∀ i < k, m'.get (p, t * O + i) = .num (f (v i)))
    (fun i hi => absurd hi (by omega)) (Frame.refl _ _) ?_
  intro k hk _ m' hi hf
  rw [wp_bind']
  refine wp_readNum _ rfl (by rw [hf.1]; exact hsq k hk) (hq k hk)
    (by rw [hf.2 _ (fun h => hpq (hnq _ h).symm), hv k hk]) ?_
  refine wp_writeNum _ rfl (by rw [hf.1]; exact hsp k hk) (hown k hk) fun i hi' => ?_
  by_cases e : i = k
  · subst e
    rw [get_set_self]
  · rw [get_set_ne _ _ (loc_ne (by omega)), hi i (by omega)]

theorem wp_backpropReduceSum {m : Mem α} {O b R : Nat} {d : Nat → α} {ls : List Nat} {s : Nat × Int} (hv : SeqVar ls b s) (hb : b < ls.sum)
    (hR : ls.length ≤ R) (hs0 : ∀ j < ls.sum * O, j < m.size 0) (hs1 : ∀ j < R * O, j < m.size 1) (hs2 : ∀ k < ls.length, k < m.size 2)
    (h1 : ∀ j < R * O, m.get (1, j) = .num (d j)) (h2 : ∀ k < ls.length, m.get (2, k) = .int (ls.getD k 0)) :
    (backpropReduceSumBody 0 1 2 ls.length O s b).wp (fun l => l.1 ≠ 0 ∨ ownRow 0 O b l) (ownRow 0 O b) m
      (fun s m' => SeqVar ls b s ∧ ∀ q < ls.length, ∀ t < seqLen ls q, b = seqStart ls q + t → ∀ o < O,
        m'.get (0, b * O + o) = .num (d (q * O + o))) := by
  unfold backpropReduceSumBody
  rw [wp_bind']
  refine wp_mono ?_ (wp_advance hb hs2 (fun k => .inl (by simp)) h2 ls.length hv (by omega))
  rintro s m ⟨hat, rfl⟩
  rw [wp_bind']
  refine wp_readInt _ rfl (hs2 _ hat.1) (.inl (by simp)) (h2 _ hat.1) ?_
  have h4 := hat.2.2.1
  have h5 := hat.2.2.2
  rw [if_neg (by simp only [seqLen] at h5; omega), wp_bind']
  have hlt : ∀ i < O, s.1 * O + i < R * O := fun i hi => rowMajor_lt (hat.1.trans_le hR) hi
  refine wp_mono ?_ (wp_mapRow (p := 0) (q := 1) (fun x => x) (by simp) (fun i hi => ⟨rfl, i, hi, rfl⟩) (fun i hi => .inl (by simp))
    (fun l hl => hl.1) (fun i hi => hs0 _ (rowMajor_lt hb hi)) (fun i hi => hs1 _ (hlt i hi)) (fun i hi => h1 _ (hlt i hi)))
  rintro _ m' ⟨hm, _⟩
  rw [wp_pure]
  refine ⟨hat.seqVar, ?_⟩
  rintro q hq t ht rfl o ho
  rw [hm o ho, hat.unique hq ht]

theorem wp_backpropReduceMean [Div α] [IntCast α] {m : Mem α} {O b R : Nat} {d : Nat → α} {ls : List Nat} {s : Nat × Int} (hv : SeqVar ls b s)
    (hb : b < ls.sum)
    (hR : ls.length ≤ R) (hs0 : ∀ j < ls.sum * O, j < m.size 0) (hs1 : ∀ j < R * O, j < m.size 1) (hs2 : ∀ k < ls.length, k < m.size 2)
    (h1 : ∀ j < R * O, m.get (1, j) = .num (d j)) (h2 : ∀ k < ls.length, m.get (2, k) = .int (ls.getD k 0)) :
    (backpropReduceMeanBody 0 1 2 ls.length O s b).wp (fun l => l.1 ≠ 0 ∨ ownRow 0 O b l) (ownRow 0 O b) m
      (fun s m' => SeqVar ls b s ∧ ∀ q < ls.length, ∀ t < seqLen ls q, b = seqStart ls q + t → ∀ o < O,
        m'.get (0, b * O + o) = .num (d (q * O + o) / ((seqLen ls q : Int) : α))) := by
  unfold backpropReduceMeanBody
  rw [wp_bind']
  refine wp_mono ?_ (wp_advance hb hs2 (fun k => .inl (by simp)) h2 ls.length hv (by omega))
  rintro s m ⟨hat, rfl⟩
  rw [wp_bind']
  refine wp_readInt _ rfl (hs2 _ hat.1) (.inl (by simp)) (h2 _ hat.1) ?_
  have h4 := hat.2.2.1
  have h5 := hat.2.2.2
  rw [if_neg (by simp only [seqLen] at h5; omega), wp_bind']
  refine wp_readInt _ rfl (hs2 _ hat.1) (.inl (by simp)) (h2 _ hat.1) ?_
  rw [wp_bind']
  have hlt : ∀ i < O, s.1 * O + i < R * O := fun i hi => rowMajor_lt (hat.1.trans_le hR) hi
  refine wp_mono ?_ (wp_mapRow (p := 0) (q := 1) (fun x => x / (((ls.getD s.1 0 : Nat) : Int) : α)) (by simp) (fun i hi => ⟨rfl, i, hi, rfl⟩)
    (fun i hi => .inl (by simp))
    (fun l hl => hl.1) (fun i hi => hs0 _ (rowMajor_lt hb hi)) (fun i hi => hs1 _ (hlt i hi)) (fun i hi => h1 _ (hlt i hi)))
  rintro _ m' ⟨hm, _⟩
  rw [wp_pure]
  refine ⟨hat.seqVar, ?_⟩
  rintro q hq t ht rfl o ho
  rw [hm o ho, hat.unique hq ht]
  rfl

theorem wp_backpropReduceMax [Zero α] {m : Mem α} {O b R : Nat} {d : Nat → α} {w : Nat → Int} {ls : List Nat} {s : Nat × Int}
    (hv : SeqVar ls b s) (hb : b < ls.sum)
    (hR : ls.length ≤ R) (hs0 : ∀ j < ls.sum * O, j < m.size 0) (hs1 : ∀ j < R * O, j < m.size 1)
    (hs2 : ∀ j < ls.length * O, j < m.size 2) (hs3 : ∀ k < ls.length, k < m.size 3)
    (h0 : ∀ o < O, m.get (0, b * O + o) = .num 0) (h1 : ∀ j < R * O, m.get (1, j) = .num (d j))
    (h2 : ∀ j < ls.length * O, m.get (2, j) = .int (w j)) (h3 : ∀ k < ls.length, m.get (3, k) = .int (ls.getD k 0)) :
    (backpropReduceMaxBody 0 1 2 3 ls.length O s b).wp (fun l => l.1 ≠ 0 ∨ ownRow 0 O b l) (ownRow 0 O b) m
      (fun s m' => SeqVar ls b s ∧ ∀ q < ls.length, ∀ t < seqLen ls q, b = seqStart ls q + t → ∀ o < O,
        m'.get (0, b * O + o) = .num (if w (q * O + o) = t then d (q * O + o) else 0)) := by
  unfold backpropReduceMaxBody
  rw [wp_bind']
  refine wp_mono ?_ (wp_advance hb hs3 (fun k => .inl (by simp)) h3 ls.length hv (by omega))
  rintro s m ⟨hat, rfl⟩
  rw [wp_bind']
  refine wp_readInt _ rfl (hs3 _ hat.1) (.inl (by simp)) (h3 _ hat.1) ?_
  have h4 := hat.2.2.1
  have h5 := hat.2.2.2
  have h6 := hat.2.1
  rw [if_neg (by simp only [seqLen] at h5; omega), wp_bind']
  have hlt : ∀ i < O, s.1 * O + i < R * O := fun i hi => rowMajor_lt (hat.1.trans_le hR) hi
  refine wp_mono ?_ (wp_loopF (m0 := m) (fun k _ m' => ∀ o < O,
    m'.get (0, b * O + o) = .num (if o < k ∧ w (s.1 * O + o) = (b : Int) - s.2 then d (s.1 * O + o) else 0)) ?_ (Frame.refl _ _) ?_)
  · rintro _ m' ⟨hm, _⟩
    rw [wp_pure]
    refine ⟨hat.seqVar, ?_⟩
    rintro q hq t ht rfl o ho
    have hu := hat.unique hq ht
    rw [hm o ho, hu]
    congr 1
    refine if_congr ?_ rfl rfl
    rw [h6, hu]
    constructor
    · rintro ⟨_, h⟩
      omega
    · intro h
      exact ⟨ho, by omega⟩
  · intro o ho
    rw [h0 o ho, if_neg (by omega)]
  · intro k hk _ m' hi hf
    have hro : ∀ p n, p ≠ 0 → m'.get (p, n) = m.get (p, n) := fun p n hp => hf.2 _ (fun h => hp h.1)
    have hlt2 := rowMajor_lt hat.1 hk
    rw [wp_bind']
    refine wp_readInt _ rfl (by rw [hf.1]; exact hs2 _ hlt2) (.inl (by simp)) (by rw [hro _ _ (by simp), h2 _ hlt2]) ?_
    split_ifs with hc
    · rw [wp_bind']
      refine wp_readNum _ rfl (by rw [hf.1]; exact hs1 _ (hlt k hk)) (.inl (by simp)) (by rw [hro _ _ (by simp), h1 _ (hlt k hk)]) ?_
      refine wp_writeNum _ rfl (by rw [hf.1]; exact hs0 _ (rowMajor_lt hb hk)) ⟨rfl, k, hk, rfl⟩ fun o ho => ?_
      by_cases e : o = k
      · subst e
        rw [get_set_self, if_pos ⟨by omega, hc⟩]
      · rw [get_set_ne _ _ (loc_ne (by omega)), hi o ho]
        congr 1
        apply if_congr _ rfl rfl
        constructor <;> rintro ⟨ha, hb'⟩ <;> exact ⟨by omega, hb'⟩
    · rw [wp_pure]
      intro o ho
      rw [hi o ho]
      congr 1
      apply if_congr _ rfl rfl
      constructor
      · rintro ⟨ha, hb'⟩
        exact ⟨by omega, hb'⟩
      · rintro ⟨ha, hb'⟩
        by_cases e : o = k
        · subst e
          exact absurd hb' hc
        · exact ⟨by omega, hb'⟩

/-- The columns of `pad`'s result with number `i`. -/
def ownCol (N W i : Nat) (l : Loc) : Prop := l.1 = 0 ∧ ∃ j < N, l.2 = j * W + i

theorem wp_pad [Zero α] {m : Mem α} {N L stride i : Nat} {len : Nat → Nat} {x : Nat → Nat → α} (hi : i < L * stride)
    (hs0 : N * (L * stride) ≤ m.size 0) (hs1 : ∀ j < N, j < m.size 1) (hs2 : ∀ j < N, len j * stride ≤ m.size (j + 2))
    (h1 : ∀ j < N, m.get (1, j) = .int (len j)) (h2 : ∀ j < N, ∀ k < len j * stride, m.get (j + 2, k) = .num (x j k)) :
    (padBody 0 (fun j => j + 2) 1 stride N L () i).wp (fun l => l.1 ≠ 0 ∨ ownCol N (L * stride) i l) (ownCol N (L * stride) i) m
      (fun _ m' => ∀ j < N, m'.get (0, j * (L * stride) + i) = .num (if i < len j * stride then x j i else 0)) := by
  unfold padBody
  refine wp_mono (fun _ m' h => h.1) (wp_loopF (m0 := m)
    (fun n _ m' => ∀ j < n, m'.get (0, j * (L * stride) + i) = .num (if i < len j * stride then x j i else 0))
    (fun j hj => absurd hj (by omega)) (Frame.refl _ _) ?_)
  intro k hk _ m' hinv hf
  have hro : ∀ p n, p ≠ 0 → m'.get (p, n) = m.get (p, n) := fun p n hp => hf.2 _ (fun h => hp h.1)
  have hdone : ∀ v : α, v = (if i < len k * stride then x k i else 0) → ∀ j < k + 1,
      (m'.set (0, k * (L * stride) + i) (.num v)).get (0, j * (L * stride) + i) = .num (if i < len j * stride then x j i else 0) := by
    intro v hv j hj
    by_cases e : j = k
    · subst e
      rw [get_set_self, hv]
    · rw [get_set_ne _ _ (loc_ne (fun h => e (row_inj hi hi h).1)), hinv j (by omega)]
  rw [wp_bind']
  refine wp_readInt _ rfl (by rw [hf.1]; exact hs1 k hk) (.inl (by simp)) (by rw [hro _ _ (by simp), h1 k hk]) ?_
  have hin : k * (L * stride) + i < m'.size 0 := by rw [hf.1]; exact (rowMajor_lt hk hi).trans_le hs0
  by_cases hc : i < len k * stride
  · rw [if_pos (by exact_mod_cast hc), wp_bind']
    refine wp_readNum _ rfl (by rw [hf.1]; exact hc.trans_le (hs2 k hk)) (.inl (by simp)) (by rw [hro _ _ (by simp), h2 k hk i hc]) ?_
    refine wp_writeNum (k * (L * stride) + i) (by push_cast; ring) hin ⟨rfl, k, hk, rfl⟩ (hdone _ (by rw [if_pos hc]))
  · rw [if_neg (by exact_mod_cast hc)]
    refine wp_writeNum (k * (L * stride) + i) (by push_cast; ring) hin ⟨rfl, k, hk, rfl⟩ (hdone _ (by rw [if_neg hc]))

end Thinc.Gpu
