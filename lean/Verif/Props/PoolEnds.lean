import Verif.Props.PoolMax
/-!
# C39 First and last pooling
-/
namespace Thinc
open Finset Spec
variable {K : Type}

theorem cumsumInt_eq (ls : List Nat) : ∀ off : Nat, cumsumInt off (asInts ls) =
    asInts ((List.range ls.length).map (fun b => off + seqStart ls (b + 1))) := by
  induction ls with
  | nil => intro off; rfl
  | cons l ls ih =>
    intro off
    have h : ((off : Int) + Int.ofNat l) = ((off + l : Nat) : Int) := by
      simp only [Int.ofNat_eq_natCast]
      push_cast
      ring
    have h2 : cumsumInt off (asInts (l :: ls)) =
        ((off : Int) + Int.ofNat l) :: cumsumInt ((off : Int) + Int.ofNat l) (asInts ls) := rfl
    rw [h2, h, ih, List.length_cons, List.range_succ_eq_map]
    simp only [asInts, List.map_cons, List.map_map]
    refine List.cons_eq_cons.2 ⟨by simp [seqStart], List.map_congr_left fun b _ => ?_⟩
    simp only [seqStart, Function.comp, List.take_succ_cons, List.sum_cons, Nat.add_assoc]

theorem asInts_getLastD (l : List Nat) (h : l ≠ []) :
    (asInts l).getLastD 0 = (l.getLast h : Int) := by
  cases l with
  | nil => exact absurd rfl h
  | cons x xs =>
    rw [asInts, List.getLastD_eq_getLast?, List.getLast?_map, List.getLast?_eq_some_getLast h]
    rfl

theorem takeRows_spec (X : Mat K) (pos : List Nat) (h : ∀ i ∈ pos, i < X.rows) :
    ∃ Y, X.takeRows (asInts pos) = .ok Y ∧ Y.rows = pos.length ∧ Y.cols = X.cols ∧
      ∀ b < pos.length, ∀ o < X.cols, Y.at b o = X.at (pos.getD b 0) o := by
  unfold Mat.takeRows
  rw [if_pos (by
    rw [List.all_eq_true]
    intro i hi
    simp only [asInts, List.mem_map] at hi
    obtain ⟨n, hn, rfl⟩ := hi
    have := h n hn
    simp only [decide_eq_true_eq, Int.ofNat_eq_natCast]
    omega)]
  refine ⟨_, rfl, by simp [asInts], rfl, fun b hb o ho => ?_⟩
  simp only [Mat.at, rowMajor_div _ _ _ ho, rowMajor_mod _ _ _ ho]
  have e : (asInts pos).getD b 0 = ((pos.getD b 0 : Nat) : Int) := by
    simp [asInts, List.getD_eq_getElem?_getD, hb]
  rw [e, if_neg (by omega), Int.toNat_natCast]

theorem putRows_fold (d : Mat K) (n : Nat) (pos : List Nat) :
    ∀ (m : Nat) (Y : Mat K), Y.cols = d.cols → pos.Nodup →
    let Y' := ((asInts pos).zipIdx m).foldl (fun (Y : Mat K) p =>
      let i : Nat := (if p.1 < 0 then p.1 + (n : Int) else p.1).toNat
      ⟨Y.rows, Y.cols, fun k => if k / d.cols = i then d.at p.2 (k % d.cols) else Y.val k⟩) Y
    Y'.rows = Y.rows ∧ Y'.cols = d.cols ∧
    (∀ b < pos.length, ∀ o < d.cols, Y'.at (pos.getD b 0) o = d.at (m + b) o) ∧
    (∀ r, r ∉ pos → ∀ o < d.cols, Y'.at r o = Y.at r o) := by
  induction pos with
  | nil =>
    intro m Y hc _
    exact ⟨rfl, hc, fun b hb => absurd hb (by simp), fun _ _ _ _ => rfl⟩
  | cons i pos ih =>
    intro m Y hc hnd
    rw [List.nodup_cons] at hnd
    have h1 : ¬ (Int.ofNat i < 0) := by simp
    obtain ⟨g1, g2, g3, g4⟩ := ih (m + 1)
      ⟨Y.rows, Y.cols, fun k => if k / d.cols = i then d.at m (k % d.cols) else Y.val k⟩ hc hnd.2
    have hat : ∀ r, ∀ o < d.cols, (⟨Y.rows, Y.cols, fun k =>
        if k / d.cols = i then d.at m (k % d.cols) else Y.val k⟩ : Mat K).at r o =
        if r = i then d.at m o else Y.at r o := by
      intro r o ho
      simp only [Mat.at, hc, rowMajor_div _ _ _ ho, rowMajor_mod _ _ _ ho]
    simp only [asInts, List.map_cons, List.zipIdx_cons, List.foldl_cons, if_neg h1]
    simp only [Int.ofNat_eq_natCast, Int.toNat_natCast]
    simp only [asInts] at g1 g2 g3 g4
    refine ⟨g1, g2, ?_, ?_⟩
    · intro b hb o ho
      match b, hb with
      | 0, _ =>
        simp only [List.getD_cons_zero, Nat.add_zero]
        rw [g4 i hnd.1 o ho, hat i o ho, if_pos rfl]
      | b + 1, hb =>
        simp only [List.getD_cons_succ]
        rw [g3 b (by simpa using hb) o ho]
        congr 1
        omega
    · intro r hr o ho
      rw [List.mem_cons, not_or] at hr
      rw [g4 r hr.2 o ho, hat r o ho, if_neg hr.1]

theorem putRows_spec [Zero K] (d : Mat K) (n : Nat) (pos : List Nat) (hd : d.rows = pos.length)
    (h : ∀ i ∈ pos, i < n) (hnd : pos.Nodup) :
    ∃ Y, (Mat.zeros n d.cols).putRows (asInts pos) d = .ok Y ∧ Y.rows = n ∧ Y.cols = d.cols ∧
      (∀ b < pos.length, ∀ o < d.cols, Y.at (pos.getD b 0) o = d.at b o) ∧
      (∀ r, r ∉ pos → ∀ o < d.cols, Y.at r o = 0) := by
  unfold Mat.putRows
  rw [if_neg (by simp [asInts_length, hd, Mat.zeros]), if_pos (by
    rw [List.all_eq_true]
    intro i hi
    simp only [asInts, List.mem_map] at hi
    obtain ⟨m, hm, rfl⟩ := hi
    have := h m hm
    simp only [Int.ofNat_eq_natCast, Mat.zeros]
    exact decide_eq_true (by omega))]
  obtain ⟨g1, g2, g3, g4⟩ := putRows_fold d n pos 0 (Mat.zeros n d.cols) rfl hnd
  refine ⟨_, rfl, g1, g2, fun b hb o ho => ?_, fun r hr o ho => ?_⟩
  · have := g3 b hb o ho
    rw [Nat.zero_add] at this
    exact this
  · have := g4 r hr o ho
    exact this

/-- The rows `seqStart b + f b`, one in every sequence. -/
def pickRows (ls : List Nat) (f : Nat → Nat) : List Nat :=
  (List.range ls.length).map (fun b => seqStart ls b + f b)

theorem pickRows_lt (ls : List Nat) (f : Nat → Nat) (h : ∀ b < ls.length, f b < seqLen ls b) :
    ∀ i ∈ pickRows ls f, i < ls.sum := by
  intro i hi
  simp only [pickRows, List.mem_map, List.mem_range] at hi
  obtain ⟨b, hb, rfl⟩ := hi
  have h1 := seqEnd_le ls b hb
  have h2 := h b hb
  omega

theorem pickRows_inj (ls : List Nat) (f : Nat → Nat) (b c t : Nat) (hb : b < ls.length)
    (hc : c < ls.length) (hf : f c < seqLen ls c) (ht : t < seqLen ls b) :
    seqStart ls b + t = seqStart ls c + f c ↔ b = c ∧ t = f c := by
  constructor
  · intro h
    rcases Nat.lt_trichotomy b c with h1 | h1 | h1
    · have := seqStart_mono ls b c h1 hb
      omega
    · subst h1
      omega
    · have := seqStart_mono ls c b h1 hc
      omega
  · rintro ⟨rfl, rfl⟩
    rfl

theorem pickRows_nodup (ls : List Nat) (f : Nat → Nat) (h : ∀ b < ls.length, f b < seqLen ls b) :
    (pickRows ls f).Nodup := by
  refine List.Nodup.map_on ?_ List.nodup_range
  intro b hb c hc hbc
  rw [List.mem_range] at hb hc
  exact ((pickRows_inj ls f b c (f b) hb hc (h c hc) (h b hb)).1 hbc).1

theorem pickRows_getD (ls : List Nat) (f : Nat → Nat) (b : Nat) (hb : b < ls.length) :
    (pickRows ls f).getD b 0 = seqStart ls b + f b := by
  simp [pickRows, List.getD_eq_getElem?_getD, hb]

theorem seqLen_pos (ls : List Nat) (hpos : ∀ l ∈ ls, 0 < l) (b : Nat) (hb : b < ls.length) :
    0 < seqLen ls b := by
  have : seqLen ls b = ls[b] := by simp [seqLen, List.getD_eq_getElem?_getD, hb]
  rw [this]
  exact hpos _ (List.getElem_mem hb)

theorem allPos_asInts (ls : List Nat) (hpos : ∀ l ∈ ls, 0 < l) :
    (asInts ls).all (fun l => decide (l > 0)) = true := by
  rw [List.all_eq_true]
  intro i hi
  simp only [asInts, List.mem_map] at hi
  obtain ⟨n, hn, rfl⟩ := hi
  have := hpos n hn
  simp only [decide_eq_true_eq, Int.ofNat_eq_natCast]
  omega

theorem startsEnds_eq (ls : List Nat) : ((0 : Int) :: cumsumInt 0 (asInts ls)) =
    asInts ((List.range (ls.length + 1)).map (seqStart ls)) := by
  have h := cumsumInt_eq ls 0
  rw [Nat.cast_zero] at h
  rw [h, List.range_succ_eq_map]
  simp only [asInts, List.map_cons, List.map_map, Nat.zero_add]
  rfl

theorem startsEnds_last (ls : List Nat) :
    ((0 : Int) :: cumsumInt 0 (asInts ls)).getLastD 0 = (ls.sum : Int) := by
  rw [startsEnds_eq, asInts_getLastD _ (by simp)]
  simp [seqStart]

theorem startsEnds_dropLast (ls : List Nat) :
    ((0 : Int) :: cumsumInt 0 (asInts ls)).dropLast = asInts (pickRows ls (fun _ => 0)) := by
  rw [startsEnds_eq, asInts, ← List.map_dropLast, ← List.map_dropLast, List.range_succ,
    List.dropLast_concat]
  rfl

theorem lasts_eq (ls : List Nat) (hpos : ∀ l ∈ ls, 0 < l) :
    (cumsumInt 0 (asInts ls)).map (fun x => x - 1) = asInts (pickRows ls (fun b => seqLen ls b - 1)) := by
  have h := cumsumInt_eq ls 0
  rw [Nat.cast_zero] at h
  rw [h]
  simp only [asInts, pickRows, List.map_map]
  refine List.map_congr_left fun b hb => ?_
  rw [List.mem_range] at hb
  have h1 := seqStart_succ ls b hb
  have h2 := seqLen_pos ls hpos b hb
  simp only [Function.comp, Int.ofNat_eq_natCast]
  omega

theorem lasts_last (ls : List Nat) (hls : ls ≠ []) :
    ((cumsumInt 0 (asInts ls)).map (fun x => x - 1)).getLastD 0 = (ls.sum : Int) - 1 := by
  have h := cumsumInt_eq ls 0
  rw [Nat.cast_zero] at h
  obtain ⟨n, hn⟩ : ∃ n, ls.length = n + 1 := ⟨ls.length - 1, by
    have := List.length_pos_iff.2 hls
    omega⟩
  have h2 : seqStart ls (n + 1) = ls.sum := by rw [← hn]; simp only [seqStart, List.take_length]
  rw [h, hn, List.getLastD_eq_getLast?, List.getLast?_map, asInts, List.getLast?_map, List.getLast?_map,
    List.getLast?_range, if_neg (by omega), Nat.add_sub_cancel]
  simp only [Option.map_some, Option.getD_some, Nat.zero_add, h2, Int.ofNat_eq_natCast]

/-- **C39** (`reduce_first`): the first row of every sequence. -/
theorem C39_reduce_first [Zero K] (X : Mat K) (ls : List Nat) (hpos : ∀ l ∈ ls, 0 < l)
    (hls : ls ≠ []) (hsum : ls.sum = X.rows) :
    ∃ Y se, reduceFirst X (asInts ls) = .ok (Y, se) ∧ Y.rows = ls.length ∧ Y.cols = X.cols ∧
      ∀ b < ls.length, ∀ o < X.cols, Y.at b o = seqAt X ls b 0 o := by
  have hlen := List.length_pos_iff.2 hls
  have hin : ∀ b < ls.length, (fun _ => 0) b < seqLen ls b := fun b hb => seqLen_pos ls hpos b hb
  obtain ⟨Y, h1, h2, h3, h4⟩ := takeRows_spec X (pickRows ls (fun _ => 0))
    (fun i hi => by rw [← hsum]; exact pickRows_lt ls _ hin i hi)
  unfold reduceFirst
  rw [asInts_length, if_neg (by omega), if_neg (by rw [allPos_asInts ls hpos]; simp)]
  simp only [startsEnds_last, startsEnds_dropLast]
  rw [if_neg (by omega), h1]
  refine ⟨Y, _, rfl, by simp [h2, pickRows], h3, fun b hb o ho => ?_⟩
  rw [h4 b (by simpa [pickRows] using hb) o ho, pickRows_getD ls _ b hb]
  rfl

/-- **C39** (`reduce_last`): the last row of every sequence. -/
theorem C39_reduce_last [Zero K] (X : Mat K) (ls : List Nat) (hpos : ∀ l ∈ ls, 0 < l)
    (hls : ls ≠ []) (hsum : ls.sum = X.rows) :
    ∃ Y se, reduceLast X (asInts ls) = .ok (Y, se) ∧ Y.rows = ls.length ∧ Y.cols = X.cols ∧
      ∀ b < ls.length, ∀ o < X.cols, Y.at b o = seqAt X ls b (seqLen ls b - 1) o := by
  have hlen := List.length_pos_iff.2 hls
  have hin : ∀ b < ls.length, (fun b => seqLen ls b - 1) b < seqLen ls b := fun b hb => by
    have := seqLen_pos ls hpos b hb
    show seqLen ls b - 1 < seqLen ls b
    omega
  obtain ⟨Y, h1, h2, h3, h4⟩ := takeRows_spec X (pickRows ls (fun b => seqLen ls b - 1))
    (fun i hi => by rw [← hsum]; exact pickRows_lt ls _ hin i hi)
  unfold reduceLast
  rw [asInts_length, if_neg (by omega), if_neg (by rw [allPos_asInts ls hpos]; simp)]
  simp only [lasts_last ls hls]
  rw [if_neg (by omega), lasts_eq ls hpos, h1]
  refine ⟨Y, _, rfl, by simp [h2, pickRows], h3, fun b hb o ho => ?_⟩
  rw [h4 b (by simpa [pickRows] using hb) o ho, pickRows_getD ls _ b hb]
  rfl

/-- **C39**: `backprop_reduce_first`, given what `reduce_first` returned, has the input's shape, puts
the gradient on the first row of every sequence and zero elsewhere. -/
theorem C39_backprop_first [Zero K] (X d : Mat K) (ls : List Nat) (hpos : ∀ l ∈ ls, 0 < l)
    (hls : ls ≠ []) (hsum : ls.sum = X.rows) (hd : d.rows = ls.length) :
    ∃ Y se dX, reduceFirst X (asInts ls) = .ok (Y, se) ∧ backpropReduceFirst d se = .ok dX ∧
      dX.rows = X.rows ∧ dX.cols = d.cols ∧
      ∀ b < ls.length, ∀ t < seqLen ls b, ∀ o < d.cols,
        seqAt dX ls b t o = if t = 0 then d.at b o else 0 := by
  have hlen := List.length_pos_iff.2 hls
  have hin : ∀ b < ls.length, (fun _ => 0) b < seqLen ls b := fun b hb => seqLen_pos ls hpos b hb
  obtain ⟨Y, h1, h2, h3, h4⟩ := takeRows_spec X (pickRows ls (fun _ => 0))
    (fun i hi => by rw [← hsum]; exact pickRows_lt ls _ hin i hi)
  obtain ⟨dX, g1, g2, g3, g4, g5⟩ := putRows_spec d ls.sum (pickRows ls (fun _ => 0))
    (by simp [pickRows, hd]) (pickRows_lt ls _ hin) (pickRows_nodup ls _ hin)
  refine ⟨Y, 0 :: cumsumInt 0 (asInts ls), dX, ?_, ?_, by omega, g3, ?_⟩
  · unfold reduceFirst
    rw [asInts_length, if_neg (by omega), if_neg (by rw [allPos_asInts ls hpos]; simp)]
    simp only [startsEnds_last, startsEnds_dropLast]
    rw [if_neg (by omega), h1]
    rfl
  · have e : backpropReduceFirst d ((0 : Int) :: cumsumInt 0 (asInts ls)) =
        (Mat.zeros (((0 : Int) :: cumsumInt 0 (asInts ls)).getLastD 0).toNat d.cols).putRows
          ((0 : Int) :: cumsumInt 0 (asInts ls)).dropLast d := by
      cases ls with
      | nil => exact absurd rfl hls
      | cons l ls => rfl
    rw [e, startsEnds_last, startsEnds_dropLast, Int.toNat_natCast]
    exact g1
  · intro b hb t ht o ho
    simp only [seqAt]
    by_cases h0 : t = 0
    · subst h0
      have := g4 b (by simpa [pickRows] using hb) o ho
      rw [pickRows_getD ls _ b hb] at this
      rw [if_pos rfl]
      exact this
    · rw [if_neg h0]
      refine g5 _ ?_ o ho
      intro hmem
      simp only [pickRows, List.mem_map, List.mem_range] at hmem
      obtain ⟨c, hc, hcb⟩ := hmem
      exact h0 ((pickRows_inj ls (fun _ => 0) b c t hb hc (hin c hc) ht).1 hcb.symm).2

/-- **C39**: `backprop_reduce_last`, given what `reduce_last` returned. -/
theorem C39_backprop_last [Zero K] (X d : Mat K) (ls : List Nat) (hpos : ∀ l ∈ ls, 0 < l)
    (hls : ls ≠ []) (hsum : ls.sum = X.rows) (hd : d.rows = ls.length) :
    ∃ Y lasts dX, reduceLast X (asInts ls) = .ok (Y, lasts) ∧ backpropReduceLast d lasts = .ok dX ∧
      dX.rows = X.rows ∧ dX.cols = d.cols ∧
      ∀ b < ls.length, ∀ t < seqLen ls b, ∀ o < d.cols,
        seqAt dX ls b t o = if t + 1 = seqLen ls b then d.at b o else 0 := by
  have hlen := List.length_pos_iff.2 hls
  have hin : ∀ b < ls.length, (fun b => seqLen ls b - 1) b < seqLen ls b := fun b hb => by
    have := seqLen_pos ls hpos b hb
    show seqLen ls b - 1 < seqLen ls b
    omega
  obtain ⟨Y, h1, h2, h3, h4⟩ := takeRows_spec X (pickRows ls (fun b => seqLen ls b - 1))
    (fun i hi => by rw [← hsum]; exact pickRows_lt ls _ hin i hi)
  obtain ⟨dX, g1, g2, g3, g4, g5⟩ := putRows_spec d ls.sum (pickRows ls (fun b => seqLen ls b - 1))
    (by simp [pickRows, hd]) (pickRows_lt ls _ hin) (pickRows_nodup ls _ hin)
  refine ⟨Y, (cumsumInt 0 (asInts ls)).map (fun x => x - 1), dX, ?_, ?_, by omega, g3, ?_⟩
  · unfold reduceLast
    rw [asInts_length, if_neg (by omega), if_neg (by rw [allPos_asInts ls hpos]; simp)]
    simp only [lasts_last ls hls]
    rw [if_neg (by omega), lasts_eq ls hpos, h1]
    rfl
  · have e : ∀ l : List Int, l ≠ [] → backpropReduceLast d l =
        (Mat.zeros (l.getLastD 0 + 1).toNat d.cols).putRows l d := by
      intro l hl
      cases l with
      | nil => exact absurd rfl hl
      | cons l ls => rfl
    rw [e _ (by
      cases ls with
      | nil => exact absurd rfl hls
      | cons l ls => simp [asInts, cumsumInt]), lasts_last ls hls, lasts_eq ls hpos, Int.sub_add_cancel,
      Int.toNat_natCast]
    exact g1
  · intro b hb t ht o ho
    simp only [seqAt]
    by_cases h0 : t + 1 = seqLen ls b
    · have := g4 b (by simpa [pickRows] using hb) o ho
      rw [pickRows_getD ls _ b hb] at this
      rw [if_pos h0, ← this]
      congr 1
      omega
    · rw [if_neg h0]
      refine g5 _ ?_ o ho
      intro hmem
      simp only [pickRows, List.mem_map, List.mem_range] at hmem
      obtain ⟨c, hc, hcb⟩ := hmem
      have := (pickRows_inj ls (fun b => seqLen ls b - 1) b c t hb hc (hin c hc) ht).1 hcb.symm
      obtain ⟨h5, h6⟩ := this
      subst h5
      omega

/-- **C39**: both backward functions are the exact adjoints of the forward ones. -/
theorem C39_adjoint [Field K] (X d : Mat K) (ls : List Nat) (hpos : ∀ l ∈ ls, 0 < l)
    (hls : ls ≠ []) (hsum : ls.sum = X.rows) (hd : d.rows = ls.length) (hc : d.cols = X.cols) :
    (∃ Y se dX, reduceFirst X (asInts ls) = .ok (Y, se) ∧ backpropReduceFirst d se = .ok dX ∧
      inner ls.length X.cols Y.at d.at = inner X.rows X.cols X.at dX.at) ∧
    (∃ Y lasts dX, reduceLast X (asInts ls) = .ok (Y, lasts) ∧ backpropReduceLast d lasts = .ok dX ∧
      inner ls.length X.cols Y.at d.at = inner X.rows X.cols X.at dX.at) := by
  have key : ∀ (Y dX : Mat K) (f : Nat → Nat), (∀ b < ls.length, f b < seqLen ls b) →
      (∀ b < ls.length, ∀ o < X.cols, Y.at b o = seqAt X ls b (f b) o) →
      (∀ b < ls.length, ∀ t < seqLen ls b, ∀ o < d.cols,
        seqAt dX ls b t o = if t = f b then d.at b o else 0) →
      inner ls.length X.cols Y.at d.at = inner X.rows X.cols X.at dX.at := by
    intro Y dX f hf hY hdX
    rw [← hsum, inner_segments]
    simp only [Spec.inner]
    refine Finset.sum_congr rfl fun b hb => ?_
    rw [Finset.sum_comm]
    refine Finset.sum_congr rfl fun o ho => ?_
    rw [Finset.mem_range] at hb ho
    rw [hY b hb o ho, Finset.sum_eq_single (f b)]
    · have := hdX b hb (f b) (hf b hb) o (by omega)
      rw [if_pos rfl] at this
      simp only [seqAt] at this ⊢
      rw [this]
    · intro t ht hne
      rw [Finset.mem_range] at ht
      have := hdX b hb t ht o (by omega)
      rw [if_neg hne] at this
      simp only [seqAt] at this
      rw [this, mul_zero]
    · intro h
      exact absurd (Finset.mem_range.2 (hf b hb)) h
  constructor
  · obtain ⟨Y, se, h1, _, _, h4⟩ := C39_reduce_first X ls hpos hls hsum
    obtain ⟨Y', se', dX, g1, g2, _, _, g5⟩ := C39_backprop_first X d ls hpos hls hsum hd
    rw [h1] at g1
    simp only [Except.ok.injEq, Prod.mk.injEq] at g1
    rw [← g1.2] at g2
    exact ⟨Y, se, dX, h1, g2, key Y dX (fun _ => 0) (seqLen_pos ls hpos) h4 g5⟩
  · obtain ⟨Y, se, h1, _, _, h4⟩ := C39_reduce_last X ls hpos hls hsum
    obtain ⟨Y', se', dX, g1, g2, _, _, g5⟩ := C39_backprop_last X d ls hpos hls hsum hd
    rw [h1] at g1
    simp only [Except.ok.injEq, Prod.mk.injEq] at g1
    rw [← g1.2] at g2
    refine ⟨Y, se, dX, h1, g2, key Y dX (fun b => seqLen ls b - 1) (fun b hb => ?_) h4 ?_⟩
    · have := seqLen_pos ls hpos b hb
      omega
    · intro b hb t ht o ho
      rw [g5 b hb t ht o ho]
      have e : (t + 1 = seqLen ls b) ↔ (t = seqLen ls b - 1) := by omega
      simp only [e]

example : (∀ l ∈ [1, 2], 0 < l) ∧ [1, 2] ≠ [] ∧ [1, 2].sum = exPool.rows ∧
    (Mat.zeros 2 2 : Mat ℚ).rows = [1, 2].length ∧ (Mat.zeros 2 2 : Mat ℚ).cols = exPool.cols := by decide

/-- **C39**: empty and negative lengths are rejected, and positive lengths that do not add up to the
number of rows. -/
theorem C39_bad_lengths_raise [Zero K] (X : Mat K) :
    (∀ ls : List Int, (∃ l ∈ ls, l ≤ 0) →
      reduceFirst X ls = .error .valueError ∧ reduceLast X ls = .error .valueError) ∧
    (∀ ls : List Nat, ls ≠ [] → (∀ l ∈ ls, 0 < l) → ls.sum ≠ X.rows →
      reduceFirst X (asInts ls) = .error .indexError ∧ reduceLast X (asInts ls) = .error .indexError) := by
  constructor
  · rintro ls ⟨l, hl, h0⟩
    have h1 : ¬ (ls.length = 0) := by
      have := List.length_pos_of_mem hl
      omega
    have h2 : ¬ (ls.all (fun l => decide (l > 0)) = true) := by
      rw [List.all_eq_true]
      intro h
      have := h l hl
      simp only [decide_eq_true_eq] at this
      omega
    unfold reduceFirst reduceLast
    rw [if_neg h1, if_neg h1, if_pos h2, if_pos h2]
    exact ⟨rfl, rfl⟩
  · intro ls hls hpos hsum
    have hlen := List.length_pos_iff.2 hls
    have h0 : ¬ ls.length = 0 := by omega
    have h1 := allPos_asInts ls hpos
    unfold reduceFirst reduceLast
    simp only [asInts_length, if_neg h0, h1, not_true_eq_false, if_false, startsEnds_last,
      lasts_last ls hls]
    rw [if_pos (by omega), if_pos (by omega)]
    exact ⟨rfl, rfl⟩

example : (∃ l ∈ [(1 : Int), 0], l ≤ 0) ∧ (∀ l ∈ [1, 1], 0 < l) ∧ [1, 1].sum ≠ exPool.rows := by decide

/-- **C39**, where the claim fails: an empty list of lengths is accepted although there are rows, and the
gradient then does not have the shape of the input. -/
theorem C39_no_lengths_partial [Zero K] (X d : Mat K) :
    ∃ Y se dX, reduceFirst X [] = .ok (Y, se) ∧ backpropReduceFirst d se = .ok dX ∧
      Y.rows = 0 ∧ dX.rows = 0 := ⟨_, _, _, rfl, rfl, rfl, rfl⟩

end Thinc
