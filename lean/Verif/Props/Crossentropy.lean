import Verif.Lemmas.Crossentropy
import Verif.Props.Categorical
/-!
# C46, C47 Categorical cross entropy

`Spec.smoothed n s t k` is the share of class `k` in the (smoothed) one-hot row of label `t`.
-/
namespace Thinc
open Real Spec Finset

/-- The divisor of the gradient. -/
noncomputable def CCE.divisor (c : CCE) (rows : Nat) : ℝ := if c.normalize then rows else 1

/-- A guess matrix of probabilities. -/
def isProb (G : Mat ℝ) : Prop := ∀ i < G.rows, ∀ k < G.cols, 0 ≤ G.at i k ∧ G.at i k ≤ 1

theorem target_mem (n : Nat) (s : ℝ) (hs : validSmoothing n s) (b : Prop) [Decidable b] (t k : Nat) :
    0 ≤ (if b then smoothed n s t k else 0) ∧ (if b then smoothed n s t k else 0) ≤ 1 := by
  split
  · exact smoothed_mem n s t k hs
  · constructor <;> norm_num

/-- The settings with which labels can be read: a valid smoothing, and as many names as classes (if any). -/
structure CCE.Fits (c : CCE) (G : Mat ℝ) : Prop where
  smoothing : validSmoothing G.cols c.smoothing
  names : c.namesFit G.cols
  prob : isProb G

/-- **C46** (lists and arrays of ints).  For any number of rows, probabilities `G`, and labels that are
below the number of classes (the missing value may also be negative, down to `-n`), the gradient is
`guess - target` divided by the batch size if `normalize` is set, and zero in the rows whose label is the
missing value.
Missing: a missing value beyond the classes, see `C46_missing_out_of_range_raises`. -/
theorem C46_int_labels_partial (c : CCE) (G : Mat ℝ) (hc : c.Fits G) (ts : List Int) (hlen : ts.length = G.rows)
    (hts : ∀ y ∈ ts, (0 ≤ y ∧ y < G.cols) ∨ (c.missing = .int y ∧ -(G.cols : Int) ≤ y ∧ y < G.cols))
    (truths : Truths) (htr : truths = .intList ts ∨ truths = .intArray ts) :
    ∃ D, c.getGrad G truths = .ok D ∧ D.rows = G.rows ∧ D.cols = G.cols ∧
      ∀ (i : Nat) (hi : i < ts.length), ∀ k < G.cols,
        (c.missing = .int ts[i] → D.at i k = 0) ∧
        (c.missing ≠ .int ts[i] → D.at i k =
          (G.at i k - smoothed G.cols c.smoothing ts[i].toNat k) / c.divisor G.rows) := by
  classical
  let idx : Int → Nat := fun y => if 0 ≤ y then y.toNat else G.cols - (-y).toNat
  have hidx : ∀ y ∈ ts, npAxisIndex G.cols y = .ok (idx y) := by
    intro y hy
    have := hts y hy
    unfold npAxisIndex
    by_cases h : 0 ≤ y
    · rw [if_pos h, if_pos (by omega)]
      simp [idx, h]
    · rw [if_neg h, if_pos (by omega)]
      simp [idx, h]
  have hread : ∃ mask, readTruths c truths G = .ok (some ts, mask, fun _ => none) ∧ mask.rows = G.rows ∧
      mask.cols = G.cols ∧ ∀ (i : Nat) (hi : i < ts.length), ∀ k < G.cols,
        (c.missing = .int ts[i] → mask.at i k = 0) ∧ (c.missing ≠ .int ts[i] → mask.at i k = 1) := by
    rcases htr with rfl | rfl
    · obtain ⟨m, m1, m2, m3, m4⟩ := makeMask_ok G c.missing.isInt ts hlen
      refine ⟨m, ?_, m2, m3, fun i hi k hk => ?_⟩
      · simp only [readTruths, bind, Except.bind, m1]
        rfl
      · rw [m4 i hi k hk]
        cases hm : c.missing with
        | int v =>
          simp only [Missing.isInt, beq_iff_eq, Missing.int.injEq]
          exact ⟨fun e => if_pos e.symm, fun e => if_neg (fun e2 => e (by rw [e2]))⟩
        | none => simp [Missing.isInt]
        | str s => simp [Missing.isInt]
    · obtain ⟨m, m1, m2, m3, m4⟩ := maskByValue_ok G ts c.missing hlen
      refine ⟨m, ?_, m2, m3, m4⟩
      simp only [readTruths, bind, Except.bind, m1]
      rfl
  obtain ⟨mask, r1, r2, r3, r4⟩ := hread
  have hl2 : truths.len = G.rows := by rcases htr with rfl | rfl <;> exact hlen
  obtain ⟨T, M, a1, a2, a3, a4, a5, a6⟩ := convertTruths_ok c truths G ts idx mask (fun _ => none) hc.smoothing
    hl2 hlen hidx r1 r2 r3 hc.names (fun i hi j hj => by simp at hj)
  obtain ⟨D, d1, d2, d3, d4⟩ := getGrad_ok c truths G T M a1 a2 a3 a4 a5 hc.prob (fun i hi k hk => by
    rw [(a6 i (by omega) k hk).1]
    exact target_mem G.cols c.smoothing hc.smoothing _ _ _)
  refine ⟨D, d1, d2, d3, fun i hi k hk => ?_⟩
  have e := d4 i (by omega) k hk
  rw [(a6 i hi k hk).1, (a6 i hi k hk).2] at e
  simp only [if_true, true_or] at e
  refine ⟨fun h => ?_, fun h => ?_⟩
  · rw [e, (r4 i hi k hk).1 h]
    simp
  · rw [e, (r4 i hi k hk).2 h, mul_one]
    have : 0 ≤ ts[i] := by
      rcases hts _ (List.getElem_mem hi) with h1 | h1
      · exact h1.1
      · exact absurd h1.1 h
    simp only [idx, if_pos this]
    rfl

/-- A configuration and a guess matrix that meet the hypotheses. -/
example : (CCE.mk true none (.int 1) none 0).Fits (toMat (fun (_ : Fin 2) (_ : Fin 3) => (0.5 : ℝ))) := by
  refine ⟨Or.inl ⟨rfl, by decide⟩, fun names h => by simp at h, fun i hi k hk => ?_⟩
  unfold toMat
  rw [ofFn_at 2 3 _ _ _ hk, dif_pos ⟨hi, hk⟩]
  norm_num

/-- **C46** (found by the model): a missing value outside the classes, such as `-100` or `n_classes`, is not
masked: `get_grad` raises IndexError as soon as the batch contains it. -/
theorem C46_missing_out_of_range_raises (c : CCE) (G : Mat ℝ) (hc : c.Fits G) (pre : List Nat) (v : Int)
    (post : List Int) (hlen : (pre.map Int.ofNat ++ v :: post).length = G.rows) (hpre : ∀ y ∈ pre, y < G.cols)
    (hv : (G.cols : Int) ≤ v ∨ v < -(G.cols : Int)) (truths : Truths)
    (htr : truths = .intList (pre.map Int.ofNat ++ v :: post) ∨ truths = .intArray (pre.map Int.ofNat ++ v :: post)) :
    c.getGrad G truths = .error .indexError := by
  classical
  have hcat := C50_label_out_of_range pre v post G.cols c.smoothing hc.smoothing hpre hv
  have hread : ∃ mask, readTruths c truths G = .ok (some (pre.map Int.ofNat ++ v :: post), mask, fun _ => none) := by
    rcases htr with rfl | rfl
    · simp only [readTruths, bind, Except.bind, makeMask]
      rw [if_pos (fun i hi => by
        obtain ⟨h1, _⟩ := (mem_positions _ _ i).1 hi
        omega)]
      exact ⟨_, rfl⟩
    · obtain ⟨m, m1, _⟩ := maskByValue_ok G _ c.missing hlen
      exact ⟨m, by simp only [readTruths, bind, Except.bind, m1]; rfl⟩
  obtain ⟨mask, h⟩ := hread
  unfold CCE.getGrad CCE.convertTruths
  simp only [h, bind, Except.bind, targetMatrix, hcat]

/-! ## Strings -/

/-- What a string in the list of truths stands for. -/
inductive Meaning where
  | missing
  | negates (j : Nat)
  | label (j : Nat)

/-- The reading of the strings: the missing value; the negative prefix followed by the name of a class; the name of
a class. -/
inductive Reads (c : CCE) (names : List PyStr) : PyStr → Meaning → Prop
  | missing (v : PyStr) : c.missing = .str v → Reads c names v .missing
  | negates (p : PyStr) (j : Nat) (hj : j < names.length) : c.negPrefix = some p → p ≠ [] →
      c.missing ≠ .str (p ++ names[j]) → Reads c names (p ++ names[j]) (.negates j)
  | label (j : Nat) (hj : j < names.length) : c.missing ≠ .str names[j] →
      (∀ p, c.negPrefix = some p → p ≠ [] → ¬ p <+: names[j]) → Reads c names names[j] (.label j)

/-- What the loop stores for a string. -/
def Meaning.stored (names : List PyStr) : Meaning → PyStr × Bool × Option Nat
  | .missing => (names.getD 0 [], true, none)
  | .negates j => (names.getD j [], false, some j)
  | .label j => (names.getD j [], false, none)

/-- The class a row is given. -/
def Meaning.cls : Meaning → Nat
  | .missing => 0
  | .negates j => j
  | .label j => j

theorem convertStr_ok (c : CCE) (names : List PyStr) (hn : names.Nodup) (hne : names ≠ []) (v : PyStr) (m : Meaning)
    (h : Reads c names v m) : convertStr c names v = .ok (m.stored names) ∧ m.cls < names.length := by
  have hpos : 0 < names.length := List.length_pos_iff.2 hne
  cases h with
  | missing _ hm =>
    refine ⟨?_, hpos⟩
    unfold convertStr
    rw [if_pos hm]
    cases names with
    | nil => exact absurd rfl hne
    | cons n ns => rfl
  | negates p j hj hp hpe hm =>
    refine ⟨?_, hj⟩
    unfold convertStr
    rw [if_neg hm, hp]
    simp only
    rw [if_pos ⟨by simp [hpe], hpe, by simp⟩]
    simp only [bind, Except.bind, List.drop_left, lookupName_getElem names hn j hj, pure, Except.pure, Meaning.stored]
    simp [hj]
  | label j hj hm hp =>
    refine ⟨?_, hj⟩
    unfold convertStr
    rw [if_neg hm]
    have e : names.getD j [] = names[j] := by simp [hj]
    cases hq : c.negPrefix with
    | none => simp only [Meaning.stored, e]
    | some p =>
      simp only
      rw [if_neg]
      · simp only [Meaning.stored, e]
      · rintro ⟨_, h2, h3⟩
        exact hp p hq h2 (List.isPrefixOf_iff_prefix.1 h3)

theorem mapM_forall2 {α β ε : Type} {f : α → Except ε β} {xs : List α} {ys : List β}
    (h : List.Forall₂ (fun x y => f x = .ok y) xs ys) : xs.mapM f = .ok ys := by
  induction h with
  | nil => rfl
  | cons h1 _ ih =>
    rw [List.mapM_cons, h1, ih]
    rfl

/-- The class a string negates. -/
def Meaning.neg : Meaning → Option Nat
  | .negates j => some j
  | _ => none

theorem reads_cls (c : CCE) (names : List PyStr) (hn : names.Nodup) (hne : names ≠ []) (ts : List PyStr)
    (ms : List Meaning) (h : List.Forall₂ (Reads c names) ts ms) : ∀ m ∈ ms, m.cls < names.length := by
  intro m hm
  obtain ⟨i, hi, rfl⟩ := List.getElem_of_mem hm
  exact (convertStr_ok c names hn hne _ _ ((List.forall₂_iff_get.1 h).2 i (by rw [h.length_eq]; exact hi) hi)).2

theorem readStr_ok (c : CCE) (G : Mat ℝ) (names : List PyStr) (hn : names.Nodup) (hne : names ≠ [])
    (hnames : c.names = some names) (ts : List PyStr) (ms : List Meaning)
    (hreads : List.Forall₂ (Reads c names) ts ms) (hlen : ts.length = G.rows) (hts : ts ≠ []) :
    ∃ mask, readTruths c (.strList ts) G = .ok (some ((ms.map Meaning.cls).map Int.ofNat), mask,
        fun i => (ms[i]?).bind Meaning.neg) ∧ mask.rows = G.rows ∧ mask.cols = G.cols ∧
      ∀ (i : Nat) (hi : i < ms.length), ∀ k < G.cols, mask.at i k = match ms[i] with | .missing => 0 | _ => 1 := by
  classical
  have hml : ms.length = ts.length := hreads.length_eq.symm
  have hrows : ts.mapM (convertStr c names) = .ok (ms.map (Meaning.stored names)) := by
    refine mapM_forall2 ?_
    rw [List.forall₂_map_right_iff]
    exact hreads.imp fun v m h => (convertStr_ok c names hn hne v m h).1
  have hcls := reads_cls c names hn hne ts ms hreads
  have hlab : (ms.map (Meaning.stored names)).mapM (fun r => lookupName names r.1) = .ok (ms.map Meaning.cls) := by
    refine mapM_forall2 ?_
    rw [List.forall₂_map_left_iff, List.forall₂_map_right_iff, List.forall₂_same]
    intro m hm
    have e2 : names.getD m.cls [] = names[m.cls]'(hcls m hm) := by simp [hcls m hm]
    have e1 : (m.stored names).1 = names[m.cls]'(hcls m hm) := by
      rw [← e2]
      cases m <;> rfl
    rw [e1]
    exact lookupName_getElem names hn _ _
  obtain ⟨mask, m1, m2, m3, m4⟩ := makeMask_ok G (fun r : PyStr × Bool × Option Nat => r.2.1)
    (ms.map (Meaning.stored names)) (by rw [List.length_map]; omega)
  refine ⟨mask, ?_, m2, m3, fun i hi k hk => ?_⟩
  · simp only [readTruths, if_neg hts, hnames, bind, Except.bind, hrows, hlab, m1, pure, Except.pure]
    congr 3
    funext i
    rw [List.getElem?_map]
    cases ms[i]? with
    | none => rfl
    | some m => cases m <;> rfl
  · rw [m4 i (by rw [List.length_map]; omega) k hk, List.getElem_map]
    cases ms[i] <;> simp [Meaning.stored]

/-- **C46** (lists of strings).  With distinct names, one per class, each string is read as `Reads` says.  Rows
with the missing value have gradient zero; rows with a class name have `guess - target`; rows that negate a
class (only without label smoothing) have the guess in that class's column, as the target is 0 there, and zero
elsewhere; all divided by the batch size if `normalize` is set. -/
theorem C46_str_labels (c : CCE) (G : Mat ℝ) (hc : c.Fits G) (names : List PyStr) (hn : names.Nodup)
    (hnames : c.names = some names) (hcols : names.length = G.cols) (ts : List PyStr) (ms : List Meaning)
    (hreads : List.Forall₂ (Reads c names) ts ms) (hlen : ts.length = G.rows)
    (hneg : ∀ j, Meaning.negates j ∈ ms → c.smoothing = 0) :
    ∃ D, c.getGrad G (.strList ts) = .ok D ∧ D.rows = G.rows ∧ D.cols = G.cols ∧
      ∀ (i : Nat) (hi : i < ms.length), ∀ k < G.cols, D.at i k = (match ms[i] with
        | .missing => 0
        | .label j => (G.at i k - smoothed G.cols c.smoothing j k) / c.divisor G.rows
        | .negates j => if k = j then G.at i k / c.divisor G.rows else 0) := by
  classical
  have hcpos : 0 < G.cols := by
    rcases hc.smoothing with h | h
    · exact h.2
    · omega
  have hne : names ≠ [] := by intro e; rw [e] at hcols; simp at hcols; omega
  have hml : ms.length = ts.length := hreads.length_eq.symm
  by_cases hts : ts = []
  · -- no rows
    subst hts
    have hr : G.rows = 0 := by simpa using hlen.symm
    have hread : readTruths c (.strList []) G = .ok (some [], Mat.ofFn G.rows G.cols (fun i _ => if i ∈ ([] : List Nat) then 0 else 1), fun _ => none) := by
      simp only [readTruths, if_true, makeMask, bind, Except.bind]
      rw [if_pos (by simp)]
      rfl
    obtain ⟨T, M, a1, a2, a3, a4, a5, a6⟩ := convertTruths_ok c (.strList []) G [] Int.toNat _ (fun _ => none)
      hc.smoothing (by rw [hr]; rfl) (by rw [hr]; rfl) (by simp) hread rfl rfl hc.names (fun i hi j hj => by simp at hj)
    obtain ⟨D, d1, d2, d3, d4⟩ := getGrad_ok c (.strList []) G T M a1 a2 a3 a4 a5 hc.prob (fun i hi k hk => by omega)
    exact ⟨D, d1, d2, d3, fun i hi => by simp [hml] at hi⟩
  · have hcls := reads_cls c names hn hne ts ms hreads
    obtain ⟨mask, hread, m2, m3, m4⟩ := readStr_ok c G names hn hne hnames ts ms hreads hlen hts
    have hnegs : ∀ (i : Nat) (hi : i < ms.length), (ms[i]?).bind Meaning.neg =
        (match ms[i] with | .negates j => some j | _ => none) := by
      intro i hi
      rw [List.getElem?_eq_getElem hi]
      cases ms[i] <;> rfl
    obtain ⟨T, M, a1, a2, a3, a4, a5, a6⟩ := convertTruths_ok c (.strList ts) G _ Int.toNat mask _ hc.smoothing hlen
      (by simp only [List.length_map]; omega) (by
        intro y hy
        simp only [List.mem_map] at hy
        obtain ⟨_, ⟨m, hm, rfl⟩, rfl⟩ := hy
        exact npAxisIndex_nat _ _ (by have := hcls m hm; omega)) hread m2 m3 hc.names (by
        intro i hi j hj
        simp only [List.length_map] at hi
        rw [hnegs i hi] at hj
        have hmem := List.getElem_mem hi
        cases hmi : ms[i] with
        | negates q =>
          rw [hmi] at hj hmem
          simp only [Option.some.injEq] at hj
          refine ⟨?_, hneg q hmem, names, hnames, hne⟩
          simp [hmi, Meaning.cls, hj]
        | missing => rw [hmi] at hj; simp at hj
        | label q => rw [hmi] at hj; simp at hj)
    have hlen3 : ((ms.map Meaning.cls).map Int.ofNat).length = ms.length := by simp
    obtain ⟨D, d1, d2, d3, d4⟩ := getGrad_ok c (.strList ts) G T M a1 a2 a3 a4 a5 hc.prob (fun i hi k hk => by
      rw [(a6 i (by omega) k hk).1]
      exact target_mem G.cols c.smoothing hc.smoothing _ _ _)
    refine ⟨D, d1, d2, d3, fun i hi k hk => ?_⟩
    have e := d4 i (by omega) k hk
    have e2 := a6 i (by omega) k hk
    have e3 := m4 i hi k hk
    rw [hnegs i hi] at e2
    rw [e2.1, e2.2] at e
    rw [e]
    simp only [List.getElem_map]
    unfold CCE.divisor
    cases hmi : ms[i] with
    | missing =>
      rw [hmi] at e3
      simp only at e3
      simp [e3]
    | label j =>
      rw [hmi] at e3
      simp only at e3
      simp [e3, Meaning.cls]
    | negates j =>
      rw [hmi] at e3
      simp only at e3
      simp only [reduceCtorEq, if_false, false_or, Option.some.injEq, sub_zero, e3]
      by_cases hk2 : k = j
      · subst hk2; simp
      · rw [if_neg (fun e => hk2 e.symm), if_neg hk2]
        simp

/-- A list with a label, a negated label and the missing value that meets the hypotheses. -/
example : ∃ c : CCE, c.names = some [['a'], ['b']] ∧ c.smoothing = 0 ∧ [['a'], ['b']].Nodup ∧
    List.Forall₂ (Reads c [['a'], ['b']]) [['b'], ['!', 'b'], ['?']] [.label 1, .negates 1, .missing] := by
  refine ⟨⟨true, some [['a'], ['b']], .str ['?'], some ['!'], 0⟩, rfl, rfl, by decide, ?_⟩
  refine .cons (Reads.label 1 (by decide) (by simp) ?_) (.cons (Reads.negates ['!'] 1 (by decide) rfl (by decide) (by simp))
    (.cons (Reads.missing _ rfl) .nil))
  intro p hp _
  simp only [Option.some.injEq] at hp
  subst hp
  decide

end Thinc
