import Verif.Model.Batching
import Verif.Lemmas.Ragged
import Mathlib.Tactic.Linarith
import Mathlib.Tactic.NormNum
import Mathlib.Data.Rat.Floor
/-! # Helper lemmas about batching -/
namespace Thinc
variable {α β : Type}

/-- The index batches that the loop cuts from the index array. -/
def chunks (indices : List Nat) : List ℚ → Int → List (List Nat)
  | [], _ => []
  | s :: ss, i => pyRange indices i (i + pyInt s) :: chunks indices ss (i + pyInt s)

theorem mem_pyRange (xs : List α) (a b : Int) : ∀ x ∈ pyRange xs a b, x ∈ xs := by
  intro x hx
  exact List.mem_of_mem_take (List.mem_of_mem_drop hx)

theorem fillQueue_ok (get : List Nat → Except PyErr β) (f : List Nat → β) (buffer : Int)
    (indices : List Nat) (hget : ∀ c, (∀ x ∈ c, x ∈ indices) → get c = .ok (f c))
    (ss : List ℚ) (i : Int) (q : List β) :
    ∃ q' ss' i', fillQueue get buffer indices ss i q = .ok (q', ss', i') ∧
      q ++ (chunks indices ss i).map f = q' ++ (chunks indices ss' i').map f ∧
      (q' = [] → ss = []) := by
  induction ss generalizing i q with
  | nil => exact ⟨q, [], i, rfl, rfl, fun _ => rfl⟩
  | cons s ss ih =>
    have hg := hget (pyRange indices i (i + pyInt s)) (mem_pyRange _ _ _)
    unfold fillQueue
    rw [hg]
    simp only []
    by_cases hb : (((q ++ [f (pyRange indices i (i + pyInt s))]).length : Nat) : Int) ≥ buffer
    · rw [if_pos hb]
      refine ⟨_, _, _, rfl, ?_, ?_⟩
      · simp [chunks]
      · intro h; simp at h
    · rw [if_neg hb]
      obtain ⟨q', ss', i', h1, h2, h3⟩ := ih (i + pyInt s) (q ++ [f (pyRange indices i (i + pyInt s))])
      refine ⟨q', ss', i', h1, ?_, ?_⟩
      · rw [← h2]; simp [chunks]
      · intro h
        exfalso
        have := h3 h
        subst this
        simp only [fillQueue, Except.ok.injEq, Prod.mk.injEq] at h1
        rw [← h1.1] at h
        simp at h

/-- What an iterator has still to produce. -/
def remaining (f : List Nat → β) (indices : List Nat) (it : BatchIter β) : List β :=
  it.pending ++ (chunks indices it.sizes it.i).map f

theorem next_item (g : Batches β) (f : List Nat → β)
    (hget : ∀ c, (∀ x ∈ c, x ∈ g.indices) → g.get c = .ok (f c))
    (it : BatchIter β) (σ : List Nat → List Nat) (hs : it.started = true ∨ g.shuffle = false) :
    ∃ it' r, it.next g σ = (g, it', r) ∧ it'.started = true ∧
      ((remaining f g.indices it = [] ∧ r = .stop ∧ remaining f g.indices it' = []) ∨
       (∃ b, remaining f g.indices it = b :: remaining f g.indices it' ∧ r = .item b)) := by
  have hg : (if it.started = false ∧ g.shuffle = true then { g with indices := σ g.indices } else g)
      = g := by
    rw [if_neg]
    rintro ⟨h1, h2⟩
    rcases hs with h | h
    · rw [h] at h1; cases h1
    · rw [h] at h2; cases h2
  unfold BatchIter.next
  simp only [hg]
  cases hp : it.pending with
  | cons b rest =>
    refine ⟨_, _, rfl, rfl, Or.inr ⟨b, ?_, rfl⟩⟩
    simp [remaining, hp]
  | nil =>
    obtain ⟨q', ss', i', h1, h2, h3⟩ := fillQueue_ok g.get f g.buffer g.indices hget it.sizes it.i []
    simp only [h1]
    cases q' with
    | nil =>
      have h3' := h3 rfl
      have e : remaining f g.indices it = [] := by simp [remaining, hp, h3', chunks]
      refine ⟨_, _, rfl, rfl, Or.inl ⟨e, rfl, ?_⟩⟩
      simp only [List.nil_append] at h2
      simp only [remaining, hp, List.nil_append] at e ⊢
      rw [← h2, e]
    | cons b rest =>
      refine ⟨_, _, rfl, rfl, Or.inr ⟨b, ?_, rfl⟩⟩
      simp only [remaining, hp, List.nil_append] at h2 ⊢
      rw [h2]; rfl

theorem drain_started (g : Batches β) (f : List Nat → β)
    (hget : ∀ c, (∀ x ∈ c, x ∈ g.indices) → g.get c = .ok (f c))
    (σ : List Nat → List Nat) (n : Nat) (it : BatchIter β)
    (hs : it.started = true ∨ g.shuffle = false) (hn : (remaining f g.indices it).length < n) :
    drain g it σ n = some (remaining f g.indices it, .ok (), g) := by
  induction n generalizing it with
  | zero => omega
  | succ n ih =>
    obtain ⟨it', r, h1, h2, h3⟩ := next_item g f hget it σ hs
    unfold drain
    rw [h1]
    rcases h3 with ⟨h4, h5, _⟩ | ⟨b, h4, h5⟩
    · subst h5; simp [h4]
    · subst h5
      simp only []
      rw [ih it' (Or.inl h2) (by rw [h4] at hn; simpa using hn), h4]

theorem drain_start (g : Batches β) (σ : List Nat → List Nat) (n : Nat) (ss : List ℚ) (i : Int) :
    drain g ⟨false, ss, i, []⟩ σ n =
      drain (if g.shuffle = true then { g with indices := σ g.indices } else g)
        ⟨true, ss, i, []⟩ σ n := by
  cases n with
  | zero => rfl
  | succ n =>
    unfold drain BatchIter.next
    simp only [true_and]
    have h : ((true : Bool) = false) = False := by simp
    simp only [h, false_and, if_false]

theorem chunks_length (indices : List Nat) (ss : List ℚ) (i : Int) :
    (chunks indices ss i).length = ss.length := by
  induction ss generalizing i with
  | nil => rfl
  | cons s ss ih => simp [chunks, ih]

/-- The indices used by a whole iteration. -/
def Batches.used (g : Batches β) (σ : List Nat → List Nat) : List Nat :=
  if g.shuffle = true then σ g.indices else g.indices

theorem drain_all (g : Batches β) (f : List Nat → β) (σ : List Nat → List Nat)
    (hget : ∀ c, (∀ x ∈ c, x ∈ g.used σ) → g.get c = .ok (f c)) :
    drain g g.iter σ (g.sizes.length + 1) =
      some ((chunks (g.used σ) g.sizes 0).map f, .ok (), { g with indices := g.used σ }) := by
  unfold Batches.iter
  rw [drain_start]
  have hg : (if g.shuffle = true then { g with indices := σ g.indices } else g) =
      { g with indices := g.used σ } := by
    unfold Batches.used
    by_cases h : g.shuffle = true
    · rw [if_pos h, if_pos h]
    · rw [if_neg h, if_neg h]
  rw [hg]
  rw [drain_started { g with indices := g.used σ } f hget σ _ _ (Or.inl rfl)]
  · simp [remaining]
  · simp [remaining, chunks_length]

/-! ### Cutting -/

theorem pyInt_nonneg (q : ℚ) (h : 0 ≤ q) : 0 ≤ pyInt q := by
  unfold pyInt; rw [if_pos h]; exact Int.floor_nonneg.2 h

theorem pyInt_natCast (n : Nat) : pyInt (n : ℚ) = n := by
  unfold pyInt
  rw [if_pos (by exact_mod_cast Nat.zero_le n)]
  exact Int.floor_natCast n

theorem pyInt_le (q : ℚ) (h : 0 ≤ q) : ((pyInt q).toNat : ℚ) ≤ q := by
  have h0 := pyInt_nonneg q h
  have h1 : ((pyInt q).toNat : ℚ) = ((pyInt q : Int) : ℚ) := by
    have : (((pyInt q).toNat : Int)) = pyInt q := Int.toNat_of_nonneg h0
    exact_mod_cast this
  rw [h1]
  unfold pyInt
  rw [if_pos h]
  exact Int.floor_le q

theorem pyRange_nat (xs : List α) (a m : Nat) :
    pyRange xs (a : Int) ((a : Int) + m) = (xs.drop a).take m := by
  unfold pyRange clampPos
  simp only []
  rw [if_neg (by omega), if_neg (by omega)]
  have e1 : ((a : Int) + m).toNat = a + m := by omega
  have e2 : ((a : Int)).toNat = a := by omega
  rw [e1, e2, List.take_drop]
  by_cases ha : a ≤ xs.length
  · rw [Nat.min_eq_left ha]
    by_cases hm : a + m ≤ xs.length
    · rw [Nat.min_eq_left hm]
    · rw [Nat.min_eq_right (by omega), List.take_of_length_le (i := a + m) (by omega),
        List.take_of_length_le (i := xs.length) (by omega)]
  · rw [Nat.min_eq_right (by omega), Nat.min_eq_right (by omega), List.drop_take]
    simp
    omega

theorem chunks_get (indices : List Nat) (ss : List ℚ) (hs : ∀ s ∈ ss, 0 ≤ s) (i k : Nat) :
    (chunks indices ss i)[k]? = (ss[k]?).map (fun s =>
      (indices.drop (i + ((ss.take k).map (fun s => (pyInt s).toNat)).sum)).take (pyInt s).toNat) := by
  induction ss generalizing i k with
  | nil => simp [chunks]
  | cons s ss ih =>
    have h0 := pyInt_nonneg s (hs s (by simp))
    obtain ⟨m, hm⟩ := Int.eq_ofNat_of_zero_le h0
    unfold chunks
    rw [hm]
    cases k with
    | zero => simp [pyRange_nat, hm]
    | succ k =>
      have e : (i : Int) + (m : Int) = ((i + m : Nat) : Int) := by omega
      simp only [List.getElem?_cons_succ, e]
      rw [ih (fun s h => hs s (by simp [h])) (i + m) k]
      congr 1
      funext s'
      simp [hm, Nat.add_assoc]

theorem chunks_flatten (indices : List Nat) (ss : List ℚ) (hs : ∀ s ∈ ss, 0 ≤ s) (i : Nat) :
    (chunks indices ss i).flatten =
      (indices.drop i).take ((ss.map (fun s => (pyInt s).toNat)).sum) := by
  induction ss generalizing i with
  | nil => simp [chunks]
  | cons s ss ih =>
    have h0 := pyInt_nonneg s (hs s (by simp))
    obtain ⟨m, hm⟩ := Int.eq_ofNat_of_zero_le h0
    unfold chunks
    rw [hm]
    have e : (i : Int) + (m : Int) = ((i + m : Nat) : Int) := by omega
    rw [List.flatten_cons, pyRange_nat, e, ih (fun s h => hs s (by simp [h])) (i + m)]
    simp only [List.map_cons, List.sum_cons, hm]
    have : (Int.ofNat m).toNat = m := rfl
    rw [show ((m : Int)).toNat = m from rfl, List.take_add]
    congr 1
    rw [List.drop_drop]

/-! ### Drawing the sizes -/

/-- The sizes a `size` argument will give. -/
def BatchSize.stream : BatchSize → Nat → Option ℚ
  | .const n, _ => some n
  | .gen g, k => g.val (g.pos + k)

theorem next_stream (b : BatchSize) (q : ℚ) (h : b.stream 0 = some q) :
    b.next.1 = some q ∧ ∀ k, b.next.2.stream k = b.stream (k + 1) := by
  cases b with
  | const n => exact ⟨h, fun _ => rfl⟩
  | gen g =>
    simp only [BatchSize.stream, Nat.add_zero] at h
    simp only [BatchSize.next, PyGen.next, h]
    refine ⟨trivial, fun k => ?_⟩
    simp only [BatchSize.stream]
    congr 1
    omega

/-- With sizes of at least one the loop ends: it draws the first `n` sizes, which together reach the
length, no fewer. -/
theorem getBatchSizes_spec (length : Nat) (fuel : Nat) (b : BatchSize) (m : Nat → ℚ)
    (hb : ∀ k, b.stream k = some (m k)) (hm : ∀ k, 1 ≤ m k) (out : List ℚ) (i : ℚ) (c : Nat)
    (hc : (length : ℚ) - i ≤ c) (hf : c < fuel) :
    ∃ n, getBatchSizes length fuel b out i = some (.ok (out ++ (List.range n).map m)) ∧
      (length : ℚ) ≤ i + ((List.range n).map m).sum ∧
      ∀ j < n, i + ((List.range j).map m).sum < length := by
  induction fuel generalizing b m out i c with
  | zero => omega
  | succ fuel ih =>
    unfold getBatchSizes
    by_cases hi : i < length
    · rw [if_pos hi]
      obtain ⟨h1, h2⟩ := next_stream b (m 0) (hb 0)
      have hn : b.next = (some (m 0), b.next.2) := by rw [← h1]
      rw [hn]
      simp only []
      have hm0 := hm 0
      have hcpos : 0 < c := by
        by_contra h
        have : c = 0 := by omega
        subst this
        have : (length : ℚ) - i ≤ 0 := by simpa using hc
        linarith
      obtain ⟨n, e1, e2, e3⟩ := ih b.next.2 (fun k => m (k + 1)) (fun k => by rw [h2 k, hb])
        (fun k => hm _) (out ++ [m 0]) (i + m 0) (c - 1)
        (by
          have : ((c - 1 : Nat) : ℚ) = c - 1 := by
            have := Nat.sub_add_cancel hcpos
            have h3 : ((c - 1 : Nat) : ℚ) + 1 = c := by exact_mod_cast this
            linarith
          rw [this]; linarith) (by omega)
      refine ⟨n + 1, ?_, ?_, ?_⟩
      · rw [e1, List.range_succ_eq_map]
        simp [List.map_map, Function.comp_def]
      · rw [List.range_succ_eq_map]
        simp only [List.map_cons, List.sum_cons, List.map_map, Function.comp_def]
        linarith
      · intro j hj
        cases j with
        | zero => simpa using hi
        | succ j =>
          have := e3 j (by omega)
          rw [List.range_succ_eq_map]
          simp only [List.map_cons, List.sum_cons, List.map_map, Function.comp_def]
          linarith
    · rw [if_neg hi]
      exact ⟨0, by simp, by simp; linarith, fun j hj => by omega⟩

theorem mapRaise_ok {γ ε : Type} (f : α → Except ε γ) (h : α → γ) (xs : List α)
    (hf : ∀ x ∈ xs, f x = .ok (h x)) : mapRaise f xs = .ok (xs.map h) := by
  induction xs with
  | nil => rfl
  | cons x xs ih =>
    unfold mapRaise
    rw [hf x (by simp), ih (fun y hy => hf y (by simp [hy]))]
    rfl

/-- The items at the given (in-range) positions. -/
def pick (seq : List α) (idx : List Nat) : List α := idx.filterMap (fun i => seq[i]?)

theorem getBatch_ok (seq : List α) (idx : List Nat) (h : ∀ x ∈ idx, x < seq.length) :
    getBatch seq idx = .ok (pick seq idx) := by
  unfold getBatch pick
  induction idx with
  | nil => rfl
  | cons x xs ih =>
    have hx := h x (by simp)
    unfold mapRaise
    have e : pyIndex seq (Int.ofNat x) = .ok seq[x] := by
      unfold pyIndex
      have h0 : ¬ (Int.ofNat x < 0) := by simp
      simp only [if_neg h0]
      simp [hx]
    rw [e, ih (fun y hy => h y (by simp [hy]))]
    simp [hx]

theorem pick_length (seq : List α) (idx : List Nat) (h : ∀ x ∈ idx, x < seq.length) :
    (pick seq idx).length = idx.length := by
  unfold pick
  induction idx with
  | nil => rfl
  | cons x xs ih =>
    have hx := h x (by simp)
    rw [List.filterMap_cons]
    simp only [hx, List.getElem?_eq_getElem, List.length_cons]
    rw [ih (fun y hy => h y (by simp [hy]))]

theorem pick_flatten (seq : List α) (cs : List (List Nat)) :
    (cs.map (pick seq)).flatten = pick seq cs.flatten := by
  unfold pick
  induction cs with
  | nil => rfl
  | cons c cs ih => rw [List.map_cons, List.flatten_cons, ih, List.flatten_cons, List.filterMap_append]

theorem pick_range (seq : List α) : pick seq (List.range seq.length) = seq := by
  unfold pick
  induction seq with
  | nil => rfl
  | cons x xs ih =>
    rw [List.length_cons, List.range_succ_eq_map, List.filterMap_cons]
    simp only [List.getElem?_cons_zero, List.filterMap_map]
    congr 1

theorem pick_perm (seq : List α) (idx : List Nat) (h : idx.Perm (List.range seq.length)) :
    (pick seq idx).Perm seq := by
  have := h.filterMap (fun i => seq[i]?)
  have e := pick_range seq
  unfold pick at e ⊢
  rwa [e] at this

end Thinc
