import Verif.Lemmas.Batching
/-!
# C35 and C36: minibatch and multibatch
-/
namespace Thinc
variable {α : Type}

/-- `bs` are the batches of `data` for the requested sizes: joined they are the data, every batch but
the last is full, none is empty or too large. -/
structure Spec.BatchesOf (size : Nat → Nat) (data : List α) (bs : List (List α)) : Prop where
  joined : bs.flatten = data
  full : ∀ (k : Nat) b, bs[k]? = some b → k + 1 < bs.length → b.length = size k
  bounded : ∀ (k : Nat) b, bs[k]? = some b → 0 < b.length ∧ b.length ≤ size k

/-- The sizes that the argument requests: `n` for ever, or the values of the generator, which are
whole numbers. -/
def Spec.Requests (arg : BatchSize) (size : Nat → Nat) : Prop :=
  match arg with
  | .const n => ∀ k, n = (size k : Int)
  | .gen g => ∀ k, g.val (g.pos + k) = some (size k : ℚ)

theorem Spec.Requests.stream {arg : BatchSize} {size : Nat → Nat} (h : Spec.Requests arg size)
    (k : Nat) : arg.stream k = some ((size k : Nat) : ℚ) := by
  cases arg with
  | const n =>
    have := h k
    simp only [BatchSize.stream, this]
    simp
  | gen g => exact h k

theorem sum_cast (m : Nat → Nat) (l : List Nat) :
    ((l.map (fun k => (m k : ℚ))).sum) = (((l.map m).sum : Nat) : ℚ) := by
  induction l with
  | nil => simp
  | cons x xs ih => simp [ih]

theorem toNat_cast_map (m : Nat → Nat) (l : List Nat) :
    ((l.map (fun k => (m k : ℚ))).map (fun s => (pyInt s).toNat)) = l.map m := by
  rw [List.map_map]
  apply List.map_congr_left
  intro k _
  simp [pyInt_natCast]

theorem sum_range_succ (m : Nat → Nat) (n : Nat) :
    ((List.range (n + 1)).map m).sum = ((List.range n).map m).sum + m n := by
  rw [List.range_succ]; simp

/-- The index batches for whole sizes: they partition the index array. -/
theorem chunks_nat (indices : List Nat) (m : Nat → Nat) (n : Nat)
    (hreach : indices.length ≤ ((List.range n).map m).sum)
    (hnec : ∀ j < n, ((List.range j).map m).sum < indices.length) :
    (chunks indices ((List.range n).map (fun k => (m k : ℚ))) 0).flatten = indices ∧
    ∀ (k : Nat) c, (chunks indices ((List.range n).map (fun k => (m k : ℚ))) 0)[k]? = some c →
      0 < m k → (k + 1 < n → c.length = m k) ∧ 0 < c.length ∧ c.length ≤ m k := by
  have hs : ∀ s ∈ (List.range n).map (fun k => (m k : ℚ)), 0 ≤ s := by
    intro s h
    obtain ⟨k, _, rfl⟩ := List.mem_map.1 h
    exact_mod_cast Nat.zero_le (m k)
  constructor
  · have := chunks_flatten indices _ hs 0
    rw [toNat_cast_map] at this
    simp only [Nat.cast_zero] at this
    rw [this, List.drop_zero, List.take_of_length_le hreach]
  · intro k c hc hmk
    have hg := chunks_get indices _ hs 0 k
    simp only [Nat.cast_zero] at hg
    rw [hg] at hc
    by_cases hk : k < n
    · have e : ((List.range n).map (fun k => (m k : ℚ)))[k]? = some (m k : ℚ) := by simp [hk]
      rw [e] at hc
      simp only [Option.map_some, Option.some.injEq, pyInt_natCast, Nat.zero_add] at hc
      rw [← List.map_take, toNat_cast_map, List.take_range, Nat.min_eq_left (by omega)] at hc
      have h1 := hnec k hk
      have hlen : c.length = min (m k) (indices.length - ((List.range k).map m).sum) := by
        rw [← hc]; simp
      refine ⟨fun hk' => ?_, by omega, by omega⟩
      have h2 := hnec (k + 1) hk'
      rw [sum_range_succ] at h2
      omega
    · rw [List.getElem?_eq_none (by simpa using hk)] at hc
      simp at hc

/-- Every index array that iterating can produce is a permutation of `0 .. n-1`. -/
def Spec.Shuffle (σ : List Nat → List Nat) : Prop := ∀ l, (σ l).Perm l

theorem minibatch_iterations (size : Nat → Nat) (hpos : ∀ k, 1 ≤ size k) (seq : List α) (n : Nat)
    (hreach : seq.length ≤ ((List.range n).map size).sum)
    (hnec : ∀ j < n, ((List.range j).map size).sum < seq.length)
    (σs : List (List Nat → List Nat)) (hσ : ∀ σ ∈ σs, Spec.Shuffle σ) (g : Batches (List α))
    (hg : g.get = getBatch seq) (hs : g.sizes = (List.range n).map (fun k => (size k : ℚ)))
    (hi : g.indices.Perm (List.range seq.length))
    (hns : g.shuffle = false → g.indices = List.range seq.length) :
    ∃ outs, iterateAll g σs = some outs ∧ outs.length = σs.length ∧
      ∀ o ∈ outs, o.2 = .ok () ∧ o.1.length = n ∧ ∃ data, data.Perm seq ∧
        (g.shuffle = false → data = seq) ∧ Spec.BatchesOf size data o.1 := by
  induction σs generalizing g with
  | nil => exact ⟨[], rfl, rfl, by simp⟩
  | cons σ σs ih =>
    have hused : (g.used σ).Perm (List.range seq.length) := by
      unfold Batches.used
      by_cases h : g.shuffle = true
      · rw [if_pos h]; exact ((hσ σ (by simp)) _).trans hi
      · rw [if_neg h]; exact hi
    have husedlen : (g.used σ).length = seq.length := by simpa using hused.length_eq
    have hlt : ∀ x ∈ g.used σ, x < seq.length := fun x hx => List.mem_range.1 (hused.subset hx)
    have hd := drain_all g (pick seq) σ (fun c hc => by
      rw [hg]; exact getBatch_ok seq c (fun x hx => hlt x (hc x hx)))
    have hused0 : g.shuffle = false → g.used σ = List.range seq.length := by
      intro h
      unfold Batches.used
      rw [if_neg (by rw [h]; simp)]
      exact hns h
    obtain ⟨outs, h1, h2, h3⟩ := ih (fun σ h => hσ σ (by simp [h])) { g with indices := g.used σ }
      hg hs hused hused0
    refine ⟨((chunks (g.used σ) g.sizes 0).map (pick seq), .ok ()) :: outs, ?_, by simp [h2], ?_⟩
    · unfold iterateAll
      rw [hd]
      simp only [h1, Option.map_some]
    · intro o ho
      rcases List.mem_cons.1 ho with rfl | ho
      · obtain ⟨hf, hk⟩ := chunks_nat (g.used σ) size n (by rw [husedlen]; exact hreach)
          (by rw [husedlen]; exact hnec)
        have hlen : (chunks (g.used σ) g.sizes 0).length = n := by rw [chunks_length, hs]; simp
        refine ⟨rfl, by simpa using hlen, pick seq (g.used σ), pick_perm seq _ hused, ?_, ?_, ?_, ?_⟩
        · intro h; rw [hused0 h, pick_range]
        · rw [pick_flatten, hs, hf]
        · intro k b hb hkl
          simp only [List.length_map, hlen] at hkl
          rw [List.getElem?_map] at hb
          obtain ⟨c, hc, rfl⟩ := Option.map_eq_some_iff.1 hb
          rw [hs] at hc
          rw [pick_length]
          · exact (hk k c hc (hpos k)).1 hkl
          · intro x hx
            refine hlt x ?_
            rw [← hf]
            exact List.mem_flatten.2 ⟨c, List.mem_of_getElem? hc, hx⟩
        · intro k b hb
          rw [List.getElem?_map] at hb
          obtain ⟨c, hc, rfl⟩ := Option.map_eq_some_iff.1 hb
          rw [hs] at hc
          rw [pick_length]
          · exact (hk k c hc (hpos k)).2
          · intro x hx
            refine hlt x ?_
            rw [← hf]
            exact List.mem_flatten.2 ⟨c, List.mem_of_getElem? hc, hx⟩
      · exact h3 o ho

theorem sizes_spec (arg : BatchSize) (size : Nat → Nat) (hr : Spec.Requests arg size)
    (hpos : ∀ k, 1 ≤ size k) (len fuel : Nat) (hf : len < fuel) :
    ∃ n, getBatchSizes len fuel arg [] 0 = some (.ok ((List.range n).map (fun k => (size k : ℚ)))) ∧
      len ≤ ((List.range n).map size).sum ∧ ∀ j < n, ((List.range j).map size).sum < len := by
  obtain ⟨n, h1, h2, h3⟩ := getBatchSizes_spec len fuel arg (fun k => (size k : ℚ)) hr.stream
    (fun k => by exact_mod_cast hpos k) [] 0 len (by simp) hf
  refine ⟨n, by simpa using h1, ?_, ?_⟩
  · rw [sum_cast, zero_add] at h2; exact_mod_cast h2
  · intro j hj
    have := h3 j hj
    rw [sum_cast, zero_add] at this; exact_mod_cast this

/-- **C35** for whole sizes of at least one, constant or drawn from a generator, every sequence, every
buffer, with or without shuffling, and any number of iterations one after the other: the call
terminates, and every iteration yields batches of exactly the data (a permutation of it when
shuffling), `len()` of them.  Missing: fractional sizes, for which items are lost
(`C35_fractional_loses_items`). -/
theorem C35_minibatch_partial (arg : BatchSize) (size : Nat → Nat) (hr : Spec.Requests arg size)
    (hpos : ∀ k, 1 ≤ size k) (seq : List α) (shuffle : Bool) (buffer : Int) (fuel : Nat)
    (hf : seq.length < fuel) :
    ∃ g, minibatch fuel arg seq shuffle buffer = some (.ok g) ∧
      ∀ σs : List (List Nat → List Nat), (∀ σ ∈ σs, Spec.Shuffle σ) →
      ∃ outs, iterateAll g σs = some outs ∧ outs.length = σs.length ∧
        ∀ o ∈ outs, o.2 = .ok () ∧ o.1.length = g.len ∧ ∃ data, data.Perm seq ∧
          (shuffle = false → data = seq) ∧ Spec.BatchesOf size data o.1 := by
  obtain ⟨n, h1, h2, h3⟩ := sizes_spec arg size hr hpos seq.length fuel hf
  refine ⟨⟨(List.range n).map (fun k => (size k : ℚ)), List.range seq.length, shuffle, buffer,
    getBatch seq⟩, ?_, ?_⟩
  · unfold minibatch; rw [h1]; rfl
  · intro σs hσ
    have := minibatch_iterations size hpos seq n h2 h3 σs hσ
      ⟨(List.range n).map (fun k => (size k : ℚ)), List.range seq.length, shuffle, buffer,
        getBatch seq⟩ rfl rfl (List.Perm.refl _) (fun _ => rfl)
    simpa [Batches.len] using this

/-- `list(sized_generator)` once, on what a call of minibatch or multibatch returned. -/
def listOnce {β : Type} (r : Option (Except PyErr (Batches β))) (σ : List Nat → List Nat) :
    Option (List (List β × Except PyErr Unit)) :=
  match r with
  | some (.ok g) => iterateAll g [σ]
  | _ => none

example : listOnce (minibatch 6 (.const 2) [10, 20, 30, 40, 50] false 3) id =
    some [([[10, 20], [30, 40], [50]], .ok ())] := by decide +kernel

/-- The number of batches of a constant size is the length divided by the size, rounded up. -/
theorem C35_len (n : Nat) (hn : 1 ≤ n) (seq : List α) (shuffle : Bool) (buffer : Int) (fuel : Nat)
    (hf : seq.length < fuel) (g : Batches (List α))
    (hg : minibatch fuel (.const n) seq shuffle buffer = some (.ok g)) :
    g.len = (seq.length + n - 1) / n := by
  obtain ⟨k, h1, h2, h3⟩ := sizes_spec (.const n) (fun _ => n) (fun _ => rfl) (fun _ => hn)
    seq.length fuel hf
  unfold minibatch at hg
  rw [h1] at hg
  simp only [Option.map_some, Option.some.injEq] at hg
  cases hg
  simp only [Batches.len, List.length_map, List.length_range]
  have hsum : ∀ j : Nat, ((List.range j).map (fun _ => n)).sum = j * n := by
    intro j; simp
  rw [hsum] at h2
  symm
  rcases Nat.eq_zero_or_pos k with rfl | hk
  · have : seq.length = 0 := by omega
    rw [this, Nat.div_eq_of_lt (by omega)]
  · have h4 := h3 (k - 1) (by omega)
    rw [hsum] at h4
    have e : (k - 1) * n + n = k * n := by
      rw [← Nat.succ_mul]; congr 1; omega
    rw [Nat.div_eq_iff (by omega)]
    omega

/-- The buffer size does not change what an iteration yields. -/
theorem C35_buffer (arg : BatchSize) (size : Nat → Nat) (hr : Spec.Requests arg size)
    (hpos : ∀ k, 1 ≤ size k) (seq : List α) (shuffle : Bool) (b1 b2 : Int) (fuel : Nat)
    (hf : seq.length < fuel) (g1 g2 : Batches (List α))
    (h1 : minibatch fuel arg seq shuffle b1 = some (.ok g1))
    (h2 : minibatch fuel arg seq shuffle b2 = some (.ok g2)) (σ : List Nat → List Nat)
    (hσ : Spec.Shuffle σ) : iterateAll g1 [σ] = iterateAll g2 [σ] := by
  obtain ⟨n, e1, _, _⟩ := sizes_spec arg size hr hpos seq.length fuel hf
  unfold minibatch at h1 h2
  rw [e1] at h1 h2
  simp only [Option.map_some, Option.some.injEq] at h1 h2
  cases h1
  cases h2
  have hp : ∀ b : Int, ∀ c : List Nat,
      (∀ x ∈ c, x ∈ (⟨(List.range n).map (fun k => (size k : ℚ)), List.range seq.length, shuffle, b,
        getBatch seq⟩ : Batches (List α)).used σ) → getBatch seq c = .ok (pick seq c) := by
    intro b c hc
    refine getBatch_ok seq c (fun x hx => ?_)
    have := hc x hx
    unfold Batches.used at this
    split at this
    · exact List.mem_range.1 ((hσ _).subset this)
    · exact List.mem_range.1 this
  unfold iterateAll
  rw [drain_all _ (pick seq) σ (hp b1), drain_all _ (pick seq) σ (hp b2)]
  rfl

/-- Fractional sizes of at least one (a compounding schedule): what is yielded is still a prefix of
the (possibly shuffled) data, in batches no larger than requested. -/
theorem C35_fractional_prefix_partial (arg : BatchSize) (size : Nat → ℚ)
    (hr : ∀ k, arg.stream k = some (size k)) (hpos : ∀ k, 1 ≤ size k) (seq : List α)
    (shuffle : Bool) (buffer : Int) (fuel : Nat) (hf : seq.length < fuel) (σ : List Nat → List Nat)
    (hσ : Spec.Shuffle σ) :
    ∃ g bs, minibatch fuel arg seq shuffle buffer = some (.ok g) ∧
      iterateAll g [σ] = some [(bs, .ok ())] ∧ bs.length = g.len ∧
      (∃ data, data.Perm seq ∧ (shuffle = false → data = seq) ∧ bs.flatten <+: data) ∧
      ∀ (k : Nat) b, bs[k]? = some b → (b.length : ℚ) ≤ size k := by
  obtain ⟨n, e1, _, _⟩ := getBatchSizes_spec seq.length fuel arg size hr hpos [] 0 seq.length
    (by simp) hf
  have hs : ∀ s ∈ (List.range n).map size, 0 ≤ s := by
    intro s h
    obtain ⟨k, _, rfl⟩ := List.mem_map.1 h
    exact le_trans (by norm_num) (hpos k)
  have hu : ((⟨(List.range n).map size, List.range seq.length, shuffle, buffer,
      getBatch seq⟩ : Batches (List α)).used σ).Perm (List.range seq.length) := by
    unfold Batches.used
    split
    · exact hσ _
    · exact List.Perm.refl _
  have hlt : ∀ c : List Nat, (∀ x ∈ c, x ∈ (⟨(List.range n).map size, List.range seq.length, shuffle,
      buffer, getBatch seq⟩ : Batches (List α)).used σ) → ∀ x ∈ c, x < seq.length :=
    fun c hc x hx => List.mem_range.1 (hu.subset (hc x hx))
  refine ⟨⟨(List.range n).map size, List.range seq.length, shuffle, buffer, getBatch seq⟩,
    (chunks ((⟨(List.range n).map size, List.range seq.length, shuffle, buffer,
      getBatch seq⟩ : Batches (List α)).used σ) ((List.range n).map size) 0).map (pick seq),
    ?_, ?_, ?_, ⟨_, pick_perm seq _ hu, ?_, ?_⟩, ?_⟩
  · unfold minibatch; rw [e1]; simp [Except.map]
  · unfold iterateAll
    rw [drain_all _ (pick seq) σ (fun c hc => getBatch_ok seq c (hlt c hc))]
    rfl
  · simp [chunks_length, Batches.len]
  · intro h
    unfold Batches.used
    rw [if_neg (by simp [h]), pick_range]
  · have := chunks_flatten ((⟨(List.range n).map size, List.range seq.length, shuffle, buffer,
      getBatch seq⟩ : Batches (List α)).used σ) _ hs 0
    simp only [Nat.cast_zero, List.drop_zero] at this
    rw [pick_flatten, this]
    exact (List.take_prefix _ _).filterMap _
  · intro k b hb
    rw [List.getElem?_map] at hb
    obtain ⟨c, hc, rfl⟩ := Option.map_eq_some_iff.1 hb
    have hmem : ∀ x ∈ c, x ∈ (⟨(List.range n).map size, List.range seq.length, shuffle, buffer,
        getBatch seq⟩ : Batches (List α)).used σ := by
      intro x hx
      have hfl := chunks_flatten ((⟨(List.range n).map size, List.range seq.length, shuffle, buffer,
        getBatch seq⟩ : Batches (List α)).used σ) _ hs 0
      simp only [Nat.cast_zero, List.drop_zero] at hfl
      have hx' := List.mem_flatten.2 ⟨c, List.mem_of_getElem? hc, hx⟩
      rw [hfl] at hx'
      exact List.mem_of_mem_take hx'
    rw [pick_length seq c (hlt c hmem)]
    have hg := chunks_get ((⟨(List.range n).map size, List.range seq.length, shuffle, buffer,
        getBatch seq⟩ : Batches (List α)).used σ) _ hs 0 k
    simp only [Nat.cast_zero] at hg
    rw [hg] at hc
    by_cases hk : k < n
    · have e : ((List.range n).map size)[k]? = some (size k) := by simp [hk]
      rw [e] at hc
      simp only [Option.map_some, Option.some.injEq] at hc
      have h0 : 0 ≤ size k := le_trans (by norm_num) (hpos k)
      refine le_trans ?_ (pyInt_le (size k) h0)
      rw [← hc]
      exact_mod_cast List.length_take_le _ _
    · rw [List.getElem?_eq_none (by simpa using hk)] at hc
      simp at hc

/-- Sizes of one and a half: three items, two batches of one, the third item is never yielded. -/
theorem C35_fractional_loses_items :
    ∃ g, minibatch 10 (.gen ⟨fun _ => some (3 / 2), 0⟩) [1, 2, 3] false 1 = some (.ok g) ∧
      g.len = 2 ∧ iterateAll g [id] = some [([[1], [2]], .ok ())] :=
  ⟨⟨[3 / 2, 3 / 2], [0, 1, 2], false, 1, getBatch [1, 2, 3]⟩, by
    unfold minibatch
    have : getBatchSizes [1, 2, 3].length 10 (.gen ⟨fun _ => some (3 / 2), 0⟩) [] 0 =
        some (.ok [3 / 2, 3 / 2]) := by decide +kernel
    rw [this]; rfl, rfl, by decide +kernel⟩

/-- A size of zero or less never ends: the call itself loops for every number of steps. -/
theorem C35_zero_size_diverges (n : Int) (hn : n ≤ 0) (x : α) (seq : List α) (shuffle : Bool)
    (buffer : Int) (fuel : Nat) : minibatch fuel (.const n) (x :: seq) shuffle buffer = none := by
  have h : ∀ (fuel : Nat) (out : List ℚ) (i : ℚ), i ≤ 0 →
      getBatchSizes (x :: seq).length fuel (.const n) out i = none := by
    intro fuel
    induction fuel with
    | zero => intros; rfl
    | succ fuel ih =>
      intro out i hi
      unfold getBatchSizes
      have hpos : (0 : ℚ) < ((x :: seq).length : ℚ) := by
        simp only [List.length_cons]
        exact_mod_cast Nat.succ_pos _
      rw [if_pos (by linarith)]
      simp only [BatchSize.next]
      apply ih
      have : ((n : Int) : ℚ) ≤ 0 := by exact_mod_cast hn
      linarith
  unfold minibatch
  rw [h fuel [] 0 (le_refl _)]
  rfl

/-- A generator that runs out too early makes the call raise StopIteration. -/
theorem C35_sizes_run_out :
    (minibatch 10 (.gen (PyGen.ofList [1, 1])) [1, 2, 3] false 1).map (fun r => r.map Batches.sizes) =
      some (.error .stopIteration) := by decide +kernel

/-! ### C36 -/

/-- **C36**: for sequences of one length, every iteration of multibatch yields, for each batch, one
list per sequence, all taken from the same indices; the index batches together are a permutation of
all the indices (the identity without shuffling), cut into the requested sizes.  Missing: unequal
lengths do not raise ValueError (`C36_shorter_raises_index_error`, `C36_longer_is_cut`). -/
theorem C36_aligned_partial (arg : BatchSize) (size : Nat → Nat) (hr : Spec.Requests arg size)
    (hpos : ∀ k, 1 ≤ size k) (seq : List α) (others : List (List α))
    (heq : ∀ s ∈ others, s.length = seq.length) (shuffle : Bool) (buffer : Int) (fuel : Nat)
    (hf : seq.length < fuel) (σ : List Nat → List Nat) (hσ : Spec.Shuffle σ) :
    ∃ g bs, multibatch fuel arg seq others shuffle buffer = some (.ok g) ∧
      iterateAll g [σ] = some [(bs, .ok ())] ∧ bs.length = g.len ∧
      ∃ idx : List (List Nat),
        (∃ p, p.Perm (List.range seq.length) ∧ (shuffle = false → p = List.range seq.length) ∧
          Spec.BatchesOf size p idx) ∧
        bs = idx.map (fun c => (seq :: others).map (fun s => c.filterMap (fun i => s[i]?))) := by
  obtain ⟨n, e1, h2, h3⟩ := sizes_spec arg size hr hpos seq.length fuel hf
  let get : List Nat → Except PyErr (List (List α)) :=
    fun idx => mapRaise (fun s => getBatch s idx) (seq :: others)
  have hu : ((⟨(List.range n).map (fun k => (size k : ℚ)), List.range seq.length, shuffle, buffer,
      get⟩ : Batches (List (List α))).used σ).Perm (List.range seq.length) := by
    unfold Batches.used
    split
    · exact hσ _
    · exact List.Perm.refl _
  generalize hU : ((⟨(List.range n).map (fun k => (size k : ℚ)), List.range seq.length, shuffle, buffer,
      get⟩ : Batches (List (List α))).used σ) = U at hu
  have hUlen : U.length = seq.length := by simpa using hu.length_eq
  have hget : ∀ c : List Nat, (∀ x ∈ c, x ∈ U) →
      get c = .ok ((seq :: others).map (fun s => pick s c)) := by
    intro c hc
    refine mapRaise_ok _ _ _ (fun s hs => getBatch_ok s c (fun x hx => ?_))
    have hx' := List.mem_range.1 (hu.subset (hc x hx))
    rcases List.mem_cons.1 hs with rfl | hs
    · exact hx'
    · rw [heq s hs]; exact hx'
  have hd := drain_all (⟨(List.range n).map (fun k => (size k : ℚ)), List.range seq.length, shuffle,
      buffer, get⟩ : Batches (List (List α))) (fun c => (seq :: others).map (fun s => pick s c)) σ
      (by rw [hU]; exact hget)
  rw [hU] at hd
  obtain ⟨hfl, hk⟩ := chunks_nat U size n (by rw [hUlen]; exact h2) (by rw [hUlen]; exact h3)
  have hlen : (chunks U ((List.range n).map (fun k => (size k : ℚ))) 0).length = n := by
    rw [chunks_length]; simp
  refine ⟨⟨(List.range n).map (fun k => (size k : ℚ)), List.range seq.length, shuffle, buffer, get⟩,
    _, ?_, ?_, ?_, chunks U ((List.range n).map (fun k => (size k : ℚ))) 0,
    ⟨U, hu, ?_, hfl, ?_, ?_⟩, rfl⟩
  · unfold multibatch; rw [e1]; rfl
  · unfold iterateAll
    rw [hd]
    rfl
  · simp [chunks_length, Batches.len]
  · intro h
    rw [← hU]
    unfold Batches.used
    rw [if_neg (by simp [h])]
  · intro k b hb hkl
    exact (hk k b hb (hpos k)).1 (by rw [hlen] at hkl; exact hkl)
  · intro k b hb
    exact (hk k b hb (hpos k)).2

example : listOnce (multibatch 6 (.const 2) [1, 2, 3] [[10, 20, 30]] true 1) List.reverse =
    some [([[[3, 2], [30, 20]], [[1], [10]]], .ok ())] := by decide +kernel

/-- A shorter second sequence: one batch is yielded, then IndexError, not ValueError. -/
theorem C36_shorter_raises_index_error :
    listOnce (multibatch 6 (.const 2) [1, 2, 3] [[10, 20]] false 1) id =
      some [([[[1, 2], [10, 20]]], .error .indexError)] := by decide +kernel

/-- A longer second sequence: no error, and its last item is never yielded. -/
theorem C36_longer_is_cut :
    listOnce (multibatch 6 (.const 2) [1, 2] [[10, 20, 30]] false 1) id =
      some [([[[1, 2], [10, 20]]], .ok ())] := by decide +kernel

/-! ### C68: several iterations over one result at the same time -/

/-- The first `c` results of iterating over `bs`: the items, then StopIteration again and again. -/
def Spec.results {β : Type} (bs : List β) (c : Nat) : List (NextResult β) :=
  (List.range c).map (fun j => match bs[j]? with
    | some b => .item b
    | none => .stop)

/-- The results that iterator `k` gave in a log. -/
def Spec.resultsOf {β : Type} (log : List (Nat × NextResult β)) (k : Nat) : List (NextResult β) :=
  (log.filter (fun e => e.1 = k)).map Prod.snd

theorem Spec.results_nil {β : Type} (c : Nat) :
    Spec.results ([] : List β) (c + 1) = .stop :: Spec.results [] c := by
  unfold Spec.results
  rw [List.range_succ_eq_map]
  simp [List.map_map, Function.comp_def]

theorem Spec.results_cons {β : Type} (b : β) (bs : List β) (c : Nat) :
    Spec.results (b :: bs) (c + 1) = .item b :: Spec.results bs c := by
  unfold Spec.results
  rw [List.range_succ_eq_map]
  simp [List.map_map, Function.comp_def]

theorem batchRun_results {β : Type} (g : Batches β) (f : List Nat → β) (hs : g.shuffle = false)
    (hget : ∀ c, (∀ x ∈ c, x ∈ g.indices) → g.get c = .ok (f c)) (ops : List BatchOp)
    (its : List (BatchIter β)) (k : Nat) :
    Spec.resultsOf (batchRun g its ops) k =
      Spec.results (((its[k]?).map (remaining f g.indices)).getD
        ((chunks g.indices g.sizes 0).map f)) (Spec.resultsOf (batchRun g its ops) k).length := by
  induction ops generalizing its with
  | nil => rfl
  | cons op ops ih =>
    cases op with
    | open' =>
      have e : batchRun g its (.open' :: ops) = batchRun g (its ++ [g.iter]) ops := rfl
      rw [e, ih (its ++ [g.iter])]
      congr 1
      · by_cases h : k < its.length
        · rw [List.getElem?_append_left h]
        · rw [List.getElem?_eq_none (l := its) (by omega)]
          by_cases h' : k = its.length
          · subst h'
            simp [Batches.iter, remaining]
          · rw [List.getElem?_eq_none (by simp; omega)]
      · rw [← ih]
    | next j σ =>
      cases hj : its[j]? with
      | none =>
        have e : batchRun g its (.next j σ :: ops) = batchRun g its ops := by
          simp only [batchRun, batchStep, hj, List.nil_append]
        rw [e]; exact ih its
      | some it =>
        obtain ⟨it', r, h1, h2, h3⟩ := next_item g f hget it σ (Or.inr hs)
        have hjl : j < its.length := by
          by_contra h
          rw [List.getElem?_eq_none (by omega)] at hj
          cases hj
        have e0 : batchRun g its (.next j σ :: ops) =
            [(j, r)] ++ batchRun g (its.set j it') ops := by
          simp only [batchRun, batchStep, hj, h1]
        rw [e0]
        have ih' := ih (its.set j it')
        by_cases hk : j = k
        · subst hk
          have e : Spec.resultsOf ([(j, r)] ++ batchRun g (its.set j it') ops) j =
              r :: Spec.resultsOf (batchRun g (its.set j it') ops) j := by
            simp [Spec.resultsOf]
          rw [e, List.length_cons, hj]
          have e2 : (its.set j it')[j]? = some it' := by simp [hjl]
          rw [e2] at ih'
          simp only [Option.map_some, Option.getD_some] at ih' ⊢
          rcases h3 with ⟨h4, h5, h6⟩ | ⟨b, h4, h5⟩
          · rw [h4, Spec.results_nil, h5, ← h6, ← ih']
          · rw [h4, Spec.results_cons, h5, ← ih']
        · have e : Spec.resultsOf ([(j, r)] ++ batchRun g (its.set j it') ops) k =
              Spec.resultsOf (batchRun g (its.set j it') ops) k := by
            simp [Spec.resultsOf, hk]
          rw [e]
          rw [List.getElem?_set_ne hk] at ih'
          exact ih'

/-- **C68**: without shuffling, however the `next` calls of any number of iterators over one minibatch
result are interleaved, each iterator gives exactly the batches of a lone iteration, in order, and
then stops.  Missing: with shuffling iterators disturb each other (`C68_shuffled_interfere`). -/
theorem C68_interleaved_partial (arg : BatchSize) (size : Nat → Nat) (hr : Spec.Requests arg size)
    (hpos : ∀ k, 1 ≤ size k) (seq : List α) (buffer : Int) (fuel : Nat) (hf : seq.length < fuel) :
    ∃ g bs, minibatch fuel arg seq false buffer = some (.ok g) ∧ Spec.BatchesOf size seq bs ∧
      ∀ (ops : List BatchOp) (k : Nat), Spec.resultsOf (batchRun g [] ops) k =
        Spec.results bs (Spec.resultsOf (batchRun g [] ops) k).length := by
  obtain ⟨g, h1, h2⟩ := C35_minibatch_partial arg size hr hpos seq false buffer fuel hf
  obtain ⟨n, e1, _, _⟩ := sizes_spec arg size hr hpos seq.length fuel hf
  have hg : g = ⟨(List.range n).map (fun k => (size k : ℚ)), List.range seq.length, false, buffer,
      getBatch seq⟩ := by
    unfold minibatch at h1
    rw [e1] at h1
    simp only [Option.map_some, Option.some.injEq] at h1
    cases h1
    rfl
  have hget : ∀ c, (∀ x ∈ c, x ∈ g.indices) → g.get c = .ok (pick seq c) := by
    intro c hc
    rw [hg] at hc ⊢
    exact getBatch_ok seq c (fun x hx => List.mem_range.1 (hc x hx))
  have hu : g.used id = g.indices := by rw [hg]; rfl
  have hd := drain_all g (pick seq) id (by rw [hu]; exact hget)
  rw [hu] at hd
  obtain ⟨outs, h3, h4, h5⟩ := h2 [id] (by intro σ h; simp at h; subst h; exact fun l => List.Perm.refl _)
  unfold iterateAll at h3
  rw [hd] at h3
  simp only [iterateAll, Option.map_some, Option.some.injEq] at h3
  subst h3
  obtain ⟨_, _, data, _, h6, h7⟩ := h5 _ (List.mem_singleton.2 rfl)
  rw [h6 rfl] at h7
  refine ⟨g, _, h1, h7, fun ops k => ?_⟩
  have := batchRun_results g (pick seq) (by rw [hg]) hget ops [] k
  simpa using this

/-- A log, for a call of minibatch. -/
def logOf {β : Type} (r : Option (Except PyErr (Batches β))) (ops : List BatchOp) :
    List (Nat × NextResult β) :=
  match r with
  | some (.ok g) => batchRun g [] ops
  | _ => []

example : logOf (minibatch 6 (.const 2) [1, 2, 3] false 1)
    [.open', .next 0 id, .open', .next 1 id, .next 0 id, .next 0 id, .next 1 id] =
    [(0, .item [1, 2]), (1, .item [1, 2]), (0, .item [3]), (0, .stop), (1, .item [3])] := by
  decide +kernel

/-- With shuffling, a second iterator reshuffles the index array that the first is still using:
the first one yields items 1 and 2, then 1 again, and never 3. -/
theorem C68_shuffled_interfere :
    Spec.resultsOf (logOf (minibatch 6 (.const 2) [1, 2, 3] true 1)
      [.open', .next 0 id, .open', .next 1 List.reverse, .next 0 id, .next 0 id]) 0 =
    [.item [1, 2], .item [1], .stop] := by decide +kernel

end Thinc
