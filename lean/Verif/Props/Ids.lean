import Verif.Model.Ids
/-!
# C16: model ids are unique under concurrency
-/
namespace Thinc

/-- The thread is between acquiring and releasing the lock. -/
def IdPc.inside : IdPc → Prop
  | .idle _ => False
  | _ => True

structure IdInv (s : IdState) : Prop where
  holder : ∀ t, (s.pc t).inside → s.lock = some t
  nodup : s.ids.Nodup
  below : ∀ i ∈ s.ids, i ≤ s.globalId
  tmp : ∀ t k v, s.pc t = .readTmp k v → v = s.globalId
  fresh : ∀ t k, s.pc t = .written k → ∀ i ∈ s.ids, i < s.globalId

theorem IdInv.step {s s' : IdState} (i : IdInv s) (st : IdStep s s') : IdInv s' := by
  cases st with
  | @acquire t k hpc hl =>
    refine ⟨?_, i.nodup, i.below, ?_, ?_⟩
    · intro u hu
      by_cases h : u = t
      · subst h; rfl
      · simp [IdState.setPc, h] at hu
        have := i.holder u hu; simp [hl] at this
    · intro u k v hu
      by_cases h : u = t
      · subst h; simp [IdState.setPc] at hu
      · simp [IdState.setPc, h] at hu; exact i.tmp u k v hu
    · intro u k hu
      by_cases h : u = t
      · subst h; simp [IdState.setPc] at hu
      · simp [IdState.setPc, h] at hu; exact i.fresh u k hu
  | @read t k hpc =>
    refine ⟨?_, i.nodup, i.below, ?_, ?_⟩
    · intro u hu
      by_cases h : u = t
      · subst h; exact i.holder u (by simp [hpc, IdPc.inside])
      · simp [IdState.setPc, h] at hu; exact i.holder u hu
    · intro u k v hu
      by_cases h : u = t
      · subst h; simp [IdState.setPc] at hu ⊢; exact hu.2.symm
      · simp [IdState.setPc, h] at hu; exact i.tmp u k v hu
    · intro u k hu
      by_cases h : u = t
      · subst h; simp [IdState.setPc] at hu
      · simp [IdState.setPc, h] at hu; exact i.fresh u k hu
  | @write t k v hpc =>
    have ht := i.holder t (by simp [hpc, IdPc.inside])
    have hv := i.tmp t k v hpc
    have excl : ∀ u, u ≠ t → (s.pc u).inside → False := by
      intro u hu hi
      have := i.holder u hi
      rw [ht] at this; simp at this; exact hu this.symm
    refine ⟨?_, i.nodup, ?_, ?_, ?_⟩
    · intro u hu
      by_cases h : u = t
      · subst h; exact ht
      · simp [IdState.setPc, h] at hu; exact i.holder u hu
    · intro x hx; have := i.below x hx; simp; omega
    · intro u k v hu
      by_cases h : u = t
      · subst h; simp [IdState.setPc] at hu
      · simp [IdState.setPc, h] at hu
        exact absurd (by simp [hu, IdPc.inside]) (excl u h)
    · intro u k hu x hx
      have := i.below x hx; simp; omega
  | @assign t k hpc =>
    have ht := i.holder t (by simp [hpc, IdPc.inside])
    have hf := i.fresh t k hpc
    have excl : ∀ u, u ≠ t → (s.pc u).inside → False := by
      intro u hu hi
      have := i.holder u hi
      rw [ht] at this; simp at this; exact hu this.symm
    refine ⟨?_, ?_, ?_, ?_, ?_⟩
    · intro u hu
      by_cases h : u = t
      · subst h; exact ht
      · simp [IdState.setPc, h] at hu; exact i.holder u hu
    · refine List.nodup_cons.2 ⟨?_, i.nodup⟩
      intro hm; have := hf _ hm; omega
    · intro x hx
      rcases List.mem_cons.1 hx with rfl | hx
      · exact Nat.le_refl _
      · exact i.below x hx
    · intro u k v hu
      by_cases h : u = t
      · subst h; simp [IdState.setPc] at hu
      · simp [IdState.setPc, h] at hu
        exact absurd (by simp [hu, IdPc.inside]) (excl u h)
    · intro u k hu
      by_cases h : u = t
      · subst h; simp [IdState.setPc] at hu
      · simp [IdState.setPc, h] at hu
        exact absurd (by simp [hu, IdPc.inside]) (excl u h)
  | @release t k hpc =>
    have ht := i.holder t (by simp [hpc, IdPc.inside])
    have excl : ∀ u, u ≠ t → (s.pc u).inside → False := by
      intro u hu hi
      have := i.holder u hi
      rw [ht] at this; simp at this; exact hu this.symm
    refine ⟨?_, i.nodup, i.below, ?_, ?_⟩
    · intro u hu
      by_cases h : u = t
      · subst h; simp [IdState.setPc, IdPc.inside] at hu
      · simp [IdState.setPc, h] at hu; exact absurd hu (excl u h)
    · intro u k v hu
      by_cases h : u = t
      · subst h; simp [IdState.setPc] at hu
      · simp [IdState.setPc, h] at hu; exact i.tmp u k v hu
    · intro u k hu
      by_cases h : u = t
      · subst h; simp [IdState.setPc] at hu
      · simp [IdState.setPc, h] at hu; exact i.fresh u k hu

/-- C16. Start with any counter value and any number of threads, thread `t` constructing `work t`
models; after any execution, in any interleaving, all ids handed out are distinct, and all are
larger than the initial counter. -/
theorem C16_ids_unique (g₀ : Nat) (work : Nat → Nat) (s : IdState)
    (run : IdSteps { globalId := g₀, lock := none, pc := fun t => .idle (work t), ids := [] } s) :
    s.ids.Nodup ∧ ∀ i ∈ s.ids, g₀ < i := by
  have key : ∀ s, IdSteps { globalId := g₀, lock := none, pc := fun t => .idle (work t), ids := [] } s →
      IdInv s ∧ g₀ ≤ s.globalId ∧ (∀ i ∈ s.ids, g₀ < i) ∧
        (∀ t k, s.pc t = .written k → g₀ < s.globalId) := by
    intro s run
    generalize hs0 : ({ globalId := g₀, lock := none, pc := fun t => .idle (work t), ids := [] } : IdState) = s0 at run
    induction run with
    | refl =>
      subst hs0
      refine ⟨⟨?_, by simp, by simp, ?_, ?_⟩, Nat.le_refl _, by simp, ?_⟩ <;> simp [IdPc.inside]
    | @tail s₂ s₃ _ st ih =>
      obtain ⟨i, hg, hl, hw⟩ := ih
      refine ⟨i.step st, ?_⟩
      cases st with
      | @acquire t k hpc hlk =>
        refine ⟨hg, hl, ?_⟩
        intro u k hu
        by_cases h : u = t
        · subst h; simp [IdState.setPc] at hu
        · simp [IdState.setPc, h] at hu; exact hw u k hu
      | @read t k hpc =>
        refine ⟨hg, hl, ?_⟩
        intro u k hu
        by_cases h : u = t
        · subst h; simp [IdState.setPc] at hu
        · simp [IdState.setPc, h] at hu; exact hw u k hu
      | @write t k v hpc =>
        have hv := i.tmp t k v hpc
        refine ⟨?_, hl, ?_⟩
        · simp; omega
        · intro u k hu; simp; omega
      | @assign t k hpc =>
        refine ⟨hg, ?_, ?_⟩
        · intro x hx
          rcases List.mem_cons.1 hx with rfl | hx
          · exact hw t k hpc
          · exact hl x hx
        · intro u k hu
          by_cases h : u = t
          · subst h; simp [IdState.setPc] at hu
          · simp [IdState.setPc, h] at hu; exact hw u k hu
      | @release t k hpc =>
        refine ⟨hg, hl, ?_⟩
        intro u k hu
        by_cases h : u = t
        · subst h; simp [IdState.setPc] at hu
        · simp [IdState.setPc, h] at hu; exact hw u k hu
  obtain ⟨i, _, hl, _⟩ := key s run
  exact ⟨i.nodup, hl⟩

/-! Non-vacuity: two threads, one model each, run to completion, give ids 1 and 2. -/
example : ∃ s, IdSteps { globalId := 0, lock := none, pc := fun t => .idle (if t < 2 then 1 else 0), ids := [] } s
    ∧ s.ids = [2, 1] := by
  have run := IdSteps.refl (s := { globalId := 0, lock := none, pc := fun t => .idle (if t < 2 then 1 else 0), ids := [] })
      |>.tail (IdStep.acquire (t := 1) (k := 0) rfl rfl)
      |>.tail (IdStep.read (t := 1) (k := 0) rfl)
      |>.tail (IdStep.write (t := 1) (k := 0) rfl)
      |>.tail (IdStep.assign (t := 1) (k := 0) rfl)
      |>.tail (IdStep.release (t := 1) (k := 0) rfl)
      |>.tail (IdStep.acquire (t := 0) (k := 0) rfl rfl)
      |>.tail (IdStep.read (t := 0) (k := 0) rfl)
      |>.tail (IdStep.write (t := 0) (k := 0) rfl)
      |>.tail (IdStep.assign (t := 0) (k := 0) rfl)
  exact ⟨_, run, rfl⟩

end Thinc
