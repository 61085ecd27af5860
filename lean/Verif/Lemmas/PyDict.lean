import Verif.Model.Py
namespace Thinc.PyDict
variable {κ α : Type} [DecidableEq κ]

/-- A Python dict never holds a key twice. -/
def WF (d : PyDict κ α) : Prop := d.keys.Nodup

@[simp] theorem get?_nil (k : κ) : get? ([] : PyDict κ α) k = none := rfl
theorem get?_cons (k k' : κ) (v : α) (d : PyDict κ α) :
    get? ((k', v) :: d) k = if k' = k then some v else get? d k := rfl

theorem get?_set (d : PyDict κ α) (k k' : κ) (v : α) :
    (d.set k v).get? k' = if k = k' then some v else d.get? k' := by
  induction d with
  | nil => simp [set, get?]
  | cons p d ih =>
    obtain ⟨k0, v0⟩ := p
    unfold set
    by_cases h0 : k0 = k
    · subst h0; simp only [if_true, get?_cons]; split <;> rfl
    · simp only [if_neg h0, get?_cons, ih]
      by_cases h1 : k0 = k'
      · subst h1; simp [Ne.symm h0]
      · simp [h1]

@[simp] theorem get?_set_self (d : PyDict κ α) (k : κ) (v : α) : (d.set k v).get? k = some v := by
  simp [get?_set]

theorem get?_set_ne (d : PyDict κ α) {k k' : κ} (h : k ≠ k') (v : α) :
    (d.set k v).get? k' = d.get? k' := by simp [get?_set, h]

theorem mem_keys_iff (d : PyDict κ α) (k : κ) : k ∈ d.keys ↔ (d.get? k).isSome := by
  induction d with
  | nil => simp [keys]
  | cons p d ih =>
    obtain ⟨k0, v0⟩ := p
    simp only [keys, List.map_cons, List.mem_cons] at ih ⊢
    rw [get?_cons]
    by_cases h : k0 = k
    · simp [h]
    · rw [if_neg h, ← ih]; simp [Ne.symm h]

theorem contains_iff (d : PyDict κ α) (k : κ) : d.contains k = true ↔ k ∈ d.keys := by
  rw [mem_keys_iff]; rfl

theorem get?_eq_none_iff (d : PyDict κ α) (k : κ) : d.get? k = none ↔ k ∉ d.keys := by
  rw [mem_keys_iff]; simp

theorem keys_set (d : PyDict κ α) (k : κ) (v : α) :
    (d.set k v).keys = if k ∈ d.keys then d.keys else d.keys ++ [k] := by
  induction d with
  | nil => simp [set, keys]
  | cons p d ih =>
    obtain ⟨k0, v0⟩ := p
    unfold set
    simp only [keys, List.map_cons, List.mem_cons] at ih ⊢
    by_cases h0 : k0 = k
    · simp [h0]
    · simp only [if_neg h0, List.map_cons, ih]
      by_cases h1 : k ∈ d.map Prod.fst <;> simp [h1, Ne.symm h0]

theorem keys_set_of_mem (d : PyDict κ α) {k : κ} (h : k ∈ d.keys) (v : α) :
    (d.set k v).keys = d.keys := by simp [keys_set, h]

theorem mem_keys_set (d : PyDict κ α) (k k' : κ) (v : α) :
    k' ∈ (d.set k v).keys ↔ k' = k ∨ k' ∈ d.keys := by
  rw [keys_set]; split
  · rename_i h; constructor
    · exact Or.inr
    · rintro (rfl | h') <;> assumption
  · simp [or_comm]

theorem WF.set {d : PyDict κ α} (h : WF d) (k : κ) (v : α) : WF (d.set k v) := by
  unfold WF at *
  rw [keys_set]; split
  · exact h
  · rename_i hk
    rw [List.nodup_append]
    refine ⟨h, by simp, ?_⟩
    rintro a ha b hb rfl
    simp at hb; subst hb; exact hk ha

omit [DecidableEq κ] in
theorem WF.nil : WF ([] : PyDict κ α) := by simp [WF, keys]

theorem mem_of_get? {d : PyDict κ α} {k : κ} {v : α} (h : d.get? k = some v) : (k, v) ∈ d := by
  induction d with
  | nil => simp at h
  | cons p d ih =>
    obtain ⟨k0, v0⟩ := p
    rw [get?_cons] at h
    split at h
    · rename_i hk; simp at h; simp [hk, h]
    · simp [ih h]

theorem WF.get?_of_mem {d : PyDict κ α} (hw : WF d) {k : κ} {v : α} (h : (k, v) ∈ d) :
    d.get? k = some v := by
  induction d with
  | nil => simp at h
  | cons p d ih =>
    obtain ⟨k0, v0⟩ := p
    simp only [WF, keys, List.map_cons, List.nodup_cons] at hw
    rw [get?_cons]
    rcases List.mem_cons.1 h with h | h
    · simp at h; simp [h]
    · have : k0 ≠ k := by
        rintro rfl
        exact hw.1 (List.mem_map.2 ⟨_, h, rfl⟩)
      rw [if_neg this]
      exact ih hw.2 h

/-- Overwriting a key with the value it already has changes nothing. -/
theorem set_get?_self {d : PyDict κ α} {k : κ} {v : α} (h : d.get? k = some v) :
    d.set k v = d := by
  induction d with
  | nil => simp at h
  | cons p d ih =>
    obtain ⟨k0, v0⟩ := p
    rw [get?_cons] at h
    unfold set
    split at h
    · rename_i hk; simp at h; simp [hk, h]
    · rename_i hk; simp [hk, ih h]

theorem set_set (d : PyDict κ α) (k : κ) (v w : α) : (d.set k v).set k w = d.set k w := by
  induction d with
  | nil => simp [set]
  | cons p d ih =>
    obtain ⟨k0, v0⟩ := p
    by_cases hk : k0 = k
    · simp [set, hk]
    · simp [set, hk, ih]

/-- Two dicts with the same keys in the same order and the same lookups are equal. -/
theorem ext_of_keys {d e : PyDict κ α} (hw : WF d) (hk : d.keys = e.keys)
    (hg : ∀ k, d.get? k = e.get? k) : d = e := by
  induction d generalizing e with
  | nil => cases e with
    | nil => rfl
    | cons p e => simp [keys] at hk
  | cons p d ih =>
    cases e with
    | nil => simp [keys] at hk
    | cons q e =>
      obtain ⟨k0, v0⟩ := p; obtain ⟨k1, v1⟩ := q
      simp only [keys, List.map_cons, List.cons.injEq] at hk
      obtain ⟨rfl, hk⟩ := hk
      simp only [WF, keys, List.map_cons, List.nodup_cons] at hw
      have h0 := hg k0
      simp [get?_cons] at h0
      subst h0
      congr 1
      refine ih hw.2 hk ?_
      intro k
      by_cases h : k0 = k
      · subst h
        rw [(get?_eq_none_iff d k0).2 hw.1, (get?_eq_none_iff e k0).2]
        have h1 := hw.1
        rw [hk] at h1; exact h1
      · have := hg k; simpa [get?_cons, h] using this

end Thinc.PyDict
