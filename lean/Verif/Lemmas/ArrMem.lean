import Verif.Spec.ArrMem
/-!
# Lemmas for C122
-/
namespace Thinc
open Shared Spec.Shared

theorem agree_bind {α β γ δ : Type} {R : α → β → Prop} {S : γ → δ → Prop} {x : Except PyErr α} {y : Except PyErr β}
    {f : α → Except PyErr γ} {g : β → Except PyErr δ} (h : Agree R x y) (hf : ∀ a b, R a b → Agree S (f a) (g b)) :
    Agree S (x >>= f) (y >>= g) := by
  cases x <;> cases y <;> first | exact h | exact hf _ _ h | exact h.elim

theorem agree_left {α β γ : Type} {R : α → β → Prop} {S : γ → β → Prop} {x : Except PyErr α} {y : Except PyErr β}
    {f : α → Except PyErr γ} (h : Agree R x y) (hf : ∀ a b, R a b → Agree S (f a) (.ok b)) : Agree S (x >>= f) y := by
  cases x <;> cases y <;> first | exact h | exact hf _ _ h | exact h.elim

theorem agree_mono {α β : Type} {R S : α → β → Prop} {x : Except PyErr α} {y : Except PyErr β} (h : Agree R x y)
    (hs : ∀ a b, R a b → S a b) : Agree S x y := by
  cases x <;> cases y <;> first | exact hs _ _ h | exact h

/-- The same computation on both sides. -/
theorem agree_same {α γ δ : Type} {S : γ → δ → Prop} (x : Except PyErr α) {f : α → Except PyErr γ} {g : α → Except PyErr δ}
    (hf : ∀ a, x = .ok a → Agree S (f a) (g a)) : Agree S (x >>= f) (x >>= g) := by
  cases x with
  | error e => exact (rfl : e = e)
  | ok a => exact hf a rfl

theorem agree_self {α : Type} (x : Except PyErr α) : Agree (fun a b => a = b) x x := by cases x <;> rfl

theorem Spec.Shared.Grows.refl (m : ArrMem) : Grows m m := ⟨Nat.le_refl _, rfl, fun _ _ => rfl⟩

theorem Spec.Shared.Grows.trans {a b c : ArrMem} (h : Grows a b) (k : Grows b c) : Grows a c :=
  ⟨Nat.le_trans h.1 k.1, k.2.1.trans h.2.1, fun x hx => (k.2.2 x (Nat.lt_of_lt_of_le hx h.1)).trans (h.2.2 x hx)⟩

theorem Spec.Shared.Grows.later {K : Nat → Prop} {m m' : ArrMem} (h : Grows m m') (hK : ∀ a, K a → a < m.next) : Later K m m' :=
  ⟨h.1, h.2.1, fun a ha => h.2.2 a (hK a ha)⟩

theorem Spec.Shared.Later.trans {K : Nat → Prop} {a b c : ArrMem} (h : Later K a b) (k : Later K b c) : Later K a c :=
  ⟨Nat.le_trans h.1 k.1, k.2.1.trans h.2.1, fun x hx => (k.2.2 x hx).trans (h.2.2 x hx)⟩

theorem Spec.Shared.Later.mono {K K' : Nat → Prop} {a b : ArrMem} (h : Later K a b) (hk : ∀ x, K' x → K x) : Later K' a b :=
  ⟨h.1, h.2.1, fun x hx => h.2.2 x (hk x hx)⟩

theorem Spec.Shared.Backward.later {K : Nat → Prop} {own : Bool} {m m' : ArrMem} {c : MCallback} {cb : Callback} (h : Backward K own m c cb)
    (hl : Later K m m') : Backward K own m' c cb := fun m'' dY G h1 h2 => h m'' dY G (hl.trans h1) h2

theorem Spec.Shared.Backward.weaken {K K' : Nat → Prop} {own own' : Bool} {m : ArrMem} {c : MCallback} {cb : Callback} (h : Backward K own m c cb)
    (hk : ∀ a, K a → K' a) (ho : own' = true → own = true) : Backward K' own' m c cb := fun m' dY G h1 h2 =>
  agree_mono (h m' dY G (h1.mono hk) h2) fun _ _ ⟨a, b, c, d, e, f⟩ => ⟨a, b, c, d, e, fun h => f (ho h)⟩

theorem Spec.Shared.Faithful.weaken {o g o' g' : Bool} {M : MLayer} {L : Layer} (h : Faithful o g M L) (ho : o' = true → o = true)
    (hg : g' = true → g = true) : Faithful o' g' M L := fun train X m hX =>
  agree_mono (h train X m hX) fun _ _ ⟨a, b, c, d, K, k1, k2, k3, k4⟩ => ⟨a, b, c, d, K, k1, k2, fun h => k3 (ho h), k4.weaken (fun _ h => h) hg⟩

theorem get_congr {m m' : ArrMem} {r : ArrRef} (h : m'.cell r.addr = m.cell r.addr) : r.get m' = r.get m := by
  unfold ArrRef.get
  rw [h]

mutual
theorem read_congr {m m' : ArrMem} : ∀ v : RVal, (∀ r ∈ v.refs, m'.cell r.addr = m.cell r.addr) → v.read m' = v.read m
  | .arr r, h => by simp only [RVal.read, get_congr (h r (by simp [RVal.refs]))]
  | .ragged r _, h => by simp only [RVal.read, get_congr (h r (by simp [RVal.refs]))]
  | .padded r _ _ _ _, h => by simp only [RVal.read, get_congr (h r (by simp [RVal.refs]))]
  | .ints _, _ => by simp only [RVal.read]
  | .intMat _, _ => by simp only [RVal.read]
  | .list vs, h => by simp only [RVal.read]; rw [readAll_congr vs (by simpa only [RVal.refs] using h)]
  | .tup vs, h => by simp only [RVal.read]; rw [readAll_congr vs (by simpa only [RVal.refs] using h)]
theorem readAll_congr {m m' : ArrMem} : ∀ vs : List RVal, (∀ r ∈ RVal.refsAll vs, m'.cell r.addr = m.cell r.addr) →
    RVal.readAll m' vs = RVal.readAll m vs
  | [], _ => rfl
  | v :: vs, h => by
    simp only [RVal.refsAll, List.mem_append] at h
    simp only [RVal.readAll]
    rw [read_congr v (fun r hr => h r (.inl hr)), readAll_congr vs (fun r hr => h r (.inr hr))]
end

theorem Spec.Shared.Grows.read {m m' : ArrMem} (h : Grows m m') {v : RVal} (hv : In m v) : v.read m' = v.read m :=
  read_congr v fun r hr => h.2.2 _ (hv r hr)

theorem Spec.Shared.Grows.inn {m m' : ArrMem} (h : Grows m m') {v : RVal} (hv : In m v) : In m' v :=
  fun r hr => Nat.lt_of_lt_of_le (hv r hr) h.1

theorem Spec.Shared.Later.inn {K : Nat → Prop} {m m' : ArrMem} (h : Later K m m') {v : RVal} (hv : In m v) : In m' v :=
  fun r hr => Nat.lt_of_lt_of_le (hv r hr) h.1

theorem grows_alloc (m : ArrMem) (A : Mat ℝ) : Grows m (m.alloc A).2 :=
  ⟨Nat.le_succ _, rfl, fun _ ha => if_neg (Nat.ne_of_lt ha)⟩

theorem alloc_get (m : ArrMem) (A : Mat ℝ) : ArrRef.get (m.alloc A).2 ⟨(m.alloc A).1, []⟩ = A := by
  show (if m.next = m.next then A else _) = A
  rw [if_pos rfl]

/-- All arrays of the value are new. -/
def AllNew (m : ArrMem) (v : RVal) : Prop := ∀ r ∈ v.refs, m.next ≤ r.addr ∧ r.path = []

theorem top_refs {v : RVal} {r : ArrRef} (h : r ∈ v.top) : r ∈ v.refs := by
  cases v <;> simp_all [RVal.top, RVal.refs]

theorem AllNew.own {m : ArrMem} {v : RVal} (h : AllNew m v) : Own m v := fun r hr => h r (top_refs hr)

mutual
theorem fresh_spec (m : ArrMem) : ∀ v : Val, Grows m (RVal.fresh m v).2 ∧ In (RVal.fresh m v).2 (RVal.fresh m v).1 ∧ AllNew m (RVal.fresh m v).1 ∧
    (RVal.fresh m v).1.read (RVal.fresh m v).2 = v
  | .arr A => by
    simp only [RVal.fresh, RVal.read, In, AllNew, RVal.refs, List.mem_singleton, forall_eq]
    exact ⟨grows_alloc m A, Nat.lt_succ_self _, ⟨Nat.le_refl _, trivial⟩, by rw [alloc_get]⟩
  | .ragged A _ => by
    simp only [RVal.fresh, RVal.read, In, AllNew, RVal.refs, List.mem_singleton, forall_eq]
    exact ⟨grows_alloc m A, Nat.lt_succ_self _, ⟨Nat.le_refl _, trivial⟩, by rw [alloc_get]⟩
  | .padded A _ _ _ _ => by
    simp only [RVal.fresh, RVal.read, In, AllNew, RVal.refs, List.mem_singleton, forall_eq]
    exact ⟨grows_alloc m A, Nat.lt_succ_self _, ⟨Nat.le_refl _, trivial⟩, by rw [alloc_get]⟩
  | .ints _ => by
    simp only [RVal.fresh, RVal.read, In, AllNew, RVal.refs]
    exact ⟨Grows.refl m, by simp, by simp, trivial⟩
  | .intMat _ => by
    simp only [RVal.fresh, RVal.read, In, AllNew, RVal.refs]
    exact ⟨Grows.refl m, by simp, by simp, trivial⟩
  | .list vs => by
    simp only [RVal.fresh, RVal.read, In, AllNew, RVal.refs]
    obtain ⟨a, b, c, d⟩ := freshAll_spec m vs
    exact ⟨a, b, c, by rw [d]⟩
  | .tup vs => by
    simp only [RVal.fresh, RVal.read, In, AllNew, RVal.refs]
    obtain ⟨a, b, c, d⟩ := freshAll_spec m vs
    exact ⟨a, b, c, by rw [d]⟩
theorem freshAll_spec (m : ArrMem) : ∀ vs : List Val, Grows m (RVal.freshAll m vs).2 ∧
    (∀ r ∈ RVal.refsAll (RVal.freshAll m vs).1, r.addr < (RVal.freshAll m vs).2.next) ∧
    (∀ r ∈ RVal.refsAll (RVal.freshAll m vs).1, m.next ≤ r.addr ∧ r.path = []) ∧ RVal.readAll (RVal.freshAll m vs).2 (RVal.freshAll m vs).1 = vs
  | [] => by
    simp only [RVal.freshAll, RVal.readAll, RVal.refsAll]
    exact ⟨Grows.refl m, by simp, by simp, trivial⟩
  | v :: vs => by
    obtain ⟨a, b, c, d⟩ := fresh_spec m v
    obtain ⟨a', b', c', d'⟩ := freshAll_spec (RVal.fresh m v).2 vs
    simp only [RVal.freshAll, RVal.readAll, RVal.refsAll, List.mem_append]
    refine ⟨a.trans a', ?_, ?_, ?_⟩
    · rintro r (hr | hr)
      · exact Nat.lt_of_lt_of_le (b r hr) a'.1
      · exact b' r hr
    · rintro r (hr | hr)
      · exact c r hr
      · exact ⟨Nat.le_trans a.1 (c' r hr).1, (c' r hr).2⟩
    · rw [a'.read b, d, d']
end

theorem AllNew.among {m : ArrMem} {v : RVal} (h : AllNew m v) (w : RVal) : Among m w v := fun r hr => .inr (h r hr).1

/-- A layer that puts its results into new arrays. -/
theorem body_faithful {S : Type} (b : Body S) (L : Layer) (keepsOutput : Bool)
    (hL : ∀ train P X, Agree (fun ys y => ys.1 = y.1 ∧ b.bwd ys.2 P X ys.1 = y.2) (b.fwd train P X) (L train P X))
    (hk : keepsOutput = false → ∀ s P X Y Y', b.bwd s P X Y = b.bwd s P X Y') : Faithful (!keepsOutput) true b.layer L := by
  intro train X m hX
  unfold Body.layer
  have h := hL train m.params (X.read m)
  refine agree_left h ?_
  rintro ⟨Y, s⟩ ⟨y, cb⟩ ⟨h1, h2⟩
  simp only at h1 h2
  subst h1
  obtain ⟨g1, g2, g3, g4⟩ := fresh_spec m Y
  refine ⟨g1, g2, g4, g3.among X, fun a => (∃ q ∈ X.refs, q.addr = a) ∨ (keepsOutput = true ∧ ∃ q ∈ (RVal.fresh m Y).1.refs, q.addr = a), ?_, ?_, ?_, ?_⟩
  · rintro a (h | ⟨-, q, hq, rfl⟩)
    · exact .inl h
    · exact .inr (g3 q hq).1
  · rintro a (⟨q, hq, rfl⟩ | ⟨-, q, hq, rfl⟩)
    · exact Nat.lt_of_lt_of_le (hX q hq) g1.1
    · exact g2 q hq
  · intro ho
    simp only [Bool.not_eq_true'] at ho
    refine ⟨g3.own, ?_⟩
    intro r hr0
    have hr := top_refs hr0
    rintro (⟨q, hq, e⟩ | ⟨h, -⟩)
    · have := hX q hq
      rw [e] at this
      exact absurd (g3 r hr).1 (Nat.not_le.2 this)
    · rw [ho] at h
      cases h
  · intro m' dY G hl hd
    show Agree _ (b.bwd s m'.params (X.read m') ((RVal.fresh m Y).1.read m') (dY.read m') G >>= _) _
    have e1 : m'.params = m.params := hl.2.1.trans g1.2.1
    have e2 : X.read m' = X.read m := by
      rw [← g1.read hX]
      exact read_congr X fun r hr => hl.2.2 _ (.inl ⟨r, hr, rfl⟩)
    have e3 : b.bwd s m'.params (X.read m') ((RVal.fresh m Y).1.read m') = cb := by
      rw [e1, e2, ← h2]
      cases keepsOutput with
      | false => exact hk rfl _ _ _ _ _
      | true =>
        rw [show (RVal.fresh m Y).1.read m' = Y from ?_]
        exact (read_congr _ fun r hr => hl.2.2 _ (.inr ⟨rfl, r, hr, rfl⟩)).trans g4
    rw [e3]
    refine agree_left (agree_self (cb (dY.read m') G)) ?_
    rintro ⟨d, G1⟩ _ rfl
    obtain ⟨f1, f2, f3, f4⟩ := fresh_spec m' d
    exact ⟨f1, f2, f4, rfl, f3.among dY, fun _ => f3.own⟩

end Thinc
