import Verif.Spec.TorchWrapper
import Verif.Props.Recursive
import Mathlib.Tactic.Common
/-!
# C97: inputs, outputs and gradients of a wrapped PyTorch model
-/
namespace Thinc
open Spec Obj Torch

/-! ### Paths -/

theorem occurs_of_objAt {o x : Obj} {p : List ℕ} (h : objAt o p = some x) : Occurs x o := by
  induction p generalizing o with
  | nil => simp only [objAt, Option.some.injEq] at h; exact h ▸ .here
  | cons i p ih =>
    rw [objAt] at h
    cases hc : (members o)[i]? with
    | none => rw [hc] at h; simp at h
    | some c =>
      rw [hc] at h
      exact .member (List.mem_of_getElem? hc) (ih h)

theorem objAt_of_occurs {o x : Obj} (h : Occurs x o) : ∃ p, objAt o p = some x := by
  induction h with
  | here => exact ⟨[], rfl⟩
  | @member c o hc _ ih =>
    obtain ⟨p, hp⟩ := ih
    obtain ⟨i, hi, e⟩ := List.getElem_of_mem hc
    refine ⟨i :: p, ?_⟩
    rw [objAt, List.getElem?_eq_getElem hi, e]
    exact hp

/-- There is nothing inside an opaque object. -/
theorem prefix_other {o x : Obj} {p q : List ℕ} {id : ℕ} {h : Bool} (hq : q <+: p) (ho : objAt o q = some (.other id h))
    (hp : objAt o p = some x) : q = p := by
  obtain ⟨r, rfl⟩ := hq
  induction q generalizing o with
  | nil =>
    simp only [objAt, Option.some.injEq] at ho
    subst ho
    cases r with
    | nil => rfl
    | cons i r => simp [objAt, members] at hp
  | cons i q ih =>
    rw [List.cons_append, objAt] at hp
    rw [objAt] at ho
    cases hc : (members o)[i]? with
    | none => rw [hc] at ho; simp at ho
    | some c =>
      rw [hc] at ho hp
      have := ih ho hp
      rw [List.cons_append, ← this]

/-- Only opaque objects match. -/
def LeafOnly (m : Obj → Bool) : Prop := ∀ o, m o = true → ∃ id h, o = .other id h

theorem leaf_xp : LeafOnly isXp := by
  intro o h
  cases o <;> simp [isXp] at h
  exact ⟨_, _, rfl⟩

theorem leaf_torch : LeafOnly isTorch := by
  intro o h
  cases o <;> simp [isTorch] at h
  exact ⟨_, _, rfl⟩

theorem shell_other {x : Obj} {id : ℕ} {h : Bool} (e : shell x = .other id h) : x = .other id h := by
  cases x <;> simp [shell] at e
  obtain ⟨rfl, rfl⟩ := e
  rfl

theorem outermost_leaf {m : Obj → Bool} (hm : LeafOnly m) {o x : Obj} {p : List ℕ} (h : objAt o p = some x) (hx : m x = true) :
    Outermost m o p := by
  refine ⟨⟨x, h, hx⟩, fun q hq hne y hy => ?_⟩
  by_contra hc
  rw [Bool.not_eq_false] at hc
  obtain ⟨id, k, rfl⟩ := hm y hc
  exact hne (prefix_other hq hy h)

/-- The keys are fine, for a matcher of opaque objects. -/
theorem keysFine_leaf {m : Obj → Bool} (hm : LeafOnly m) (o : Obj) :
    KeysFine m o ↔ (∀ kvs, Occurs (.dict kvs) o → (kvs.map Prod.fst).Nodup ∧
      ∀ k ∈ kvs.map Prod.fst, k.hashable = true ∧ ∀ s, Occurs s k → m s = false) ∧
    ∀ args kwargs, Occurs (.argsKwargs args kwargs) o → (kwargs.map Prod.fst).Nodup ∧ ∀ k ∈ kwargs.map Prod.fst, ∃ s, k = .str s := by
  have hno : ∀ x : Obj, (∀ id h, x ≠ .other id h) → m x = false := by
    intro x hx
    by_contra hc
    rw [Bool.not_eq_false] at hc
    obtain ⟨id, h, rfl⟩ := hm x hc
    exact hx id h rfl
  constructor
  · rintro ⟨h1, h2⟩
    exact ⟨h1, fun a k hk => ⟨(h2 a k hk).1, fun n hn => ((h2 a k hk).2.1 n hn).1⟩⟩
  · rintro ⟨h1, h2⟩
    refine ⟨h1, fun a k hk => ⟨(h2 a k hk).1, fun n hn => ?_, hno _ (by simp), fun it hit => ?_, fun i _ => hno _ (by simp)⟩⟩
    · obtain ⟨s, rfl⟩ := (h2 a k hk).2 n hn
      exact ⟨⟨s, rfl⟩, hno _ (by simp)⟩
    · refine hno _ ?_
      rintro id h rfl
      simp only [items, List.mem_append, List.mem_map] at hit
      rcases hit with hit | ⟨_, _, hit⟩
      · have : ∀ (as : List Obj) (i : ℕ), (.other id h : Obj) ∉ argItems i as := by
          intro as
          induction as with
          | nil => simp [argItems]
          | cons a as ih => intro i; simp [argItems, ih]
        exact this _ _ hit
      · exact absurd hit (by simp)

/-- The shell of a dict or of `ArgsKwargs` shows the keys. -/
theorem shell_keys {o o' : Obj} (h : shell o' = shell o) :
    (∀ kvs, o' = .dict kvs → ∃ kvs', o = .dict kvs' ∧ kvs'.map Prod.fst = kvs.map Prod.fst) ∧
    ∀ args kwargs, o' = .argsKwargs args kwargs → ∃ args' kwargs', o = .argsKwargs args' kwargs' ∧
      kwargs'.map Prod.fst = kwargs.map Prod.fst := by
  constructor
  · rintro kvs rfl
    cases o <;> simp [shell] at h
    exact ⟨_, rfl, h.symm⟩
  · rintro args kwargs rfl
    cases o <;> simp [shell] at h
    exact ⟨_, _, rfl, h.2.symm⟩

theorem Spec.Replaced.keysFine {m m' : Obj → Bool} {R : List ℕ → Obj → Obj → Prop} {o o' : Obj} (h : Replaced m R o o')
    (hR : ∀ p x x', R p x x' → ∃ id k, x' = .other id k) (hm' : LeafOnly m') (hk : KeysFine m' o) : KeysFine m' o' := by
  rw [keysFine_leaf hm'] at hk ⊢
  have key : ∀ c, Occurs c o' → (∀ id k, c ≠ .other id k) → ∃ c0, Occurs c0 o ∧ shell c = shell c0 := by
    intro c hc hno
    obtain ⟨p, hp⟩ := objAt_of_occurs hc
    have hq : ∀ q, q <+: p → ¬ Outermost m o q := by
      intro q hq hout
      obtain ⟨x, x', _, hx', hr⟩ := h.1 q hout
      obtain ⟨id, k, rfl⟩ := hR q x x' hr
      have := prefix_other hq hx' hp
      subst this
      rw [hx'] at hp
      exact hno id k (Option.some.inj hp).symm
    have := h.2 p hq
    rw [hp] at this
    cases hc0 : objAt o p with
    | none => rw [hc0] at this; simp at this
    | some c0 =>
      rw [hc0] at this
      exact ⟨c0, occurs_of_objAt hc0, Option.some.inj this⟩
  constructor
  · intro kvs hoc
    obtain ⟨c0, h0, e⟩ := key _ hoc (by simp)
    obtain ⟨kvs', rfl, e'⟩ := (shell_keys e).1 kvs rfl
    rw [← e']
    exact hk.1 kvs' h0
  · intro args kwargs hoc
    obtain ⟨c0, h0, e⟩ := key _ hoc (by simp)
    obtain ⟨a', kw', rfl, e'⟩ := (shell_keys e).2 args kwargs rfl
    rw [← e']
    exact hk.2 a' kw' h0

theorem Spec.Replaced.trans {m1 m2 : Obj → Bool} {R1 R2 : List ℕ → Obj → Obj → Prop} {o o' o'' : Obj}
    (h1 : Replaced m1 R1 o o') (h2 : Replaced m2 R2 o' o'') (hR : ∀ p x x', R1 p x x' → ∃ id k, x' = .other id k)
    (hm : LeafOnly m2) (hno : ∀ s, Occurs s o → m2 s = false) :
    Replaced m1 (fun p x z => ∃ y, R1 p x y ∧ ((m2 y = true ∧ R2 p y z) ∨ (m2 y = false ∧ z = y))) o o'' := by
  constructor
  · intro p hp
    obtain ⟨x, y, hx, hy, hr⟩ := h1.1 p hp
    obtain ⟨id, k, rfl⟩ := hR p x y hr
    by_cases hmy : m2 (.other id k) = true
    · obtain ⟨y', z, hy', hz, hr2⟩ := h2.1 p (outermost_leaf hm hy hmy)
      rw [hy] at hy'
      obtain rfl := Option.some.inj hy'
      exact ⟨x, z, hx, hz, _, hr, Or.inl ⟨hmy, hr2⟩⟩
    · rw [Bool.not_eq_true] at hmy
      have hq : ∀ q, q <+: p → ¬ Outermost m2 o' q := by
        intro q hq hout
        obtain ⟨⟨w, hw, hmw⟩, _⟩ := hout
        obtain ⟨id', k', rfl⟩ := hm w hmw
        have := prefix_other hq hw hy
        subst this
        rw [hw] at hy
        rw [← Option.some.inj hy, hmw] at hmy
        simp at hmy
      have := h2.2 p hq
      rw [hy] at this
      cases hz : objAt o'' p with
      | none => rw [hz] at this; simp at this
      | some z =>
        rw [hz] at this
        have e := shell_other (Option.some.inj this)
        subst e
        exact ⟨x, _, hx, rfl, _, hr, Or.inr ⟨hmy, rfl⟩⟩
  · intro p hp
    rw [← h1.2 p hp]
    refine h2.2 p fun q hq hout => ?_
    obtain ⟨⟨w, hw, hmw⟩, _⟩ := hout
    obtain ⟨id', k', rfl⟩ := hm w hmw
    have := h1.2 q fun r hr => hp r (hr.trans hq)
    rw [hw] at this
    cases hz : objAt o q with
    | none => rw [hz] at this; simp at this
    | some z =>
      rw [hz] at this
      have e := shell_other (Option.some.inj this).symm
      subst e
      rw [hno _ (occurs_of_objAt hz)] at hmw
      simp at hmw

theorem Spec.Replaced.mono {m : Obj → Bool} {R R' : List ℕ → Obj → Obj → Prop} {o o' : Obj} (h : Replaced m R o o')
    (hi : ∀ p x x', objAt o p = some x → objAt o' p = some x' → R p x x' → R' p x x') : Replaced m R' o o' :=
  ⟨fun p hp => by
    obtain ⟨x, x', a, b, c⟩ := h.1 p hp
    exact ⟨x, x', a, b, hi p x x' a b c⟩, h.2⟩

/-! ### Conversions in a store -/

theorem mapM_run_length (f : Obj → Run Obj) (xs : List Obj) (s : Store) (ys : List Obj) (s' : Store)
    (h : xs.mapM f s = .ok (ys, s')) : ys.length = xs.length := by
  induction xs generalizing s ys with
  | nil => simp only [List.mapM_nil, pure, StateT.pure, Except.pure, Except.ok.injEq, Prod.mk.injEq] at h; simp [← h.1]
  | cons x xs ih =>
    simp only [List.mapM_cons, bind, StateT.bind, Except.bind, pure, StateT.pure, Except.pure] at h
    cases hf : f x s with
    | error e => rw [hf] at h; simp at h
    | ok r =>
      rw [hf] at h
      simp only at h
      cases hg : xs.mapM f r.2 with
      | error e => rw [hg] at h; simp at h
      | ok r' =>
        rw [hg] at h
        simp only [Except.ok.injEq, Prod.mk.injEq] at h
        rw [← h.1, List.length_cons, List.length_cons, ih r.2 r'.1 (by rw [hg, ← h.2])]

/-- A conversion in a store: what is known about the items is known about the places. -/
theorem convert_run (m : Obj → Bool) (f : Obj → Run Obj) (o : Obj) (hk : KeysFine m o) (s : Store) :
    (∀ e, (iterateRecursive m o).mapM f s = .error e → convertRecursive m f o s = .error e) ∧
    (∀ x ∈ iterateRecursive m o, m x = true ∧ Occurs x o) ∧
    (∀ p x, Outermost m o p → objAt o p = some x → x ∈ iterateRecursive m o) ∧
    ∀ ys s', (iterateRecursive m o).mapM f s = .ok (ys, s') →
      ∃ (o' : Obj) (num : List ℕ → ℕ), convertRecursive m f o s = .ok (o', s') ∧
        (∀ p, Outermost m o p → (iterateRecursive m o)[num p]? = objAt o p ∧ objAt o' p = ys[num p]?) ∧
        (∀ p q, Outermost m o p → Outermost m o q → num p = num q → p = q) ∧
        ∀ p, (∀ q, q <+: p → ¬ Outermost m o q) → (objAt o' p).map shell = (objAt o p).map shell := by
  obtain ⟨paths, rebuild, hpw, hmem, hit, hconv, hys⟩ := C65_convert m o hk
  have hc := hconv Run f
  have hlen : (iterateRecursive m o).length = paths.length := by simpa using congrArg List.length hit
  refine ⟨?_, ?_, ?_, ?_⟩
  · intro e he
    rw [hc]
    simp only [Functor.map, StateT.map, bind, Except.bind, he]
  · intro x hx
    have : some x ∈ paths.map (objAt o) := by rw [← hit]; exact List.mem_map_of_mem hx
    obtain ⟨p, hp, e⟩ := List.mem_map.1 this
    obtain ⟨⟨y, hy, hmy⟩, _⟩ := (hmem p).1 hp
    rw [hy] at e
    obtain rfl := Option.some.inj e
    exact ⟨hmy, occurs_of_objAt hy⟩
  · intro p x hp hx
    have : some x ∈ (iterateRecursive m o).map some := by
      rw [hit]; exact List.mem_map.2 ⟨p, (hmem p).2 hp, hx⟩
    obtain ⟨y, hy, e⟩ := List.mem_map.1 this
    exact Option.some.inj e ▸ hy
  · intro ys s' he
    have hl : ys.length = paths.length := by rw [mapM_run_length f _ _ _ _ he, hlen]
    obtain ⟨h1, h2⟩ := hys ys hl
    have hidx : ∀ p, Outermost m o p → paths[paths.idxOf p]? = some p := by
      intro p hp
      have hlt := List.idxOf_lt_length_of_mem ((hmem p).2 hp)
      rw [List.getElem?_eq_getElem hlt, List.getElem_idxOf]
    refine ⟨rebuild ys, fun p => paths.idxOf p, ?_, ?_, ?_, h2⟩
    · rw [hc]
      simp only [Functor.map, StateT.map, bind, Except.bind, he, pure, Except.pure]
    · intro p hp
      refine ⟨?_, h1 _ p (hidx p hp)⟩
      have e := congrArg (fun l => l[paths.idxOf p]?) hit
      simp only [List.getElem?_map, hidx p hp, Option.map_some] at e
      cases hx : (iterateRecursive m o)[paths.idxOf p]? with
      | none => rw [hx] at e; simp at e
      | some x => rw [hx] at e; simpa using e
    · intro p q hp hq e
      have a := hidx p hp
      have b := hidx q hq
      simp only at e
      rw [e, b] at a
      exact (Option.some.inj a).symm

theorem Spec.SameBefore.refl (s : Store) : SameBefore s s := ⟨le_refl _, fun _ _ => ⟨rfl, rfl, rfl⟩⟩

theorem Spec.SameBefore.trans {a b c : Store} (h : SameBefore a b) (h' : SameBefore b c) : SameBefore a c :=
  ⟨h.1.trans h'.1, fun id hid => by
    have h1 := h.2 id hid
    have h2 := h'.2 id (by have := h.1; omega)
    exact ⟨h2.1.trans h1.1, h2.2.1.trans h1.2.1, h2.2.2.trans h1.2.2⟩⟩

theorem sameBefore_newTensor (s : Store) (rg : Bool) (id : ℕ) : SameBefore s (s.newTensor rg id) := by
  refine ⟨by simp [Store.newTensor], fun i hi => ?_⟩
  have : i ≠ 4 * s.next + 1 := by omega
  simp [Store.newTensor, Function.update_of_ne this]

theorem sameBefore_newArray (s : Store) (id : ℕ) : SameBefore s (s.newArray id) := by
  refine ⟨by simp [Store.newArray], fun i hi => ?_⟩
  have : i ≠ 4 * s.next := by omega
  simp [Store.newArray, Function.update_of_ne this]

/-- Converting a list of arrays into tensors. -/
theorem mapM_xp2torch (rg : Bool) (xs : List Obj) (s : Store) (hx : ∀ x ∈ xs, ∃ a h, x = .other a h ∧ a % 4 = 0 ∧
    (rg = true → s.floats a = true)) :
    ∃ ys s', xs.mapM (xp2torch rg) s = .ok (ys, s') ∧ s'.next = s.next + xs.length ∧ SameBefore s s' ∧
      (∀ (n a : ℕ) h, xs[n]? = some (.other a h) → ys[n]? = some (.other (4 * (s.next + n) + 1) true) ∧
        s'.data (4 * (s.next + n) + 1) = s.data a ∧ s'.requiresGrad (4 * (s.next + n) + 1) = rg ∧
        s'.hasGrad (4 * (s.next + n) + 1) = false) := by
  induction xs generalizing s with
  | nil => exact ⟨[], s, rfl, by simp, .refl s, by simp⟩
  | cons x xs ih =>
    obtain ⟨a, h, rfl, ha, hfl⟩ := hx x (by simp)
    have hne : ∀ i : ℕ, i % 4 = 0 → i ≠ 4 * s.next + 1 := fun i hi => by omega
    obtain ⟨ys, s', h1, h2, h3, h4⟩ := ih (s.newTensor rg a) (by
      intro y hy
      obtain ⟨b, k, rfl, hb, hfb⟩ := hx y (by simp [hy])
      refine ⟨b, k, rfl, hb, fun e => ?_⟩
      simp only [Store.newTensor, Function.update_of_ne (hne b hb)]
      exact hfb e)
    have hcond : (rg && !s.floats a) = false := by
      cases rg with
      | false => rfl
      | true => simp [hfl rfl]
    refine ⟨.other (4 * s.next + 1) true :: ys, s', ?_, ?_, ?_, ?_⟩
    · simp only [List.mapM_cons, bind, StateT.bind, Except.bind, xp2torch, hcond, Bool.false_eq_true, if_false, h1, pure,
        StateT.pure, Except.pure]
    · rw [h2]; simp [Store.newTensor]; omega
    · exact (sameBefore_newTensor s rg a).trans h3
    · intro n b k hn
      cases n with
      | zero =>
        simp only [List.getElem?_cons_zero, Option.some.injEq, Obj.other.injEq] at hn
        obtain ⟨rfl, rfl⟩ := hn
        have := h3.2 (4 * s.next + 1) (by simp [Store.newTensor]; omega)
        simp only [Nat.add_zero, List.getElem?_cons_zero, true_and]
        rw [this.1, this.2.1, this.2.2]
        simp [Store.newTensor]
      | succ n =>
        rw [List.getElem?_cons_succ] at hn
        have hb : b % 4 = 0 := by
          obtain ⟨b', k', e, hb', _⟩ := hx (.other b k) (by simp [List.mem_of_getElem? hn])
          injection e with e1 e2
          subst e1; exact hb'
        have := h4 n b k hn
        simp only [Store.newTensor, Function.update_of_ne (hne b hb)] at this
        rw [show s.next + (n + 1) = s.next + 1 + n by omega, List.getElem?_cons_succ]
        exact this

/-- An array without float entries cannot ask for gradients. -/
theorem mapM_xp2torch_error (xs : List Obj) (s : Store) (hx : ∀ x ∈ xs, ∃ a h, x = .other a h ∧ a % 4 = 0)
    (hbad : ∃ a h, (.other a h : Obj) ∈ xs ∧ s.floats a = false) : xs.mapM (xp2torch true) s = .error (.userError 0) := by
  induction xs generalizing s with
  | nil => obtain ⟨_, _, h, _⟩ := hbad; simp at h
  | cons x xs ih =>
    obtain ⟨a, h, rfl, ha⟩ := hx x (by simp)
    by_cases hfl : s.floats a = true
    · have hne : ∀ i : ℕ, i % 4 = 0 → i ≠ 4 * s.next + 1 := fun i hi => by omega
      have := ih (s.newTensor true a) (fun y hy => hx y (by simp [hy])) (by
        obtain ⟨b, k, hb, hfb⟩ := hbad
        rcases List.mem_cons.1 hb with e | hb
        · injection e with e1 e2
          subst e1
          rw [hfl] at hfb; simp at hfb
        · obtain ⟨b', k', e, hb'⟩ := hx (.other b k) (by simp [hb])
          injection e with e1 e2
          subst e1
          exact ⟨b, k, hb, by simp only [Store.newTensor, Function.update_of_ne (hne b hb')]; exact hfb⟩)
      simp only [List.mapM_cons, bind, StateT.bind, Except.bind, xp2torch, hfl, Bool.not_true, Bool.and_false,
        Bool.false_eq_true, if_false, this]
    · rw [Bool.not_eq_true] at hfl
      simp only [List.mapM_cons, bind, StateT.bind, Except.bind, xp2torch, hfl, Bool.not_false, Bool.and_self, if_true]

theorem torch_mod {id : ℕ} {h : Bool} : isTorch (.other id h) = true ↔ id % 4 = 1 ∨ id % 4 = 2 := by
  simp [isTorch]

/-- Converting a list of tensors into arrays. -/
theorem mapM_torch2xp (xs : List Obj) (s : Store) (hx : ∀ x ∈ xs, isTorch x = true) :
    ∃ ys s', xs.mapM torch2xp s = .ok (ys, s') ∧ s'.next = s.next + xs.length ∧ SameBefore s s' ∧
      (∀ (n a : ℕ) h, xs[n]? = some (.other a h) → ys[n]? = some (.other (4 * (s.next + n)) false) ∧
        s'.data (4 * (s.next + n)) = s.data a) := by
  induction xs generalizing s with
  | nil => exact ⟨[], s, rfl, by simp, .refl s, by simp⟩
  | cons x xs ih =>
    have hxt := hx x (by simp)
    obtain ⟨a, h, rfl⟩ := leaf_torch x hxt
    have hne : ∀ i : ℕ, (i % 4 = 1 ∨ i % 4 = 2) → i ≠ 4 * s.next := fun i hi => by omega
    obtain ⟨ys, s', h1, h2, h3, h4⟩ := ih (s.newArray a) (fun y hy => hx y (by simp [hy]))
    refine ⟨.other (4 * s.next) false :: ys, s', ?_, ?_, ?_, ?_⟩
    · simp only [List.mapM_cons, bind, StateT.bind, Except.bind, torch2xp, hxt, if_true, h1, pure,
        StateT.pure, Except.pure]
    · rw [h2]; simp [Store.newArray]; omega
    · exact (sameBefore_newArray s a).trans h3
    · intro n b k hn
      cases n with
      | zero =>
        simp only [List.getElem?_cons_zero, Option.some.injEq, Obj.other.injEq] at hn
        obtain ⟨rfl, rfl⟩ := hn
        have := h3.2 (4 * s.next) (by simp [Store.newArray])
        simp only [Nat.add_zero, List.getElem?_cons_zero, true_and]
        rw [this.1]
        simp [Store.newArray]
      | succ n =>
        rw [List.getElem?_cons_succ] at hn
        have hb := torch_mod.1 (hx (.other b k) (by simp [List.mem_of_getElem? hn]))
        have := h4 n b k hn
        simp only [Store.newArray, Function.update_of_ne (hne b hb)] at this
        rw [show s.next + (n + 1) = s.next + 1 + n by omega, List.getElem?_cons_succ]
        exact this

/-- `x.grad` as an object. -/
def gradObj (s : Store) : Obj → Obj
  | .other id _ => if id % 4 == 1 && s.hasGrad id then .other (id + 1) true else pyNone
  | o => o

theorem mapM_getGrad (xs : List Obj) (s : Store) (hx : ∀ x ∈ xs, isTorch x = true) :
    xs.mapM getGrad s = .ok (xs.map (gradObj s), s) := by
  induction xs with
  | nil => rfl
  | cons x xs ih =>
    obtain ⟨a, h, rfl⟩ := leaf_torch x (hx x (by simp))
    have := ih fun y hy => hx y (by simp [hy])
    by_cases hc : (a % 4 == 1 && s.hasGrad a) = true
    · simp only [List.mapM_cons, bind, StateT.bind, Except.bind, getGrad, hc, if_true, this, pure, StateT.pure, Except.pure,
        List.map_cons, gradObj]
    · rw [Bool.not_eq_true] at hc
      simp only [List.mapM_cons, bind, StateT.bind, Except.bind, getGrad, hc, Bool.false_eq_true, if_false, this, pure,
        StateT.pure, Except.pure, List.map_cons, gradObj]

/-! ### The conversions of one object -/

theorem convert_xp2torch (rg : Bool) (o : Obj) (hk : KeysFine isXp o) (s : Store) (hf : rg = true → FloatsOnly s o) :
    ∃ o' s', convertRecursive isXp (xp2torch rg) o s = .ok (o', s') ∧ SameBefore s s' ∧
      Replaced isXp (fun _ x t => TensorOf s s' rg x t) o o' ∧
      ∀ p q, Outermost isXp o p → Outermost isXp o q → objAt o' p = objAt o' q → p = q := by
  obtain ⟨-, hmem, -, hok⟩ := convert_run isXp (xp2torch rg) o hk s
  obtain ⟨ys, s', h1, h2, h3, h4⟩ := mapM_xp2torch rg (iterateRecursive isXp o) s (by
    intro x hx
    obtain ⟨hm, hoc⟩ := hmem x hx
    obtain ⟨a, h, rfl⟩ := leaf_xp x hm
    have ha : a % 4 = 0 := by simpa [isXp] using hm
    refine ⟨a, h, rfl, ha, fun e => ?_⟩
    obtain ⟨p, hp⟩ := objAt_of_occurs hoc
    exact hf e p a h hp ha)
  obtain ⟨o', num, c1, c2, c3, c4⟩ := hok ys s' h1
  have hitem : ∀ p, Outermost isXp o p → ∃ a h, objAt o p = some (.other a h) ∧ a % 4 = 0 ∧
      (iterateRecursive isXp o)[num p]? = some (.other a h) ∧ num p < (iterateRecursive isXp o).length := by
    intro p hp
    obtain ⟨⟨x, hx, hm⟩, _⟩ := id hp
    obtain ⟨a, h, rfl⟩ := leaf_xp x hm
    have e := (c2 p hp).1
    rw [hx] at e
    exact ⟨a, h, hx, by simpa [isXp] using hm, e, (List.getElem?_eq_some_iff.1 e).1⟩
  refine ⟨o', s', c1, h3, ⟨fun p hp => ?_, c4⟩, fun p q hp hq e => ?_⟩
  · obtain ⟨a, h, hx, ha, hi, hlt⟩ := hitem p hp
    obtain ⟨d1, d2, d3, d4⟩ := h4 _ a h hi
    exact ⟨_, _, hx, by rw [(c2 p hp).2, d1], a, h, _, rfl, ha, rfl, by omega, by omega, d2, d3, d4⟩
  · obtain ⟨a, h, _, _, hi, _⟩ := hitem p hp
    obtain ⟨b, k, _, _, hj, _⟩ := hitem q hq
    rw [(c2 p hp).2, (c2 q hq).2, (h4 _ a h hi).1, (h4 _ b k hj).1] at e
    simp only [Option.some.injEq, Obj.other.injEq, and_true] at e
    exact c3 p q hp hq (by omega)

theorem convert_torch2xp (o : Obj) (hk : KeysFine isTorch o) (s : Store) :
    ∃ o' s', convertRecursive isTorch torch2xp o s = .ok (o', s') ∧ SameBefore s s' ∧
      Replaced isTorch (fun _ t y => ArrayOf s s' t y) o o' := by
  obtain ⟨-, hmem, -, hok⟩ := convert_run isTorch torch2xp o hk s
  obtain ⟨ys, s', h1, h2, h3, h4⟩ := mapM_torch2xp (iterateRecursive isTorch o) s fun x hx => (hmem x hx).1
  obtain ⟨o', num, c1, c2, c3, c4⟩ := hok ys s' h1
  refine ⟨o', s', c1, h3, ⟨fun p hp => ?_, c4⟩⟩
  obtain ⟨⟨x, hx, hm⟩, _⟩ := id hp
  obtain ⟨a, h, rfl⟩ := leaf_torch x hm
  have e := (c2 p hp).1
  rw [hx] at e
  have hlt := (List.getElem?_eq_some_iff.1 e).1
  obtain ⟨d1, d2⟩ := h4 _ a h e
  exact ⟨_, _, hx, by rw [(c2 p hp).2, d1], a, h, _, rfl, hm, rfl, by omega, by omega, d2⟩

theorem convert_getGrad (o : Obj) (hk : KeysFine isTorch o) (s : Store) :
    ∃ o', convertRecursive isTorch getGrad o s = .ok (o', s) ∧ Replaced isTorch (fun _ t g => isTorch t = true ∧ g = gradObj s t) o o' := by
  obtain ⟨-, hmem, -, hok⟩ := convert_run isTorch getGrad o hk s
  obtain ⟨o', num, c1, c2, c3, c4⟩ := hok _ _ (mapM_getGrad (iterateRecursive isTorch o) s fun x hx => (hmem x hx).1)
  refine ⟨o', c1, ⟨fun p hp => ?_, c4⟩⟩
  obtain ⟨⟨x, hx, hm⟩, _⟩ := id hp
  have e := (c2 p hp).1
  rw [hx] at e
  exact ⟨x, _, hx, by rw [(c2 p hp).2, List.getElem?_map, e]; rfl, hm, rfl⟩

theorem gradObj_other (s : Store) (t : Obj) (h : isTorch t = true) : ∃ id k, gradObj s t = .other id k := by
  obtain ⟨a, h, rfl⟩ := leaf_torch t h
  simp only [gradObj]
  split
  · exact ⟨_, _, rfl⟩
  · exact ⟨_, _, rfl⟩

/-! ### `ArgsKwargs` around an input -/

theorem occurs_wrapArgs {o s : Obj} (h : Occurs s (wrapArgs o)) : s = wrapArgs o ∨ Occurs s o := by
  cases h with
  | here => exact Or.inl rfl
  | member hc hs =>
    right
    cases o with
    | argsKwargs a k => exact .member hc hs
    | dict kvs => exact .member (by simpa [wrapArgs, members] using hc) hs
    | tup xs => exact .member (by simpa [wrapArgs, members] using hc) hs
    | list xs => exact .member (by simpa [wrapArgs, members] using hc) hs
    | other id k =>
      simp only [wrapArgs, members, List.map_nil, List.append_nil, List.mem_singleton] at hc
      exact hc ▸ hs
    | int n =>
      simp only [wrapArgs, members, List.map_nil, List.append_nil, List.mem_singleton] at hc
      exact hc ▸ hs
    | str n =>
      simp only [wrapArgs, members, List.map_nil, List.append_nil, List.mem_singleton] at hc
      exact hc ▸ hs

theorem wrapArgs_argsKwargs (o : Obj) : ∃ a k, wrapArgs o = .argsKwargs a k := by
  cases o <;> exact ⟨_, _, rfl⟩

theorem keysFine_wrapArgs {m : Obj → Bool} (hm : LeafOnly m) {o : Obj} (hk : KeysFine m o)
    (hn : ∀ kvs, o = .dict kvs → ∀ k ∈ kvs.map Prod.fst, ∃ s, k = .str s) : KeysFine m (wrapArgs o) := by
  rw [keysFine_leaf hm] at hk ⊢
  constructor
  · intro kvs h
    rcases occurs_wrapArgs h with e | h
    · obtain ⟨a, k, e'⟩ := wrapArgs_argsKwargs o
      rw [e'] at e; exact absurd e (by simp)
    · exact hk.1 kvs h
  · intro args kwargs h
    rcases occurs_wrapArgs h with e | h
    · cases o with
      | argsKwargs a k => simp only [wrapArgs] at e; exact hk.2 args kwargs (e ▸ .here)
      | dict kvs =>
        simp only [wrapArgs, Obj.argsKwargs.injEq] at e
        obtain ⟨rfl, rfl⟩ := e
        exact ⟨(hk.1 _ .here).1, hn _ rfl⟩
      | tup xs => simp only [wrapArgs, Obj.argsKwargs.injEq] at e; simp [e.2]
      | list xs => simp only [wrapArgs, Obj.argsKwargs.injEq] at e; simp [e.2]
      | other id k => simp only [wrapArgs, Obj.argsKwargs.injEq] at e; simp [e.2]
      | int n => simp only [wrapArgs, Obj.argsKwargs.injEq] at e; simp [e.2]
      | str n => simp only [wrapArgs, Obj.argsKwargs.injEq] at e; simp [e.2]
    · exact hk.2 args kwargs h

/-- Converting `ArgsKwargs` made of an object is converting the object. -/
theorem convert_wrapArgs (m : Obj → Bool) (f : Obj → Run Obj) (hm : LeafOnly m) (o : Obj) (hk : KeysFine m o)
    (hn : ∀ kvs, o = .dict kvs → ∀ k ∈ kvs.map Prod.fst, ∃ s, k = .str s) (s s' : Store) (o' : Obj)
    (h : convertRecursive m f o s = .ok (o', s')) (ho' : m o = true → ∃ id k, o' = .other id k) :
    convertRecursive m f (wrapArgs o) s = .ok (wrapArgs o', s') := by
  have hw := keysFine_wrapArgs hm hk hn
  have hmw : m (wrapArgs o) = false := by
    by_contra hc
    rw [Bool.not_eq_false] at hc
    obtain ⟨id, k, e⟩ := hm _ hc
    obtain ⟨a, b, e'⟩ := wrapArgs_argsKwargs o
    rw [e'] at e; exact absurd e (by simp)
  have hno : ∀ x : Obj, (∀ id k, x ≠ .other id k) → m x = false := by
    intro x hx
    by_contra hc
    rw [Bool.not_eq_false] at hc
    obtain ⟨id, k, rfl⟩ := hm x hc
    exact hx id k rfl
  have single : (∀ a, wrapArgs a = .argsKwargs [a] [] ∨ a ≠ o) → (wrapArgs o' = .argsKwargs [o'] []) →
      convertRecursive m f (wrapArgs o) s = .ok (wrapArgs o', s') := by
    intro h1 h2
    rcases h1 o with h1 | h1
    · rw [convert_container m f _ hw hmw, h1, h2]
      simp only [members, List.map_nil, List.append_nil, convertList, bind, StateT.bind, Except.bind, h, pure, StateT.pure,
        Except.pure, withMembers, List.length_singleton, List.zip_nil_left, List.take_succ_cons, List.take_zero]
    · exact absurd rfl h1
  cases o with
  | argsKwargs a k =>
    rw [convert_container m f _ hk (hno _ (by simp))] at h
    simp only [bind, StateT.bind, Except.bind, pure, StateT.pure, Except.pure] at h
    rw [wrapArgs, convert_container m f _ hk (hno _ (by simp))]
    simp only [bind, StateT.bind, Except.bind, pure, StateT.pure, Except.pure]
    cases hz : convertList m f (members (.argsKwargs a k)) s with
    | error e => rw [hz] at h; simp at h
    | ok r =>
      rw [hz] at h
      simp only [Except.ok.injEq, Prod.mk.injEq] at h ⊢
      refine ⟨?_, h.2⟩
      rw [← h.1]; rfl
  | dict kvs =>
    rw [convert_container m f _ hk (hno _ (by simp))] at h
    simp only [bind, StateT.bind, Except.bind, pure, StateT.pure, Except.pure] at h
    rw [convert_container m f _ hw hmw]
    simp only [wrapArgs, members, List.nil_append, bind, StateT.bind, Except.bind, pure, StateT.pure, Except.pure] at h ⊢
    cases hz : convertList m f (kvs.map Prod.snd) s with
    | error e => rw [hz] at h; simp at h
    | ok r =>
      rw [hz] at h
      simp only [Except.ok.injEq, Prod.mk.injEq] at h ⊢
      refine ⟨?_, h.2⟩
      rw [← h.1]
      simp [withMembers]
  | tup xs =>
    rw [convert_container m f _ hk (hno _ (by simp))] at h
    rw [convert_container m f _ hw hmw]
    rw [convertList_length m f _ _ (fun zs => pure (wrapArgs (withMembers (.tup xs) zs)))]
    · simp only [wrapArgs, members, List.map_nil, List.append_nil, bind, StateT.bind, Except.bind, pure, StateT.pure,
        Except.pure] at h ⊢
      cases hz : convertList m f xs s with
      | error e => rw [hz] at h; simp at h
      | ok r =>
        rw [hz] at h
        simp only [Except.ok.injEq, Prod.mk.injEq] at h ⊢
        refine ⟨?_, h.2⟩
        rw [← h.1]
    · intro zs hz
      simp only [wrapArgs, members, List.map_nil, List.append_nil] at hz
      simp [wrapArgs, withMembers, ← hz]
  | list xs =>
    rw [convert_container m f _ hk (hno _ (by simp))] at h
    rw [convert_container m f _ hw hmw]
    rw [convertList_length m f _ _ (fun zs => pure (wrapArgs (withMembers (.list xs) zs)))]
    · simp only [wrapArgs, members, List.map_nil, List.append_nil, bind, StateT.bind, Except.bind, pure, StateT.pure,
        Except.pure] at h ⊢
      cases hz : convertList m f xs s with
      | error e => rw [hz] at h; simp at h
      | ok r =>
        rw [hz] at h
        simp only [Except.ok.injEq, Prod.mk.injEq] at h ⊢
        refine ⟨?_, h.2⟩
        rw [← h.1]
    · intro zs hz
      simp only [wrapArgs, members, List.map_nil, List.append_nil] at hz
      simp [wrapArgs, withMembers, ← hz]
  | other id k =>
    refine single (fun a => ?_) ?_
    · by_cases e : a = .other id k
      · subst e; exact Or.inl rfl
      · exact Or.inr e
    · by_cases hmo : m (.other id k) = true
      · obtain ⟨i, j, rfl⟩ := ho' hmo; rfl
      · rw [convert_container m f _ hk (by simpa using hmo)] at h
        simp only [members, convertList, bind, StateT.bind, Except.bind, pure, StateT.pure, Except.pure, withMembers,
          Except.ok.injEq, Prod.mk.injEq] at h
        rw [← h.1]; rfl
  | int n =>
    rw [convert_container m f _ hk (hno _ (by simp))] at h
    refine single (fun a => ?_) ?_
    · by_cases e : a = .int n
      · subst e; exact Or.inl rfl
      · exact Or.inr e
    · simp only [members, convertList, bind, StateT.bind, Except.bind, pure, StateT.pure, Except.pure, withMembers,
          Except.ok.injEq, Prod.mk.injEq] at h
      rw [← h.1]; rfl
  | str n =>
    rw [convert_container m f _ hk (hno _ (by simp))] at h
    refine single (fun a => ?_) ?_
    · by_cases e : a = .str n
      · subst e; exact Or.inl rfl
      · exact Or.inr e
    · simp only [members, convertList, bind, StateT.bind, Except.bind, pure, StateT.pure, Except.pure, withMembers,
          Except.ok.injEq, Prod.mk.injEq] at h
      rw [← h.1]; rfl

theorem calledWith_wrapArgs (o : Obj) (a : List Obj) (k : List (Obj × Obj)) (h : wrapArgs o = .argsKwargs a k) : CalledWith o a k := by
  cases o <;> simp only [wrapArgs, Obj.argsKwargs.injEq] at h <;> obtain ⟨rfl, rfl⟩ := h
  · exact .single _ _
  · exact .int _
  · exact .str _
  · exact .list _
  · exact .tup _
  · exact .dict _
  · exact .argsKwargs _ _

/-- An input comes out of the `ArgsKwargs` as it went in. -/
theorem unwrap_wrap (o o' : Obj) (hl : ∀ xs, o ≠ .list xs) (h : shell o' = shell o ∨ ∃ i j a b, o = .other i j ∧ o' = .other a b) :
    unwrapArgs o (wrapArgs o') = .ok o' := by
  rcases h with h | ⟨i, j, a, b, rfl, rfl⟩
  · cases o with
    | list xs => exact absurd rfl (hl xs)
    | other => cases o' <;> simp [shell] at h; rfl
    | int => cases o' <;> simp [shell] at h; rfl
    | str => cases o' <;> simp [shell] at h; rfl
    | tup => cases o' <;> simp [shell] at h; rfl
    | dict => cases o' <;> simp [shell] at h; rfl
    | argsKwargs => cases o' <;> simp [shell] at h; rfl
  · rfl

theorem Spec.Replaced.top {m : Obj → Bool} (hm : LeafOnly m) {R : List ℕ → Obj → Obj → Prop} {o o' : Obj} (h : Replaced m R o o')
    (hR : ∀ p x x', R p x x' → ∃ id k, x' = .other id k) :
    shell o' = shell o ∨ ∃ i j a b, o = .other i j ∧ o' = .other a b := by
  by_cases hmo : m o = true
  · right
    obtain ⟨x, x', hx, hx', hr⟩ := h.1 [] (outermost_nil.2 hmo)
    simp only [objAt, Option.some.injEq] at hx hx'
    subst hx hx'
    obtain ⟨i, j, e⟩ := hm _ hmo
    obtain ⟨a, b, e'⟩ := hR _ _ _ hr
    exact ⟨i, j, a, b, e, e'⟩
  · left
    have := h.2 [] fun q hq hout => by
      rw [List.prefix_nil.1 hq] at hout
      exact hmo (outermost_nil.1 hout)
    simpa [objAt] using this

theorem shell_trans {a b c : Obj} (h : shell b = shell a ∨ ∃ i j k l, a = .other i j ∧ b = .other k l)
    (h' : shell c = shell b ∨ ∃ i j k l, b = .other i j ∧ c = .other k l) :
    shell c = shell a ∨ ∃ i j k l, a = .other i j ∧ c = .other k l := by
  rcases h with h | ⟨i, j, k, l, rfl, rfl⟩ <;> rcases h' with h' | ⟨i', j', k', l', e, rfl⟩
  · exact Or.inl (h'.trans h)
  · subst e
    exact Or.inr ⟨_, _, _, _, shell_other h.symm, rfl⟩
  · exact Or.inr ⟨_, _, _, _, rfl, shell_other h'⟩
  · exact Or.inr ⟨_, _, _, _, rfl, rfl⟩

theorem names_of_shell {o o' : Obj} (hn : ∀ kvs, o = .dict kvs → ∀ k ∈ kvs.map Prod.fst, ∃ s, k = .str s)
    (h : shell o' = shell o ∨ ∃ i j a b, o = .other i j ∧ o' = .other a b) :
    ∀ kvs, o' = .dict kvs → ∀ k ∈ kvs.map Prod.fst, ∃ s, k = .str s := by
  rintro kvs rfl
  rcases h with h | ⟨i, j, a, b, _, e⟩
  · obtain ⟨kvs', rfl, e⟩ := (shell_keys h).1 kvs rfl
    rw [← e]; exact hn _ rfl
  · exact absurd e (by simp)

theorem tensorOf_other {s s' : Store} {rg : Bool} {x t : Obj} (h : TensorOf s s' rg x t) : ∃ id k, t = .other id k := by
  obtain ⟨_, _, _, _, _, e, _⟩ := h
  exact ⟨_, _, e⟩

theorem arrayOf_other {s s' : Store} {x t : Obj} (h : ArrayOf s s' x t) : ∃ id k, t = .other id k := by
  obtain ⟨_, _, _, _, _, e, _⟩ := h
  exact ⟨_, _, e⟩

/-- The gradients of converted inputs, converted back. -/
theorem reverse_gradients (X Xt : Obj) (hX : PlainInput X) (hl : ∀ xs, X ≠ .list xs) (s0 s1 : Store) (rg : Bool)
    (h : Replaced isXp (fun _ x t => TensorOf s0 s1 rg x t) X Xt) (s : Store) :
    ∃ dXt dX s', convertRecursive isTorch getGrad (wrapArgs Xt) s = .ok (dXt, s) ∧
      reverseInputs Xt dXt s = .ok (dX, s') ∧ SameBefore s s' ∧
      Replaced isXp (fun p _ dx => ∃ t, objAt Xt p = some t ∧ GradientOf s s' t dx) X dX := by
  have hR1 : ∀ (p : List ℕ) (x t : Obj), TensorOf s0 s1 rg x t → ∃ id k, t = .other id k := fun _ _ _ h => tensorOf_other h
  have k1 := h.keysFine hR1 leaf_torch hX.tensors
  have top1 := h.top leaf_xp hR1
  have n1 := names_of_shell hX.names top1
  obtain ⟨D, d1, d2⟩ := convert_getGrad Xt k1 s
  have hR2 : ∀ (p : List ℕ) (x t : Obj), (isTorch x = true ∧ t = gradObj s x) → ∃ id k, t = .other id k :=
    fun _ _ _ h => h.2 ▸ gradObj_other s _ h.1
  have k2 := d2.keysFine hR2 leaf_torch k1
  have top2 := d2.top leaf_torch hR2
  have n2 := names_of_shell n1 top2
  obtain ⟨E, s', e1, e2, e3⟩ := convert_torch2xp D k2 s
  have hR3 : ∀ (p : List ℕ) (x t : Obj), ArrayOf s s' x t → ∃ id k, t = .other id k := fun _ _ _ h => arrayOf_other h
  have top3 := e3.top leaf_torch hR3
  have w1 := convert_wrapArgs isTorch getGrad leaf_torch Xt k1 n1 s s D d1 (fun hm => by
    rcases top2 with h | ⟨_, _, a, b, _, e⟩
    · obtain ⟨i, j, rfl⟩ := leaf_torch _ hm
      exact ⟨_, _, shell_other h⟩
    · exact ⟨a, b, e⟩)
  have w2 := convert_wrapArgs isTorch torch2xp leaf_torch D k2 n2 s s' E e1 (fun hm => by
    rcases top3 with h | ⟨_, _, a, b, _, e⟩
    · obtain ⟨i, j, rfl⟩ := leaf_torch _ hm
      exact ⟨_, _, shell_other h⟩
    · exact ⟨a, b, e⟩)
  have hlt : ∀ xs, Xt ≠ .list xs := by
    rintro xs rfl
    rcases top1 with h | ⟨_, _, _, _, _, e⟩
    · cases X <;> simp [shell] at h
      exact hl _ rfl
    · exact absurd e (by simp)
  refine ⟨_, E, s', w1, ?_, e2, ?_⟩
  · simp only [reverseInputs, bind, StateT.bind, Except.bind, w2]
    rw [unwrap_wrap Xt E hlt (shell_trans top2 top3)]
    rfl
  · have hat := h.mono (R' := fun p x t => objAt Xt p = some t ∧ TensorOf s0 s1 rg x t) (fun p x t _ ht hr => ⟨ht, hr⟩)
    have hc1 := hat.trans d2 (fun _ _ _ h => tensorOf_other h.2) leaf_torch hX.none
    have hc2 := hc1.trans e3 (by
      rintro p x g ⟨t, ⟨_, ht⟩, hg⟩
      rcases hg with ⟨hm, hg⟩ | ⟨hm, rfl⟩
      · exact hR2 p t g hg
      · exact tensorOf_other ht) leaf_torch hX.none
    refine hc2.mono ?_
    rintro p x dx _ _ ⟨g, ⟨t, ⟨htat, ht⟩, hg⟩, hdx⟩
    refine ⟨t, htat, ?_⟩
    obtain ⟨a, h, k, rfl, ha, rfl, hk⟩ := ht
    refine ⟨k, rfl, ?_, ?_⟩
    · intro hgrad
      have hg' : g = .other (4 * k + 2) true := by
        rcases hg with ⟨_, _, hg⟩ | ⟨hm, _⟩
        · rw [hg, gradObj, hgrad, show (4 * k + 1) % 4 = 1 by omega]; rfl
        · exact absurd hm (by rw [Bool.not_eq_false, torch_mod]; omega)
      subst hg'
      have hmt : isTorch (.other (4 * k + 2) true) = true := torch_mod.2 (by omega)
      rcases hdx with ⟨_, i, b, j, e, _, rfl, _, _, hd⟩ | ⟨hm, _⟩
      · injection e with e _
        exact ⟨j, rfl, by rw [hd, e]⟩
      · rw [hmt] at hm; simp at hm
    · intro hgrad
      have hg' : g = pyNone := by
        rcases hg with ⟨_, _, hg⟩ | ⟨hm, _⟩
        · rw [hg, gradObj, hgrad, Bool.and_false]; rfl
        · exact absurd hm (by rw [Bool.not_eq_false, torch_mod]; omega)
      subst hg'
      rcases hdx with ⟨hm, _⟩ | ⟨_, rfl⟩
      · simp [pyNone, isTorch] at hm
      · rfl

/-! ### The theorems -/

/-- C97: a wrapped PyTorch model is called once, with the input in which every array has become a tensor of its own with the
same contents (asking for gradients exactly in training); its output comes back with every tensor turned into an array.  If the
output is one tensor, the callback runs autograd for it and returns the input with every array replaced by its gradient, or
by `None` if it has none.  Lists at the top are in `C97_list`; outputs that are tuples and integer arrays are in
`C97_tuple_outputs` and `C97_integers`. -/
theorem C97_forward_partial (M : Module) (X : Obj) (train : Bool) (s : Store) (hX : PlainInput X) (hl : ∀ xs, X ≠ .list xs)
    (hf : train = true → FloatsOnly s X) :
    ∃ Xt s1 args kwargs, Replaced isXp (fun _ x t => TensorOf s s1 train x t) X Xt ∧ SameBefore s s1 ∧
      (∀ p q, Outermost isXp X p → Outermost isXp X q → objAt Xt p = objAt Xt q → p = q) ∧
      CalledWith Xt args kwargs ∧
      (∀ e, M.call train (.argsKwargs args kwargs) s1 = .error e → M.forward X train s = .error e) ∧
      ∀ Yt s2, M.call train (.argsKwargs args kwargs) s1 = .ok (Yt, s2) → KeysFine isTorch Yt →
        ∃ Y back s3, M.forward X train s = .ok ((Y, back), s3) ∧ SameBefore s2 s3 ∧
          Replaced isTorch (fun _ t y => ArrayOf s2 s3 t y) Yt Y ∧
          (train = true → isTorch Yt = true → BackpropWorks M X Xt Yt back) := by
  obtain ⟨Xt, s1, h1, h2, h3, h4⟩ := convert_xp2torch train X hX.arrays s hf
  obtain ⟨args, kwargs, hw⟩ := wrapArgs_argsKwargs Xt
  refine ⟨Xt, s1, args, kwargs, h3, h2, h4, calledWith_wrapArgs Xt _ _ hw, ?_, ?_⟩
  · intro e he
    simp only [Module.forward, Module.shimCall, bind, StateT.bind, Except.bind, h1, hw, he]
  · intro Yt s2 hc hk
    obtain ⟨Y, s3, y1, y2, y3⟩ := convert_torch2xp Yt hk s2
    refine ⟨Y, fun dY => do
        let dYtorch ← reverseOutputs Yt dY
        let dXtorch ← (if train then M.backprop (.argsKwargs args kwargs) else fun _ => pure pyEllipsis) dYtorch
        reverseInputs Xt dXtorch, s3, ?_, y2, y3, ?_⟩
    · simp only [Module.forward, Module.shimCall, bind, StateT.bind, Except.bind, h1, hw, hc, y1, pure, StateT.pure, Except.pure]
    · rintro rfl hYt dY s4 hdY
      obtain ⟨d, hd, rfl⟩ := leaf_xp dY hdY
      have hd4 : d % 4 = 0 := by simpa [isXp] using hdY
      have hconv : convertRecursive isXp (xp2torch false) (.other d hd) s4 =
          .ok (.other (4 * s4.next + 1) true, s4.newTensor false d) := by
        rw [convertRecursive, if_pos hdY]
        rfl
      have hg : isTorch (.other (4 * s4.next + 1) true) = true := torch_mod.2 (by omega)
      obtain ⟨t, ht, rfl⟩ := leaf_torch Yt hYt
      refine ⟨.other (4 * s4.next + 1) true, s4.newTensor false d, ?_, sameBefore_newTensor _ _ _, ?_, ?_⟩
      · exact ⟨d, hd, s4.next, rfl, hd4, rfl, le_refl _, by simp [Store.newTensor], by simp [Store.newTensor],
          by simp [Store.newTensor], by simp [Store.newTensor]⟩
      · intro e he
        simp only [reverseOutputs, bind, StateT.bind, Except.bind, hconv, pure, StateT.pure, Except.pure, if_true,
          Module.backprop, Module.autograd, asTensors, List.all_cons, hYt, List.all_nil, Bool.and_self, hg, liftE,
          List.length_singleton, he]
      · intro s5 hs5
        obtain ⟨dXt, dX, s6, g1, g2, g3, g4⟩ := reverse_gradients X Xt hX hl s s1 true h3 s5
        refine ⟨dX, s6, ?_, g3, g4⟩
        rw [hw] at g1
        simp only [reverseOutputs, bind, StateT.bind, Except.bind, hconv, pure, StateT.pure, Except.pure, if_true,
          Module.backprop, Module.autograd, asTensors, List.all_cons, hYt, List.all_nil, Bool.and_self, hg, liftE,
          List.length_singleton, hs5, g1, g2]

/-- C97: a list of inputs is treated like a tuple of inputs; so the gradient is a tuple too. -/
theorem C97_list (M : Module) (xs : List Obj) (train : Bool) : M.forward (.list xs) train = M.forward (.tup xs) train := by
  simp only [Module.forward, convertRecursive, isXp, Bool.false_eq_true, if_false, bind_assoc, pure_bind]
  rfl

/-- C97: in training an array of integers anywhere in the input raises. -/
theorem C97_integers (M : Module) (X : Obj) (s : Store) (hX : PlainInput X) (p : List ℕ) (a : ℕ) (h : Bool)
    (hp : objAt X p = some (.other a h)) (ha : a % 4 = 0) (hfl : s.floats a = false) :
    M.forward X true s = .error (.userError 0) := by
  obtain ⟨herr, hmem, hall, -⟩ := convert_run isXp (xp2torch true) X hX.arrays s
  have hxp : isXp (.other a h) = true := by simp [isXp, ha]
  have := herr _ (mapM_xp2torch_error (iterateRecursive isXp X) s (fun x hx => by
    obtain ⟨b, k, rfl⟩ := leaf_xp x (hmem x hx).1
    exact ⟨b, k, rfl, by simpa [isXp] using (hmem _ hx).1⟩)
    ⟨a, h, hall p _ (outermost_leaf leaf_xp hp hxp) hp, hfl⟩)
  simp only [Module.forward, bind, StateT.bind, Except.bind, this]

/-- C97: a model that returns a tuple can be run, but the callback always raises. -/
theorem C97_tuple_outputs (M : Module) (X : Obj) (s s' : Store) (Y : Obj) (back : Obj → Run Obj)
    (hM : ∀ args st Yt st', M.call true args st = .ok (Yt, st') → ∃ ys, Yt = .tup ys)
    (h : M.forward X true s = .ok ((Y, back), s')) : ∀ dY st, ∃ e, back dY st = .error e := by
  simp only [Module.forward, Module.shimCall, bind, StateT.bind, Except.bind] at h
  cases h1 : convertRecursive isXp (xp2torch true) X s with
  | error e => rw [h1] at h; simp at h
  | ok r =>
    rw [h1] at h
    simp only at h
    cases h2 : M.call true (wrapArgs r.1) r.2 with
    | error e => rw [h2] at h; simp at h
    | ok r2 =>
      rw [h2] at h
      obtain ⟨ys, hys⟩ := hM _ _ _ _ h2
      simp only [pure, StateT.pure, Except.pure] at h
      cases h3 : convertRecursive isTorch torch2xp r2.1 r2.2 with
      | error e => rw [h3] at h; simp at h
      | ok r3 =>
        rw [h3] at h
        simp only [Except.ok.injEq, Prod.mk.injEq] at h
        intro dY st
        rw [← h.1.2]
        simp only [reverseOutputs, bind, StateT.bind, Except.bind, if_true, Module.backprop, Module.autograd, hys, asTensors,
          List.all_cons, isTorch, Bool.false_and, Bool.false_eq_true, if_false, liftE, pure, StateT.pure, Except.pure]
        cases h4 : convertRecursive isXp (xp2torch false) dY st with
        | error e => exact ⟨e, rfl⟩
        | ok r4 => exact ⟨.typeError, rfl⟩

theorem convertList_run_length (m : Obj → Bool) (f : Obj → Run Obj) (xs : List Obj) : ∀ (s s' : Store) (ys : List Obj),
    convertList m f xs s = .ok (ys, s') → ys.length = xs.length := by
  induction xs with
  | nil =>
    intro s s' ys h
    rw [convertList] at h
    simp only [pure, StateT.pure, Except.pure, Except.ok.injEq, Prod.mk.injEq] at h
    rw [← h.1]
  | cons x xs ih =>
    intro s s' ys h
    rw [convertList] at h
    simp only [bind, StateT.bind, Except.bind] at h
    cases h1 : convertRecursive m f x s with
    | error e => rw [h1] at h; simp at h
    | ok r =>
      rw [h1] at h
      simp only at h
      cases h2 : convertList m f xs r.2 with
      | error e => rw [h2] at h; simp at h
      | ok r2 =>
        rw [h2] at h
        simp only [pure, StateT.pure, Except.pure, Except.ok.injEq, Prod.mk.injEq] at h
        rw [← h.1, List.length_cons, List.length_cons, ih r.2 r2.2 r2.1 h2]

/-- C97: the module has one output for autograd, so a tuple or list of gradients that has no or several members raises. -/
theorem C97_gradient_count (M : Module) (X : Obj) (s s' : Store) (Y : Obj) (back : Obj → Run Obj)
    (h : M.forward X true s = .ok ((Y, back), s')) (dYs : List Obj) (hn : dYs.length ≠ 1) (st : Store) :
    (∃ e, back (.tup dYs) st = .error e) ∧ ∃ e, back (.list dYs) st = .error e := by
  simp only [Module.forward, Module.shimCall, bind, StateT.bind, Except.bind] at h
  cases h1 : convertRecursive isXp (xp2torch true) X s with
  | error e => rw [h1] at h; simp at h
  | ok r =>
    rw [h1] at h
    simp only at h
    cases h2 : M.call true (wrapArgs r.1) r.2 with
    | error e => rw [h2] at h; simp at h
    | ok r2 =>
      rw [h2] at h
      simp only [pure, StateT.pure, Except.pure] at h
      cases h3 : convertRecursive isTorch torch2xp r2.1 r2.2 with
      | error e => rw [h3] at h; simp at h
      | ok r3 =>
        rw [h3] at h
        simp only [Except.ok.injEq, Prod.mk.injEq] at h
        rw [← h.1.2]
        have key : ∀ dY gs st', convertRecursive isXp (xp2torch false) dY st = .ok (gs, st') →
            ((∃ zs, gs = .tup zs ∧ zs.length ≠ 1) ∨ ∃ zs, gs = .list zs ∧ zs.length ≠ 1) →
            ∃ e, (do
              let dYtorch ← reverseOutputs r2.1 dY
              let dXtorch ← (if true = true then M.backprop (wrapArgs r.1) else fun _ => pure pyEllipsis) dYtorch
              reverseInputs r.1 dXtorch : Run Obj) st = .error e := by
          intro dY gs st' hc hz
          simp only [reverseOutputs, bind, StateT.bind, Except.bind, hc, if_true, Module.backprop, Module.autograd, liftE,
            pure, StateT.pure, Except.pure]
          cases ht : asTensors (.tup [r2.1]) with
          | error e => exact ⟨e, rfl⟩
          | ok ts =>
            have hts : ts.length = 1 := by
              simp only [asTensors] at ht
              split at ht
              · injection ht with ht; rw [← ht]; rfl
              · simp at ht
            cases hg : asTensors gs with
            | error e => exact ⟨e, rfl⟩
            | ok gl =>
              have hgl : gl.length ≠ 1 := by
                rcases hz with ⟨zs, rfl, hz⟩ | ⟨zs, rfl, hz⟩ <;>
                · simp only [asTensors] at hg
                  split at hg
                  · injection hg with hg; rw [← hg]; exact hz
                  · simp at hg
              simp only [StateT.pure, pure, Except.pure, hts, if_neg (Ne.symm hgl)]
              exact ⟨.userError 0, rfl⟩
        constructor
        · cases hc : convertRecursive isXp (xp2torch false) (.tup dYs) st with
          | error e => exact ⟨e, by simp only [reverseOutputs, bind, StateT.bind, Except.bind, hc]⟩
          | ok gs =>
            refine key (.tup dYs) gs.1 gs.2 hc (.inl ?_)
            rw [convertRecursive, if_neg (by simp [isXp])] at hc
            simp only [bind, StateT.bind, Except.bind] at hc
            cases hl : convertList isXp (xp2torch false) dYs st with
            | error e => rw [hl] at hc; simp at hc
            | ok q =>
              rw [hl] at hc
              simp only [pure, StateT.pure, Except.pure, Except.ok.injEq] at hc
              exact ⟨q.1, by rw [← hc], by rw [convertList_run_length _ _ _ _ _ _ hl]; exact hn⟩
        · cases hc : convertRecursive isXp (xp2torch false) (.list dYs) st with
          | error e => exact ⟨e, by simp only [reverseOutputs, bind, StateT.bind, Except.bind, hc]⟩
          | ok gs =>
            refine key (.list dYs) gs.1 gs.2 hc (.inr ?_)
            rw [convertRecursive, if_neg (by simp [isXp])] at hc
            simp only [bind, StateT.bind, Except.bind] at hc
            cases hl : convertList isXp (xp2torch false) dYs st with
            | error e => rw [hl] at hc; simp at hc
            | ok q =>
              rw [hl] at hc
              simp only [pure, StateT.pure, Except.pure, Except.ok.injEq] at hc
              exact ⟨q.1, by rw [← hc], by rw [convertList_run_length _ _ _ _ _ _ hl]; exact hn⟩

/-- C97: a wrapped recurrent network gets the padded array as a tensor, followed by `None`.  The first of its two outputs comes
back as a padded batch with the sizes, lengths and order of the input. -/
theorem C97_rnn (M : Module) (Xp : PaddedObj) (train : Bool) (s : Store) (hX : isXp Xp.data = true)
    (hf : FloatsOnly s Xp.data) :
    ∃ Xt s1, TensorOf s s1 true Xp.data Xt ∧ SameBefore s s1 ∧
      (∀ e, M.call train (.argsKwargs [Xt, pyNone] []) s1 = .error e → M.forwardRnn Xp train s = .error e) ∧
      ∀ Yt state s2, M.call train (.argsKwargs [Xt, pyNone] []) s1 = .ok (.tup [Yt, state], s2) → isTorch Yt = true →
        ∃ Y back s3, M.forwardRnn Xp train s = .ok ((⟨Y, Xp.sizeAtT, Xp.lengths, Xp.indices⟩, back), s3) ∧
          SameBefore s2 s3 ∧ ArrayOf s2 s3 Yt Y ∧
          (train = true → ∀ (dYp : PaddedObj) (s4 : Store), isXp dYp.data = true → FloatsOnly s4 dYp.data →
            ∃ g s5, TensorOf s4 s5 true dYp.data g ∧ SameBefore s4 s5 ∧
              (∀ e, M.backward [Yt] [g] s5 = .error e → back dYp s4 = .error e) ∧
              ∀ s6, M.backward [Yt] [g] s5 = .ok ((), s6) →
                (∀ id h, Xt = .other id h → s6.hasGrad id = true) →
                ∃ dX s7, back dYp s4 = .ok (⟨dX, Xp.sizeAtT, Xp.lengths, Xp.indices⟩, s7) ∧ SameBefore s6 s7 ∧
                  GradientOf s6 s7 Xt dX) := by
  obtain ⟨x, xs, xl, xi⟩ := Xp
  simp only at hX hf ⊢
  obtain ⟨a, ha, rfl⟩ := leaf_xp x hX
  have ha4 : a % 4 = 0 := by simpa [isXp] using hX
  have hfl := hf [] a ha rfl ha4
  have hconv : xp2torch true (.other a ha) s = .ok (.other (4 * s.next + 1) true, s.newTensor true a) := by
    simp [xp2torch, hfl]
  have htx : isTorch (.other (4 * s.next + 1) true) = true := torch_mod.2 (by omega)
  refine ⟨.other (4 * s.next + 1) true, s.newTensor true a, ⟨a, ha, s.next, rfl, ha4, rfl, le_refl _, by simp [Store.newTensor],
    by simp [Store.newTensor], by simp [Store.newTensor], by simp [Store.newTensor]⟩, sameBefore_newTensor _ _ _, ?_, ?_⟩
  · intro e he
    simp only [Module.forwardRnn, Module.shimCall, bind, StateT.bind, Except.bind, hconv, he]
  · intro Yt state s2 hc hY
    obtain ⟨t, ht, rfl⟩ := leaf_torch Yt hY
    have hy : torch2xp (.other t ht) s2 = .ok (.other (4 * s2.next) false, s2.newArray t) := by
      simp only [torch2xp, hY, if_true]
    refine ⟨.other (4 * s2.next) false, fun dYp => do
        let dYtorch ← xp2torch true dYp.data
        let dXtorch ← (if train then M.backprop (.argsKwargs [.other (4 * s.next + 1) true, pyNone] []) else
          fun _ => pure pyEllipsis) (.other t ht, dYtorch)
        let d ← liftE (getArg0 dXtorch)
        let dX ← torch2xp d
        pure ⟨dX, xs, xl, xi⟩, s2.newArray t, ?_, sameBefore_newArray _ _, ?_, ?_⟩
    · simp only [Module.forwardRnn, Module.shimCall, bind, StateT.bind, Except.bind, hconv, hc, pure, StateT.pure, Except.pure,
        unpackPair, liftE, hy]
    · exact ⟨t, ht, s2.next, rfl, hY, rfl, le_refl _, by simp [Store.newArray], by simp [Store.newArray]⟩
    · rintro rfl ⟨y, ys, yl, yi⟩ s4 hdY hdf
      simp only at hdY hdf ⊢
      obtain ⟨d, hd, rfl⟩ := leaf_xp y hdY
      have hd4 : d % 4 = 0 := by simpa [isXp] using hdY
      have hdfl := hdf [] d hd rfl hd4
      have hconv' : xp2torch true (.other d hd) s4 = .ok (.other (4 * s4.next + 1) true, s4.newTensor true d) := by
        simp [xp2torch, hdfl]
      have hg : isTorch (.other (4 * s4.next + 1) true) = true := torch_mod.2 (by omega)
      refine ⟨.other (4 * s4.next + 1) true, s4.newTensor true d, ⟨d, hd, s4.next, rfl, hd4, rfl, le_refl _,
        by simp [Store.newTensor], by simp [Store.newTensor], by simp [Store.newTensor], by simp [Store.newTensor]⟩,
        sameBefore_newTensor _ _ _, ?_, ?_⟩
      · intro e he
        simp only [bind, StateT.bind, Except.bind, hconv', pure, StateT.pure, Except.pure, if_true,
          Module.backprop, Module.autograd, asTensors, hY, hg, liftE, List.length_singleton, he]
      · intro s6 hs6 hgr
        have hgr := hgr _ _ rfl
        have hcv : convertRecursive isTorch getGrad (.argsKwargs [.other (4 * s.next + 1) true, pyNone] []) s6 =
            .ok (.argsKwargs [.other (4 * s.next + 2) true, pyNone] [], s6) := by
          simp [convertRecursive, convertArgs, convertKwargs, isTorch, pyNone, getGrad, hgr, fromItems, liftE, bind, StateT.bind,
            Except.bind, pure, StateT.pure, Except.pure]
          rfl
        have htg : isTorch (.other (4 * s.next + 2) true) = true := torch_mod.2 (by omega)
        refine ⟨.other (4 * s6.next) false, s6.newArray (4 * s.next + 2), ?_, sameBefore_newArray _ _, ?_⟩
        · simp only [bind, StateT.bind, Except.bind, hconv', pure, StateT.pure, Except.pure, if_true,
            Module.backprop, Module.autograd, asTensors, hY, hg, liftE, List.length_singleton, hs6, hcv, getArg0, getArgs,
            torch2xp, htg]
        · refine ⟨s.next, rfl, fun _ => ⟨s6.next, rfl, by simp [Store.newArray]⟩, fun h => ?_⟩
          rw [hgr] at h; simp at h

/-- A module whose result is not a pair cannot be used: ValueError for a tuple or list of another length, TypeError for
anything that cannot be unpacked. -/
theorem C97_rnn_needs_pair (M : Module) (Xp : PaddedObj) (train : Bool) (s : Store) (Xt : Obj) (s1 : Store)
    (hc : xp2torch true Xp.data s = .ok (Xt, s1)) (out : Obj) (s2 : Store)
    (ho : M.call train (.argsKwargs [Xt, pyNone] []) s1 = .ok (out, s2)) :
    (∀ xs, out = .tup xs ∨ out = .list xs → xs.length ≠ 2 → M.forwardRnn Xp train s = .error .valueError) ∧
    ((∀ xs, out ≠ .tup xs ∧ out ≠ .list xs) → M.forwardRnn Xp train s = .error .typeError) := by
  constructor
  · intro xs hx hl
    have hu : unpackPair out = .error .valueError := by
      rcases hx with rfl | rfl <;> match xs, hl with
        | [], _ => rfl
        | [_], _ => rfl
        | [_, _], h => exact absurd rfl h
        | _ :: _ :: _ :: _, _ => rfl
    simp only [Module.forwardRnn, Module.shimCall, bind, StateT.bind, Except.bind, hc, ho, pure, StateT.pure, Except.pure, hu, liftE]
    rfl
  · intro hx
    have hu : unpackPair out = .error .typeError := by
      cases out with
      | tup xs => exact absurd rfl (hx xs).1
      | list xs => exact absurd rfl (hx xs).2
      | _ => rfl
    simp only [Module.forwardRnn, Module.shimCall, bind, StateT.bind, Except.bind, hc, ho, pure, StateT.pure, Except.pure, hu, liftE]
    rfl

/-- C97 fails for lists: whatever the module does, the gradient of a list is a tuple. -/
theorem C97_list_gradient (M : Module) (xs : List Obj) (s s' : Store) (Y : Obj) (back : Obj → Run Obj)
    (h : M.forward (.list xs) true s = .ok ((Y, back), s')) (dY dX : Obj) (st st' : Store)
    (hb : back dY st = .ok (dX, st')) : ∃ ds, dX = .tup ds := by
  have hl : convertRecursive isXp (xp2torch true) (.list xs) = (do return .list (← convertList isXp (xp2torch true) xs)) := by
    rw [convertRecursive, if_neg (by simp [isXp])]
  simp only [Module.forward, Module.shimCall, hl, bind, StateT.bind, Except.bind, pure, StateT.pure, Except.pure] at h
  cases h1 : convertList isXp (xp2torch true) xs s with
  | error e => rw [h1] at h; simp at h
  | ok r =>
    rw [h1] at h
    simp only at h
    cases h2 : M.call true (wrapArgs (.list r.1)) r.2 with
    | error e => rw [h2] at h; simp at h
    | ok r2 =>
      rw [h2] at h
      simp only at h
      cases h3 : convertRecursive isTorch torch2xp r2.1 r2.2 with
      | error e => rw [h3] at h; simp at h
      | ok r3 =>
        rw [h3] at h
        simp only [Except.ok.injEq, Prod.mk.injEq] at h
        rw [← h.1.2] at hb
        simp only [if_true, bind, StateT.bind, Except.bind] at hb
        cases h4 : reverseOutputs r2.1 dY st with
        | error e => rw [h4] at hb; simp at hb
        | ok r4 =>
          rw [h4] at hb
          simp only at hb
          cases h5 : M.backprop (wrapArgs (.list r.1)) r4.1 r4.2 with
          | error e => rw [h5] at hb; simp at hb
          | ok r5 =>
            rw [h5] at hb
            simp only [reverseInputs, bind, StateT.bind, Except.bind] at hb
            cases h6 : convertRecursive isTorch torch2xp r5.1 r5.2 with
            | error e => rw [h6] at hb; simp at hb
            | ok r6 =>
              rw [h6] at hb
              simp only [unwrapArgs] at hb
              cases h7 : getArgs r6.1 with
              | error e => simp [h7, liftE, Except.map, throw, throwThe, MonadExceptOf.throw, StateT.lift, bind, Except.bind] at hb
              | ok ds =>
                simp only [h7, Except.map, liftE, pure, StateT.pure, Except.pure, Except.ok.injEq, Prod.mk.injEq] at hb
                exact ⟨ds, hb.1.symm⟩

/-! ### A case -/

namespace TorchCase

/-- Two arrays, the second in a list with a number. -/
def X : Obj := .tup [.other 0 false, .list [.other 4 false, .int 3]]

/-- Their contents. -/
def store : Store where
  next := 10
  data id := if id = 0 then [1, 2] else if id = 4 then [3, 4] else []
  floats _ := true
  requiresGrad _ := false
  hasGrad _ := false

/-- A module that returns a tensor with zeros, and whose backward pass gives all tensors so far a gradient. -/
def M : Module where
  call _ _ := fun s => .ok (.other (4 * s.next + 1) true, { s with
    next := s.next + 1, data := Function.update s.data (4 * s.next + 1) [0, 0] })
  backward _ _ := fun s => .ok ((), { s with hasGrad := fun _ => true })

theorem plain : PlainInput X := by
  have key : ∀ o, Occurs o X → o = X ∨ o = .other 0 false ∨ o = .list [.other 4 false, .int 3] ∨ o = .other 4 false ∨ o = .int 3 := by
    intro o h
    rcases h with _ | ⟨hc, h⟩
    · exact Or.inl rfl
    · simp [X, members] at hc
      rcases hc with rfl | rfl
      · rcases h with _ | ⟨hc, h⟩
        · simp
        · simp [members] at hc
      · rcases h with _ | ⟨hc, h⟩
        · simp
        · simp [members] at hc
          rcases hc with rfl | rfl <;> (rcases h with _ | ⟨hc, h⟩; · simp) <;> simp [members] at hc
  have nd : ∀ kvs, ¬ Occurs (.dict kvs) X := fun kvs h => by
    rcases key _ h with h | h | h | h | h <;> simp [X] at h
  have na : ∀ a k, ¬ Occurs (.argsKwargs a k) X := fun a k h => by
    rcases key _ h with h | h | h | h | h <;> simp [X] at h
  refine ⟨⟨fun kvs h => absurd h (nd kvs), fun a k h => absurd h (na a k)⟩,
    ⟨fun kvs h => absurd h (nd kvs), fun a k h => absurd h (na a k)⟩, ?_, fun kvs h => by simp [X] at h⟩
  intro s h
  rcases key _ h with rfl | rfl | rfl | rfl | rfl <;> rfl

/-- `C97_forward_partial` applies, with a module that returns one tensor and gives gradients to its inputs. -/
example : PlainInput X ∧ (∀ xs, X ≠ .list xs) ∧ FloatsOnly store X ∧
    (∀ args s, ∃ Yt s', M.call true args s = .ok (Yt, s') ∧ isTorch Yt = true ∧ KeysFine isTorch Yt) ∧
    ∃ p q, p ≠ q ∧ Outermost isXp X p ∧ Outermost isXp X q := by
  refine ⟨plain, by simp [X], fun _ _ _ _ _ => rfl, fun args s => ⟨_, _, rfl, torch_mod.2 (by omega),
    (keysFine_leaf leaf_torch _).2 ⟨fun _ h => by rcases h with _ | ⟨hc, h⟩; simp [members] at hc,
      fun _ _ h => by rcases h with _ | ⟨hc, h⟩; simp [members] at hc⟩⟩, [0], [1, 0], by simp, ?_, ?_⟩
  · exact outermost_leaf leaf_xp (o := X) (x := .other 0 false) rfl rfl
  · exact outermost_leaf leaf_xp (o := X) (x := .other 4 false) rfl rfl

/-- `C97_integers` and `C97_rnn` apply. -/
example : objAt X [1, 0] = some (.other 4 false) ∧ ({ store with floats := fun id => id != 4 } : Store).floats 4 = false ∧
    isXp (.other 0 false) = true ∧ FloatsOnly store (.other 0 false) :=
  ⟨rfl, rfl, rfl, fun _ _ _ _ _ => rfl⟩

end TorchCase

end Thinc
