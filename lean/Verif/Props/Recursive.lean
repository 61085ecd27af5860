import Verif.Spec.Recursive
import Mathlib.Data.List.Basic
import Mathlib.Tactic.Common
/-!
# C65: convert_recursive and iterate_recursive
-/
namespace Thinc
open Spec Obj

/-- The equation for `ArgsKwargs` as it is in the code. -/
theorem convertRecursive_argsKwargs {m : Type → Type} [Monad m] [LawfulMonad m] [MonadExcept PyErr m] (isMatch : Obj → Bool)
    (f : Obj → m Obj) (args : List Obj) (kwargs : List (Obj × Obj)) (h : isMatch (argsKwargs args kwargs) = false) :
    convertRecursive isMatch f (argsKwargs args kwargs) = (do
      let converted ← convertRecursive isMatch f (list (items args kwargs))
      liftE (fromItems converted)) := by
  have hA : ∀ (as : List Obj) (i : ℕ) (rest : List Obj), convertList isMatch f (argItems i as ++ rest) =
      (do let y ← convertArgs isMatch f i as
          let ys ← convertList isMatch f rest
          pure (y ++ ys)) := by
    intro as
    induction as with
    | nil => intro i rest; simp [argItems, convertArgs]
    | cons a as ih =>
      intro i rest
      simp only [argItems, List.cons_append, convertList, convertArgs, ih]
      by_cases hm : isMatch (tup [int i, a]) = true
      · simp [convertRecursive, hm]
      · by_cases hi : isMatch (int i) = true <;> simp [convertRecursive, convertList, hm, hi]
  have hK : ∀ kw : List (Obj × Obj), convertList isMatch f (kw.map fun kv => tup [kv.1, kv.2]) = convertKwargs isMatch f kw := by
    intro kw
    induction kw with
    | nil => simp [convertList, convertKwargs]
    | cons kv kw ih =>
      obtain ⟨k, v⟩ := kv
      simp only [List.map_cons, convertList, convertKwargs, ih]
      by_cases hm : isMatch (tup [k, v]) = true <;> simp [convertRecursive, convertList, hm]
  rw [convertRecursive, if_neg (by simp [h]), convertRecursive]
  by_cases hl : isMatch (list (items args kwargs)) = true
  · simp [hl]
  · rw [if_neg hl, if_neg hl, items, hA, hK]
    simp

theorem iterateRecursive_argsKwargs (isMatch : Obj → Bool) (args : List Obj) (kwargs : List (Obj × Obj))
    (h : isMatch (argsKwargs args kwargs) = false) :
    iterateRecursive isMatch (argsKwargs args kwargs) = iterateRecursive isMatch (list (items args kwargs)) := by
  have hA : ∀ (as : List Obj) (i : ℕ) (rest : List Obj), iterateList isMatch (argItems i as ++ rest) =
      iterateArgs isMatch i as ++ iterateList isMatch rest := by
    intro as
    induction as with
    | nil => intro i rest; simp [argItems, iterateArgs]
    | cons a as ih =>
      intro i rest
      simp only [argItems, List.cons_append, iterateList, iterateArgs, ih]
      by_cases hm : isMatch (tup [int i, a]) = true
      · simp [iterateRecursive, hm]
      · by_cases hi : isMatch (int i) = true <;> simp [iterateRecursive, iterateList, hm, hi]
  have hK : ∀ kw : List (Obj × Obj), iterateList isMatch (kw.map fun kv => tup [kv.1, kv.2]) = iterateKwargs isMatch kw := by
    intro kw
    induction kw with
    | nil => simp [iterateList, iterateKwargs]
    | cons kv kw ih =>
      obtain ⟨k, v⟩ := kv
      simp only [List.map_cons, iterateList, iterateKwargs, ih]
      by_cases hm : isMatch (tup [k, v]) = true <;> simp [iterateRecursive, iterateList, hm]
  rw [iterateRecursive, if_neg (by simp [h]), iterateRecursive]
  by_cases hl : isMatch (list (items args kwargs)) = true
  · simp [hl]
  · rw [if_neg hl, if_neg hl, items, hA, hK]

/-! ### Helpers -/

theorem members_size {o c : Obj} (h : c ∈ members o) : sizeOf c < sizeOf o := by
  cases o with
  | list xs => have := List.sizeOf_lt_of_mem (as := xs) h; simp; omega
  | tup xs => have := List.sizeOf_lt_of_mem (as := xs) h; simp; omega
  | dict kvs =>
    obtain ⟨⟨k, v⟩, hkv, rfl⟩ := List.mem_map.1 h
    have := List.sizeOf_lt_of_mem hkv
    simp at this ⊢; omega
  | argsKwargs as kvs =>
    rcases List.mem_append.1 h with h | h
    · have := List.sizeOf_lt_of_mem h; simp; omega
    · obtain ⟨⟨k, v⟩, hkv, rfl⟩ := List.mem_map.1 h
      have := List.sizeOf_lt_of_mem hkv
      simp at this ⊢; omega
  | other => simp [members] at h
  | int => simp [members] at h
  | str => simp [members] at h

theorem Obj.ind {P : Obj → Prop} (h : ∀ o, (∀ c ∈ members o, P c) → P o) : ∀ o, P o := by
  intro o
  induction hn : sizeOf o using Nat.strongRecOn generalizing o with
  | ind n ih => exact h o fun c hc => ih _ (hn ▸ members_size hc) c rfl

section
variable {m : Type → Type} [Monad m] [LawfulMonad m] [MonadExcept PyErr m] (isMatch : Obj → Bool) (f : Obj → m Obj)

theorem convertList_append (xs ys : List Obj) : convertList isMatch f (xs ++ ys) =
    (do let a ← convertList isMatch f xs
        let b ← convertList isMatch f ys
        pure (a ++ b)) := by
  induction xs with
  | nil => simp [convertList]
  | cons x xs ih => simp [convertList, ih]

theorem iterateList_append (xs ys : List Obj) :
    iterateList isMatch (xs ++ ys) = iterateList isMatch xs ++ iterateList isMatch ys := by
  induction xs with
  | nil => simp [iterateList]
  | cons x xs ih => simp [iterateList, ih]

theorem hashableAll_iff (xs : List Obj) : hashableAll xs = true ↔ ∀ x ∈ xs, x.hashable = true := by
  induction xs with
  | nil => simp [hashableAll]
  | cons x xs ih => simp [hashableAll, ih]

/-- A key without matches is not changed, and yields nothing. -/
theorem convert_key : ∀ k : Obj, k.hashable = true → (∀ s, Occurs s k → isMatch s = false) →
    convertRecursive isMatch f k = pure k ∧ iterateRecursive isMatch k = [] := by
  refine Obj.ind fun k ih hk hs => ?_
  have h0 := hs k .here
  cases k with
  | other => simp [convertRecursive, iterateRecursive, h0]
  | int => simp [convertRecursive, iterateRecursive, h0]
  | str => simp [convertRecursive, iterateRecursive, h0]
  | list => simp [Obj.hashable] at hk
  | dict => simp [Obj.hashable] at hk
  | argsKwargs => simp [Obj.hashable] at hk
  | tup xs =>
    rw [Obj.hashable, hashableAll_iff] at hk
    have : convertList isMatch f xs = pure xs ∧ iterateList isMatch xs = [] := by
      have hx : ∀ x ∈ xs, convertRecursive isMatch f x = pure x ∧ iterateRecursive isMatch x = [] := fun x hx =>
        ih x hx (hk x hx) fun s h => hs s (.member hx h)
      clear ih hk hs h0
      induction xs with
      | nil => simp [convertList, iterateList]
      | cons x xs ih =>
        have h1 := hx x (by simp)
        have h2 := ih fun y hy => hx y (by simp [hy])
        simp [convertList, iterateList, h1, h2]
    simp [convertRecursive, iterateRecursive, h0, this]

theorem PyDict.set_new {κ α : Type} [DecidableEq κ] (d : PyDict κ α) (k : κ) (v : α) (h : k ∉ d.map Prod.fst) :
    PyDict.set d k v = d ++ [(k, v)] := by
  induction d with
  | nil => rfl
  | cons kv d ih =>
    obtain ⟨k', v'⟩ := kv
    simp only [List.map_cons, List.mem_cons, not_or] at h
    rw [PyDict.set, if_neg (fun e => h.1 e.symm), ih h.2]
    rfl

theorem convertDict_eq (kvs : List (Obj × Obj)) : ∀ acc : List (Obj × Obj), ((acc ++ kvs).map Prod.fst).Nodup →
    (∀ k ∈ kvs.map Prod.fst, k.hashable = true ∧ ∀ s, Occurs s k → isMatch s = false) →
    convertDict isMatch f kvs acc = (do
      let vs ← convertList isMatch f (kvs.map Prod.snd)
      pure (acc ++ (kvs.map Prod.fst).zip vs)) := by
  induction kvs with
  | nil => intro acc _ _; simp [convertDict, convertList]
  | cons kv kvs ih =>
    obtain ⟨k, v⟩ := kv
    intro acc hnd hk
    have hkk := hk k (by simp)
    have hnew : k ∉ acc.map Prod.fst := by
      rw [List.map_append] at hnd
      intro hin
      exact (List.nodup_append.1 hnd).2.2 k hin k (by simp) rfl
    rw [convertDict, (convert_key isMatch f k hkk.1 hkk.2).1]
    have e : ∀ v', convertDict isMatch f kvs (acc ++ [(k, v')]) = _ := fun v' => ih (acc ++ [(k, v')]) (by simpa using hnd)
      fun k' hk' => hk k' (by simp at hk' ⊢; exact Or.inr hk')
    simp [setItem, hkk.1, PyDict.set_new _ _ _ hnew, liftE, e, convertList]

theorem iterateDict_eq (kvs : List (Obj × Obj))
    (hk : ∀ k ∈ kvs.map Prod.fst, k.hashable = true ∧ ∀ s, Occurs s k → isMatch s = false) :
    iterateDict isMatch kvs = iterateList isMatch (kvs.map Prod.snd) := by
  induction kvs with
  | nil => simp [iterateDict, iterateList]
  | cons kv kvs ih =>
    obtain ⟨k, v⟩ := kv
    have hkk := hk k (by simp)
    rw [iterateDict, (convert_key (m := Except PyErr) isMatch .ok k hkk.1 hkk.2).2,
      ih fun k' hk' => hk k' (by simp at hk' ⊢; exact Or.inr hk')]
    simp [iterateList]

theorem argItems_mem (as : List Obj) (i j : ℕ) (hj : j < as.length) : tup [int ((i + j : ℕ) : Int), as[j]] ∈ argItems i as := by
  induction as generalizing i j with
  | nil => simp at hj
  | cons a as ih =>
    cases j with
    | zero => simp [argItems]
    | succ j =>
      have := ih (i + 1) j (by simpa using hj)
      rw [argItems]
      refine List.mem_cons_of_mem _ ?_
      rw [show i + (j + 1) = i + 1 + j by omega]
      simpa using this

theorem convertArgs_eq (as : List Obj) : ∀ i : ℕ, (∀ item ∈ argItems i as, isMatch item = false) →
    (∀ j < as.length, isMatch (int ((i + j : ℕ) : Int)) = false) →
    convertArgs isMatch f i as = (do
      let ys ← convertList isMatch f as
      pure (argItems i ys)) ∧ iterateArgs isMatch i as = iterateList isMatch as := by
  induction as with
  | nil => intro i _ _; simp [convertArgs, convertList, argItems, iterateArgs, iterateList]
  | cons a as ih =>
    intro i h1 h2
    have a1 := h1 (tup [int i, a]) (by simp [argItems])
    have a2 : isMatch (int i) = false := by simpa using h2 0 (by simp)
    obtain ⟨e1, e2⟩ := ih (i + 1) (fun it hit => h1 it (by simp [argItems, hit])) fun j hj => by
      have := h2 (j + 1) (by simpa using hj)
      rwa [show i + (j + 1) = i + 1 + j by omega] at this
    constructor
    · simp [convertArgs, convertList, a1, a2, e1, argItems]
    · simp [iterateArgs, iterateList, a1, a2, e2]

theorem convertKwargs_eq (kvs : List (Obj × Obj)) (hk : ∀ k ∈ kvs.map Prod.fst, (∃ s, k = .str s) ∧ isMatch k = false)
    (hi : ∀ kv ∈ kvs, isMatch (tup [kv.1, kv.2]) = false) :
    convertKwargs isMatch f kvs = (do
      let vs ← convertList isMatch f (kvs.map Prod.snd)
      pure (((kvs.map Prod.fst).zip vs).map fun kv => tup [kv.1, kv.2])) ∧
    iterateKwargs isMatch kvs = iterateList isMatch (kvs.map Prod.snd) := by
  induction kvs with
  | nil => simp [convertKwargs, convertList, iterateKwargs, iterateList]
  | cons kv kvs ih =>
    obtain ⟨k, v⟩ := kv
    obtain ⟨e1, e2⟩ := ih (fun k' hk' => hk k' (by simp at hk' ⊢; exact Or.inr hk')) fun kv hkv => hi kv (by simp [hkv])
    have a1 := hi (k, v) (by simp)
    obtain ⟨⟨s, rfl⟩, a2⟩ := hk k (by simp)
    constructor
    · simp [convertKwargs, convertList, convertRecursive, a1, a2, e1]
    · simp [iterateKwargs, iterateList, iterateRecursive, a1, a2, e2]

theorem forM'_app {σ ε β : Type} (xs ys : List β) (s : σ) (g : σ → β → Except ε σ) :
    forM' (xs ++ ys) s g = (match forM' xs s g with | .ok s' => forM' ys s' g | .error e => .error e) := by
  induction xs generalizing s with
  | nil => rfl
  | cons x xs ih =>
    simp only [List.cons_append, forM']
    cases g s x with
    | ok s' => exact ih s'
    | error e => rfl

theorem fromItems_items (as : List Obj) (kvs : List (Obj × Obj)) (hnd : (kvs.map Prod.fst).Nodup)
    (hk : ∀ k ∈ kvs.map Prod.fst, ∃ s, k = .str s) :
    fromItems (list (items as kvs)) = .ok (argsKwargs as kvs) := by
  have hA : ∀ (as acc : List Obj) (i : ℕ), forM' (argItems i as) (acc, []) fromItem = .ok (acc ++ as, []) := by
    intro as
    induction as with
    | nil => intro acc i; simp [argItems, forM']
    | cons a as ih =>
      intro acc i
      rw [argItems, forM']
      have : fromItem (acc, []) (tup [int i, a]) = .ok (acc ++ [a], []) := rfl
      rw [this]
      simp only [ih]
      simp
  have hK : ∀ (kvs acc : List (Obj × Obj)), ((acc ++ kvs).map Prod.fst).Nodup → (∀ k ∈ kvs.map Prod.fst, ∃ s, k = .str s) →
      forM' (kvs.map fun kv => tup [kv.1, kv.2]) (as, acc) fromItem = .ok (as, acc ++ kvs) := by
    intro kvs
    induction kvs with
    | nil => intro acc _ _; simp [forM']
    | cons kv kvs ih =>
      obtain ⟨k, v⟩ := kv
      intro acc hnd hk
      obtain ⟨s, rfl⟩ := hk k (by simp)
      have hnew : Obj.str s ∉ acc.map Prod.fst := by
        rw [List.map_append] at hnd
        intro hin
        exact (List.nodup_append.1 hnd).2.2 _ hin _ (by simp) rfl
      have : fromItem (as, acc) (tup [.str s, v]) = .ok (as, acc ++ [(.str s, v)]) := by
        simp [fromItem, iter, setItem, Obj.hashable, PyDict.set_new _ _ _ hnew]
      rw [List.map_cons, forM', this]
      simp only
      rw [ih _ (by simpa using hnd) fun k' hk' => hk k' (by simp at hk' ⊢; exact Or.inr hk')]
      simp
  rw [fromItems, iter]
  simp only [items, forM'_app, hA]
  rw [List.nil_append, hK kvs [] (by simpa using hnd) hk]
  simp
end

/-- The same container with other members. -/
def withMembers : Obj → List Obj → Obj
  | .list _, zs => .list zs
  | .tup _, zs => .tup zs
  | .dict kvs, zs => .dict ((kvs.map Prod.fst).zip zs)
  | .argsKwargs args kwargs, zs => .argsKwargs (zs.take args.length) ((kwargs.map Prod.fst).zip (zs.drop args.length))
  | o, _ => o

theorem members_withMembers (o : Obj) (zs : List Obj) (h : zs.length = (members o).length) : members (withMembers o zs) = zs := by
  cases o with
  | list xs => rfl
  | tup xs => rfl
  | dict kvs =>
    simp only [members, List.length_map] at h
    simp only [withMembers, members]
    exact List.map_snd_zip (by simp [h])
  | argsKwargs as kvs =>
    simp only [members, List.length_append, List.length_map] at h
    simp only [withMembers, members]
    rw [List.map_snd_zip (by simp; omega), List.take_append_drop]
  | other => simp only [members, List.length_nil] at h; simp [members, withMembers, List.eq_nil_of_length_eq_zero h]
  | int => simp only [members, List.length_nil] at h; simp [members, withMembers, List.eq_nil_of_length_eq_zero h]
  | str => simp only [members, List.length_nil] at h; simp [members, withMembers, List.eq_nil_of_length_eq_zero h]

theorem shell_withMembers (o : Obj) (zs : List Obj) (h : zs.length = (members o).length) : shell (withMembers o zs) = shell o := by
  cases o with
  | list xs => simp only [members] at h; simp [withMembers, shell, h]
  | tup xs => simp only [members] at h; simp [withMembers, shell, h]
  | dict kvs =>
    simp only [members, List.length_map] at h
    simp only [withMembers, shell]
    rw [List.map_fst_zip (by simp [h])]
  | argsKwargs as kvs =>
    simp only [members, List.length_append, List.length_map] at h
    simp only [withMembers, shell]
    rw [List.map_fst_zip (by simp; omega)]
    simp; omega
  | other => rfl
  | int => rfl
  | str => rfl

theorem Spec.KeysFine.member {isMatch : Obj → Bool} {o c : Obj} (h : KeysFine isMatch o) (hc : c ∈ members o) : KeysFine isMatch c :=
  ⟨fun kvs hs => h.1 kvs (.member hc hs), fun as kvs hs => h.2 as kvs (.member hc hs)⟩

theorem convertList_length {m : Type → Type} [Monad m] [LawfulMonad m] [MonadExcept PyErr m] (isMatch : Obj → Bool) (f : Obj → m Obj)
    {β : Type} (xs : List Obj) (k k' : List Obj → m β) (h : ∀ zs, zs.length = xs.length → k zs = k' zs) :
    (convertList isMatch f xs >>= k) = (convertList isMatch f xs >>= k') := by
  induction xs generalizing k k' with
  | nil => simpa [convertList] using h [] rfl
  | cons x xs ih =>
    simp only [convertList, bind_assoc, pure_bind]
    refine congrArg _ (funext fun y => ?_)
    exact ih _ _ fun zs hz => h (y :: zs) (by simp [hz])

theorem convert_container {m : Type → Type} [Monad m] [LawfulMonad m] [MonadExcept PyErr m] (isMatch : Obj → Bool) (f : Obj → m Obj)
    (o : Obj) (h : KeysFine isMatch o) (ho : isMatch o = false) :
    convertRecursive isMatch f o = (do
      let zs ← convertList isMatch f (members o)
      pure (withMembers o zs)) := by
  cases o with
  | other => simp [convertRecursive, ho, members, convertList, withMembers]
  | int => simp [convertRecursive, ho, members, convertList, withMembers]
  | str => simp [convertRecursive, ho, members, convertList, withMembers]
  | list xs => simp [convertRecursive, ho, members, withMembers]
  | tup xs => simp [convertRecursive, ho, members, withMembers]
  | dict kvs =>
    have := h.1 kvs .here
    simp [convertRecursive, ho, members, withMembers, convertDict_eq isMatch f kvs [] (by simpa using this.1) this.2]
  | argsKwargs as kvs =>
    obtain ⟨h1, h2, h3, h4, h5⟩ := h.2 as kvs .here
    have eA := (convertArgs_eq isMatch f as 0 (fun it hit => h4 it (by simp [items, hit])) (by simpa using h5)).1
    have eK := (convertKwargs_eq isMatch f kvs h2 (fun kv hkv => h4 _ (by simp only [items, List.mem_append, List.mem_map]; exact Or.inr ⟨kv, hkv, rfl⟩))).1
    rw [convertRecursive, if_neg (by simp [ho]), if_neg (by simp [h3]), eA, eK, members, convertList_append]
    simp only [bind_assoc, pure_bind]
    refine convertList_length isMatch f as _ _ fun ys hys => ?_
    refine convertList_length isMatch f _ _ _ fun zs hzs => ?_
    have := fromItems_items ys ((kvs.map Prod.fst).zip zs) (by rw [List.map_fst_zip (by simp [hzs])]; exact h1)
      (by rw [List.map_fst_zip (by simp [hzs])]; exact fun k hk => (h2 k hk).1)
    rw [items] at this
    rw [this]
    simp [liftE, withMembers, ← hys]

theorem iterate_container (isMatch : Obj → Bool) (o : Obj) (h : KeysFine isMatch o) (ho : isMatch o = false) :
    iterateRecursive isMatch o = iterateList isMatch (members o) := by
  cases o with
  | other => simp [iterateRecursive, ho, members, iterateList]
  | int => simp [iterateRecursive, ho, members, iterateList]
  | str => simp [iterateRecursive, ho, members, iterateList]
  | list xs => simp [iterateRecursive, ho, members]
  | tup xs => simp [iterateRecursive, ho, members]
  | dict kvs => simp [iterateRecursive, ho, members, iterateDict_eq isMatch kvs (h.1 kvs .here).2]
  | argsKwargs as kvs =>
    obtain ⟨h1, h2, h3, h4, h5⟩ := h.2 as kvs .here
    have eA := (convertArgs_eq (m := Except PyErr) isMatch .ok as 0 (fun it hit => h4 it (by simp [items, hit])) (by simpa using h5)).2
    have eK := (convertKwargs_eq (m := Except PyErr) isMatch .ok kvs h2
      (fun kv hkv => h4 _ (by simp only [items, List.mem_append, List.mem_map]; exact Or.inr ⟨kv, hkv, rfl⟩))).2
    rw [iterateRecursive, if_neg (by simp [ho]), if_neg (by simp [h3]), eA, eK, members, iterateList_append]

/-! ### The main theorem -/

/-- What C65 says of one object. -/
def ItemsMatch (isMatch : Obj → Bool) (o : Obj) : Prop :=
  ∃ (paths : List (List ℕ)) (rebuild : List Obj → Obj),
    paths.Pairwise (· < ·) ∧ (∀ p, p ∈ paths ↔ Outermost isMatch o p) ∧
    (iterateRecursive isMatch o).map some = paths.map (objAt o) ∧
    (∀ (m : Type → Type) [Monad m] [LawfulMonad m] [MonadExcept PyErr m] (f : Obj → m Obj),
      convertRecursive isMatch f o = rebuild <$> (iterateRecursive isMatch o).mapM f) ∧
    ∀ ys : List Obj, ys.length = paths.length →
      (∀ (n : ℕ) (p : List ℕ), paths[n]? = some p → objAt (rebuild ys) p = ys[n]?) ∧
      ∀ p, (∀ q, q <+: p → ¬ Outermost isMatch o q) → (objAt (rebuild ys) p).map shell = (objAt o p).map shell

/-- The same for the members of a container. -/
def ItemsMatchList (isMatch : Obj → Bool) (cs : List Obj) : Prop :=
  ∃ (paths : List (ℕ × List ℕ)) (rebuild : List Obj → List Obj),
    paths.Pairwise (fun a b => a.1 < b.1 ∨ a.1 = b.1 ∧ a.2 < b.2) ∧
    (∀ (i : ℕ) (p : List ℕ), (i, p) ∈ paths ↔ ∃ c, cs[i]? = some c ∧ Outermost isMatch c p) ∧
    (iterateList isMatch cs).map some = paths.map (fun a => cs[a.1]?.bind fun c => objAt c a.2) ∧
    (∀ (m : Type → Type) [Monad m] [LawfulMonad m] [MonadExcept PyErr m] (f : Obj → m Obj),
      convertList isMatch f cs = rebuild <$> (iterateList isMatch cs).mapM f) ∧
    ∀ ys : List Obj, ys.length = paths.length → (rebuild ys).length = cs.length ∧
      (∀ (n i : ℕ) (p : List ℕ), paths[n]? = some (i, p) → ((rebuild ys)[i]?.bind fun c => objAt c p) = ys[n]?) ∧
      ∀ (i : ℕ) (p : List ℕ) (c c' : Obj), cs[i]? = some c → (rebuild ys)[i]? = some c' → (∀ q, q <+: p → ¬ Outermost isMatch c q) →
        (objAt c' p).map shell = (objAt c p).map shell

theorem mapM_length {m : Type → Type} [Monad m] [LawfulMonad m] (f : Obj → m Obj) {β : Type} (xs : List Obj) (k k' : List Obj → m β)
    (h : ∀ zs, zs.length = xs.length → k zs = k' zs) : (xs.mapM f >>= k) = (xs.mapM f >>= k') := by
  induction xs generalizing k k' with
  | nil => simpa using h [] rfl
  | cons x xs ih =>
    simp only [List.mapM_cons, bind_assoc, pure_bind]
    refine congrArg _ (funext fun y => ?_)
    exact ih _ _ fun zs hz => h (y :: zs) (by simp [hz])

theorem describedList_cons (isMatch : Obj → Bool) (c : Obj) (cs : List Obj) (hc : ItemsMatch isMatch c)
    (hcs : ItemsMatchList isMatch cs) : ItemsMatchList isMatch (c :: cs) := by
  obtain ⟨P, rb, hP, hmem, hit, hconv, hys⟩ := hc
  obtain ⟨P', rb', hP', hmem', hit', hconv', hys'⟩ := hcs
  have hlen : (iterateRecursive isMatch c).length = P.length := by simpa using congrArg List.length hit
  have hlen' : (iterateList isMatch cs).length = P'.length := by simpa using congrArg List.length hit'
  refine ⟨P.map (fun p => (0, p)) ++ P'.map (fun a => (a.1 + 1, a.2)),
    fun ys => rb (ys.take P.length) :: rb' (ys.drop P.length), ?_, ?_, ?_, ?_, ?_⟩
  · rw [List.pairwise_append]
    refine ⟨?_, ?_, ?_⟩
    · rw [List.pairwise_map]
      exact hP.imp fun h => Or.inr ⟨rfl, h⟩
    · rw [List.pairwise_map]
      exact hP'.imp fun h => h.imp (fun h => Nat.succ_lt_succ h) fun h => ⟨congrArg Nat.succ h.1, h.2⟩
    · intro a ha b hb
      obtain ⟨p, -, rfl⟩ := List.mem_map.1 ha
      obtain ⟨q, -, rfl⟩ := List.mem_map.1 hb
      exact Or.inl (Nat.succ_pos _)
  · intro i p
    cases i with
    | zero => simp [← hmem]
    | succ i => simp [← hmem']
  · rw [iterateList, List.map_append, hit, hit', List.map_append, List.map_map, List.map_map]
    simp [Function.comp_def]
  · intro m _ _ _ f
    rw [convertList, hconv, hconv', iterateList, List.mapM_append]
    simp only [map_eq_pure_bind, bind_assoc, pure_bind]
    refine mapM_length f _ _ _ fun as has => ?_
    refine mapM_length f _ _ _ fun bs hbs => ?_
    rw [hlen] at has
    simp [← has]
  · intro ys hl
    simp only [List.length_append, List.length_map] at hl
    obtain ⟨a1, a2⟩ := hys (ys.take P.length) (by simp; omega)
    obtain ⟨b0, b1, b2⟩ := hys' (ys.drop P.length) (by simp; omega)
    refine ⟨by simp [b0], ?_, ?_⟩
    · intro n i p hn
      rw [List.getElem?_append] at hn
      split at hn
      · next hlt =>
        rw [List.length_map] at hlt
        rw [List.getElem?_map] at hn
        obtain ⟨q, hq, e⟩ := Option.map_eq_some_iff.1 hn
        obtain ⟨rfl, rfl⟩ := Prod.mk.inj e
        simpa [List.getElem?_take, hlt] using a1 n q hq
      · next hge =>
        rw [List.length_map] at hge hn
        rw [List.getElem?_map] at hn
        obtain ⟨⟨j, q⟩, hq, e⟩ := Option.map_eq_some_iff.1 hn
        obtain ⟨rfl, rfl⟩ := Prod.mk.inj e
        have := b1 _ j q hq
        rw [List.getElem?_drop, show P.length + (n - P.length) = n by omega] at this
        simpa using this
    · intro i p d d' hd hd' hq
      cases i with
      | zero =>
        simp only [List.getElem?_cons_zero, Option.some.injEq] at hd hd'
        subst hd hd'
        exact a2 p hq
      | succ i =>
        simp only [List.getElem?_cons_succ] at hd hd'
        exact b2 i p d d' hd hd' hq

theorem outermost_nil {isMatch : Obj → Bool} {o : Obj} : Outermost isMatch o [] ↔ isMatch o = true := by
  constructor
  · rintro ⟨⟨x, hx, hm⟩, -⟩
    simp only [objAt, Option.some.injEq] at hx
    exact hx ▸ hm
  · intro h
    refine ⟨⟨o, rfl, h⟩, fun q hq hne => ?_⟩
    exact absurd (List.prefix_nil.1 hq) hne

theorem outermost_cons {isMatch : Obj → Bool} {o : Obj} (ho : isMatch o = false) {i : ℕ} {p : List ℕ} :
    Outermost isMatch o (i :: p) ↔ ∃ c, (members o)[i]? = some c ∧ Outermost isMatch c p := by
  constructor
  · rintro ⟨⟨x, hx, hm⟩, hq⟩
    rw [objAt] at hx
    cases hc : (members o)[i]? with
    | none => rw [hc] at hx; simp at hx
    | some c =>
      rw [hc] at hx
      refine ⟨c, rfl, ⟨x, hx, hm⟩, fun q hqp hne y hy => ?_⟩
      refine hq (i :: q) ?_ (by simpa using hne) y ?_
      · simpa using hqp
      · rw [objAt, hc]; exact hy
  · rintro ⟨c, hc, ⟨x, hx, hm⟩, hq⟩
    refine ⟨⟨x, by rw [objAt, hc]; exact hx, hm⟩, fun q hqp hne y hy => ?_⟩
    cases q with
    | nil => simp only [objAt, Option.some.injEq] at hy; exact hy ▸ ho
    | cons j q =>
      rw [List.cons_prefix_cons] at hqp
      obtain ⟨rfl, hqp⟩ := hqp
      rw [objAt, hc] at hy
      exact hq q hqp (fun e => hne (by rw [e])) y hy

/-- `iterate_recursive` yields the outermost matching objects, from left to right (`paths` are their places).
`convert_recursive` calls `convert_item` on exactly these objects, once each, in this order, and raises exactly if one of these
calls does; the result has the returned objects in their places, and all other objects keep their type, length, keys and places. -/
theorem C65_convert (isMatch : Obj → Bool) (o : Obj) (h : KeysFine isMatch o) :
    ∃ (paths : List (List ℕ)) (rebuild : List Obj → Obj),
      paths.Pairwise (· < ·) ∧ (∀ p, p ∈ paths ↔ Outermost isMatch o p) ∧
      (iterateRecursive isMatch o).map some = paths.map (objAt o) ∧
      (∀ (m : Type → Type) [Monad m] [LawfulMonad m] [MonadExcept PyErr m] (f : Obj → m Obj),
        convertRecursive isMatch f o = rebuild <$> (iterateRecursive isMatch o).mapM f) ∧
      ∀ ys : List Obj, ys.length = paths.length →
        (∀ (n : ℕ) (p : List ℕ), paths[n]? = some p → objAt (rebuild ys) p = ys[n]?) ∧
        ∀ p, (∀ q, q <+: p → ¬ Outermost isMatch o q) → (objAt (rebuild ys) p).map shell = (objAt o p).map shell := by
  show ItemsMatch isMatch o
  revert h
  refine Obj.ind (P := fun o => KeysFine isMatch o → ItemsMatch isMatch o) (fun o ih h => ?_) o
  by_cases ho : isMatch o = true
  · have hi : iterateRecursive isMatch o = [o] := by
      cases o <;> simp [iterateRecursive, ho]
    refine ⟨[[]], fun ys => ys.headD o, by simp, ?_, by simp [hi, objAt], ?_, ?_⟩
    · intro p
      rw [List.mem_singleton]
      constructor
      · rintro rfl; exact outermost_nil.2 ho
      · intro hp
        by_contra hne
        have := hp.2 [] (List.nil_prefix) (fun e => hne e.symm) o rfl
        simp [ho] at this
    · intro m _ _ _ f
      have : convertRecursive isMatch f o = f o := by
        cases o <;> simp [convertRecursive, ho]
      rw [this, hi]
      simp
    · intro ys hys
      obtain ⟨y, rfl⟩ := List.length_eq_one_iff.1 hys
      refine ⟨?_, fun p hp => absurd (outermost_nil.2 ho) (hp [] (List.nil_prefix))⟩
      intro n p hn
      cases n with
      | zero => simp at hn; subst hn; simp [objAt]
      | succ n => simp at hn
  · rw [Bool.not_eq_true] at ho
    have hL : ItemsMatchList isMatch (members o) := by
      have hx : ∀ c ∈ members o, ItemsMatch isMatch c := fun c hc => ih c hc (h.member hc)
      clear ih
      generalize members o = cs at hx
      induction cs with
      | nil =>
        refine ⟨[], fun _ => [], by simp, by simp, by simp [iterateList], ?_, ?_⟩
        · intro m _ _ _ f; simp [convertList, iterateList]
        · intro ys _; simp
      | cons c cs ihl =>
        exact describedList_cons isMatch c cs (hx c (by simp)) (ihl fun d hd => hx d (by simp [hd]))
    obtain ⟨P, rb, hP, hmem, hit, hconv, hys⟩ := hL
    have hi := iterate_container isMatch o h ho
    refine ⟨P.map fun a => a.1 :: a.2, fun ys => withMembers o (rb ys), ?_, ?_, ?_, ?_, ?_⟩
    · rw [List.pairwise_map]
      refine hP.imp fun {a b} hab => ?_
      rw [List.cons_lt_cons_iff]
      exact hab
    · intro p
      cases p with
      | nil => simp [outermost_nil, ho]
      | cons i p =>
        rw [outermost_cons ho, ← hmem]
        simp
    · rw [hi, hit, List.map_map]
      refine List.map_congr_left fun a _ => ?_
      simp only [Function.comp, objAt]
      cases (members o)[a.1]? <;> rfl
    · intro m _ _ _ f
      rw [convert_container isMatch f o h ho, hconv, hi]
      simp
    · intro ys hl
      rw [List.length_map] at hl
      obtain ⟨h0, h1, h2⟩ := hys ys hl
      have hmem2 := members_withMembers o (rb ys) h0
      refine ⟨?_, ?_⟩
      · intro n p hn
        rw [List.getElem?_map] at hn
        obtain ⟨⟨i, q⟩, hq, rfl⟩ := Option.map_eq_some_iff.1 hn
        rw [← h1 n i q hq, objAt, hmem2]
        cases (rb ys)[i]? <;> rfl
      · intro p hp
        cases p with
        | nil => simp [objAt, shell_withMembers o _ h0]
        | cons i p =>
          rw [objAt, objAt, hmem2]
          cases hc : (members o)[i]? with
          | none =>
            have : (rb ys)[i]? = none := by
              rw [List.getElem?_eq_none_iff] at hc ⊢; omega
            rw [this]
          | some c =>
            have hlt : i < (rb ys).length := by
              have := (List.getElem?_eq_some_iff.1 hc).1; omega
            rw [List.getElem?_eq_getElem hlt]
            refine h2 i p c _ hc (List.getElem?_eq_getElem hlt) fun q hq hout => ?_
            exact hp (i :: q) (by simpa using hq) ((outermost_cons ho).2 ⟨c, hc, hout⟩)

/-- Nothing matches: the object comes back as it was. -/
theorem C65_no_match {m : Type → Type} [Monad m] [LawfulMonad m] [MonadExcept PyErr m] (isMatch : Obj → Bool) (f : Obj → m Obj) (o : Obj)
    (h : KeysFine isMatch o) (hn : ∀ s, Occurs s o → isMatch s = false) :
    convertRecursive isMatch f o = pure o ∧ iterateRecursive isMatch o = [] := by
  revert h hn
  refine Obj.ind (P := fun o => KeysFine isMatch o → (∀ s, Occurs s o → isMatch s = false) →
    convertRecursive isMatch f o = pure o ∧ iterateRecursive isMatch o = []) (fun o ih h hn => ?_) o
  rw [convert_container isMatch f o h (hn o .here), iterate_container isMatch o h (hn o .here)]
  have : convertList isMatch f (members o) = pure (members o) ∧ iterateList isMatch (members o) = [] := by
    have hx : ∀ x ∈ members o, convertRecursive isMatch f x = pure x ∧ iterateRecursive isMatch x = [] := fun x hx =>
      ih x hx (h.member hx) fun s hs => hn s (.member hx hs)
    clear ih h hn
    generalize members o = xs at hx
    induction xs with
    | nil => simp [convertList, iterateList]
    | cons x xs ih =>
      have h1 := hx x (by simp)
      have h2 := ih fun y hy => hx y (by simp [hy])
      simp [convertList, iterateList, h1, h2]
  rw [this.1, this.2]
  refine ⟨?_, rfl⟩
  rw [pure_bind]
  congr 1
  cases o with
  | dict kvs => simp [withMembers, members, List.zip_map', List.map_id']
  | argsKwargs as kvs => simp [withMembers, members, List.zip_map', List.map_id']
  | _ => rfl

/-- `is_match` accepts all integers, `convert_item` turns them into strings: the number of the argument is taken for a match,
and the positional argument becomes a keyword argument. -/
theorem C65_argument_numbers_match :
    let isInt : Obj → Bool := fun o => match o with | .int _ => true | _ => false
    let toStr : Obj → Except PyErr Obj := fun _ => .ok (.str "a")
    convertRecursive isInt toStr (.argsKwargs [.other 7 false] []) = .ok (.argsKwargs [] [(.str "a", .other 7 false)]) ∧
      iterateRecursive isInt (.argsKwargs [.other 7 false] []) = [.int 0] := by
  simp [convertRecursive, convertArgs, convertKwargs, iterateRecursive, iterateArgs, iterateKwargs, items, argItems, fromItems, iter,
    forM', fromItem, setItem, Obj.hashable, PyDict.set, liftE, bind, Except.bind, pure, Except.pure]

/-- Converting keys to the same key loses entries of a dict. -/
theorem C65_keys_collide :
    let isStr : Obj → Bool := fun o => match o with | .str _ => true | _ => false
    convertRecursive isStr (fun _ => (.ok (.int 0) : Except PyErr Obj)) (.dict [(.str "a", .other 1 false), (.str "b", .other 2 false)]) =
      .ok (.dict [(.int 0, .other 2 false)]) := by
  simp [convertRecursive, convertDict, setItem, Obj.hashable, PyDict.set, liftE, bind, Except.bind, pure, Except.pure]

/-- An object of the kind the framework wrappers convert: arrays in a list, a dict and keyword arguments. -/
example :
    let isArray : Obj → Bool := fun o => match o with | .other _ h => !h | _ => false
    let o : Obj := .argsKwargs [.list [.other 1 false, .tup [.int 3, .other 2 false]]]
      [(.str "mask", .dict [(.tup [.str "k", .int 0], .other 3 false)])]
    KeysFine isArray o ∧ iterateRecursive isArray o = [.other 1 false, .other 2 false, .other 3 false] := by
  refine ⟨⟨?_, ?_⟩, ?_⟩
  · intro kvs h
    have : kvs = [(.tup [.str "k", .int 0], .other 3 false)] := by
      rcases h with _ | ⟨hc, h⟩
      simp [members] at hc
      rcases hc with rfl | rfl
      · rcases h with _ | ⟨hc, h⟩
        simp [members] at hc
        rcases hc with rfl | rfl
        · rcases h with _ | ⟨hc, h⟩
          simp [members] at hc
        · rcases h with _ | ⟨hc, h⟩
          simp [members] at hc
          rcases hc with rfl | rfl <;> (rcases h with _ | ⟨hc, h⟩; simp [members] at hc)
      · rcases h with _ | ⟨hc, h⟩
        · rfl
        · simp [members] at hc
          subst hc
          rcases h with _ | ⟨hc, h⟩
          simp [members] at hc
    subst this
    refine ⟨by simp, fun k hk => ?_⟩
    simp at hk
    subst hk
    refine ⟨rfl, fun s hs => ?_⟩
    rcases hs with _ | ⟨hc, hs⟩
    · rfl
    · simp [members] at hc
      rcases hc with rfl | rfl
      · rcases hs with _ | ⟨hc, hs⟩
        · rfl
        · simp [members] at hc
      · rcases hs with _ | ⟨hc, hs⟩
        · rfl
        · simp [members] at hc
  · intro as kvs h
    have : as = [.list [.other 1 false, .tup [.int 3, .other 2 false]]] ∧
        kvs = [(.str "mask", .dict [(.tup [.str "k", .int 0], .other 3 false)])] := by
      rcases h with _ | ⟨hc, h⟩
      · exact ⟨rfl, rfl⟩
      simp [members] at hc
      rcases hc with rfl | rfl
      · rcases h with _ | ⟨hc, h⟩
        simp [members] at hc
        rcases hc with rfl | rfl
        · rcases h with _ | ⟨hc, h⟩
          simp [members] at hc
        · rcases h with _ | ⟨hc, h⟩
          simp [members] at hc
          rcases hc with rfl | rfl <;> (rcases h with _ | ⟨hc, h⟩; simp [members] at hc)
      · rcases h with _ | ⟨hc, h⟩
        simp [members] at hc
        subst hc
        rcases h with _ | ⟨hc, h⟩
        simp [members] at hc
    obtain ⟨rfl, rfl⟩ := this
    simp [items, argItems]
  · simp [iterateRecursive, iterateArgs, iterateKwargs, iterateList, iterateDict, items]

end Thinc
