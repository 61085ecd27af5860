import Verif.Model.Walk
import Verif.Spec.Graph
import Mathlib.Tactic.ByContra
import Mathlib.Tactic.Conv
namespace Thinc
open Spec
variable {V A : Type}

theorem child_iff (h : Heap V A) (a b : Addr) : Child h a b ↔ b ∈ layersOf h a := by
  unfold Child layersOf
  cases hh : h[a]? <;> simp

theorem isChildren_layersOf (h : Heap V A) (a : Addr) : IsChildren h a (layersOf h a) := by
  unfold IsChildren layersOf
  cases hh : h[a]? <;> simp

theorem isChildren_eq {h : Heap V A} {a : Addr} {cs} (hc : IsChildren h a cs) :
    cs = layersOf h a := by
  unfold IsChildren at hc; unfold layersOf
  rcases hc with ⟨n, h1, h2⟩ | ⟨h1, h2⟩ <;> simp [h1, h2]

/-! ## bfs -/

theorem bfs_nodup (h : Heap V A) (q seen : List Addr) :
    (bfsLoop h q seen).Nodup ∧ ∀ x ∈ bfsLoop h q seen, x ∉ seen := by
  induction q, seen using bfsLoop.induct h with
  | case1 => simp [bfsLoop]
  | case2 seen node rest hs ih => rw [bfsLoop, if_pos hs]; exact ih
  | case3 seen node rest hs ih =>
    rw [bfsLoop, if_neg hs]
    obtain ⟨ih1, ih2⟩ := ih
    refine ⟨List.nodup_cons.2 ⟨fun hm => by simpa using ih2 _ hm, ih1⟩, ?_⟩
    intro x hx
    rcases List.mem_cons.1 hx with rfl | hx
    · exact hs
    · have := ih2 x hx; simp at this; exact this.2

theorem bfs_sound (h : Heap V A) (q seen : List Addr) :
    ∀ x ∈ bfsLoop h q seen, ∃ y ∈ q, Reachable h y x := by
  induction q, seen using bfsLoop.induct h with
  | case1 => simp [bfsLoop]
  | case2 seen node rest hs ih =>
    rw [bfsLoop, if_pos hs]
    intro x hx; obtain ⟨y, hy, hr⟩ := ih x hx
    exact ⟨y, by simp [hy], hr⟩
  | case3 seen node rest hs ih =>
    rw [bfsLoop, if_neg hs]
    intro x hx
    rcases List.mem_cons.1 hx with rfl | hx
    · exact ⟨x, by simp, Relation.ReflTransGen.refl⟩
    · obtain ⟨y, hy, hr⟩ := ih x hx
      rcases List.mem_append.1 hy with hy | hy
      · exact ⟨y, by simp [hy], hr⟩
      · exact ⟨node, by simp, Relation.ReflTransGen.head ((child_iff h _ _).2 hy) hr⟩

theorem bfs_complete (h : Heap V A) (q seen : List Addr)
    (hinv : ∀ x ∈ seen, ∀ y ∈ layersOf h x, y ∈ seen ∨ y ∈ q) :
    (∀ x ∈ q, x ∈ seen ∨ x ∈ bfsLoop h q seen) ∧
    (∀ x, x ∈ seen ∨ x ∈ bfsLoop h q seen → ∀ y ∈ layersOf h x, y ∈ seen ∨ y ∈ bfsLoop h q seen) := by
  induction q, seen using bfsLoop.induct h with
  | case1 seen => simpa [bfsLoop] using hinv
  | case2 seen node rest hs ih =>
    rw [bfsLoop, if_pos hs]
    have := ih (by
      intro x hx y hy
      rcases hinv x hx y hy with h1 | h1
      · exact Or.inl h1
      · rcases List.mem_cons.1 h1 with rfl | h1
        · exact Or.inl hs
        · exact Or.inr h1)
    refine ⟨?_, this.2⟩
    intro x hx
    rcases List.mem_cons.1 hx with rfl | hx
    · exact Or.inl hs
    · exact this.1 x hx
  | case3 seen node rest hs ih =>
    rw [bfsLoop, if_neg hs]
    have := ih (by
      intro x hx y hy
      rcases List.mem_cons.1 hx with rfl | hx
      · exact Or.inr (by simp [hy])
      · rcases hinv x hx y hy with h1 | h1
        · exact Or.inl (by simp [h1])
        · rcases List.mem_cons.1 h1 with rfl | h1
          · exact Or.inl (by simp)
          · exact Or.inr (by simp [h1]))
    obtain ⟨i1, i2⟩ := this
    have hcong : ∀ x, (x ∈ node :: seen ∨ x ∈ bfsLoop h (rest ++ layersOf h node) (node :: seen)) ↔
        (x ∈ seen ∨ x ∈ node :: bfsLoop h (rest ++ layersOf h node) (node :: seen)) := by
      intro x; simp only [List.mem_cons]; grind
    refine ⟨?_, ?_⟩
    · intro x hx
      rw [← hcong]
      rcases List.mem_cons.1 hx with rfl | hx
      · left; simp
      · exact i1 x (by simp [hx])
    · intro x hx y hy
      rw [← hcong] at hx ⊢
      exact i2 x hx y hy

theorem mem_walkBfs (h : Heap V A) (root a : Addr) :
    a ∈ walkBfs h root ↔ Reachable h root a := by
  constructor
  · intro ha
    obtain ⟨y, hy, hr⟩ := bfs_sound h [root] [] a ha
    simp at hy; subst hy; exact hr
  · intro hr
    obtain ⟨h1, h2⟩ := bfs_complete h [root] [] (by simp)
    have hroot := h1 root (by simp)
    simp at hroot h2
    induction hr with
    | refl => exact hroot
    | tail _ hc ih => exact h2 _ ih _ ((child_iff h _ _).1 hc)

theorem nodup_walkBfs (h : Heap V A) (root : Addr) : (walkBfs h root).Nodup :=
  (bfs_nodup h [root] []).1

/-! ## bfs levels -/

structure LevelInv (h : Heap V A) (root : Addr) (d : Nat) (q1 q2 seen : List Addr) : Prop where
  a : ∀ x ∈ q1, PathLen h root d x
  b : ∀ x ∈ q2, PathLen h root (d+1) x
  c : ∀ y n, n < d → PathLen h root n y → y ∈ seen
  dd : ∀ y, PathLen h root d y → y ∈ seen ∨ y ∈ q1
  e : ∀ x ∈ seen, ∀ y ∈ layersOf h x, y ∈ seen ∨ y ∈ q1 ∨ y ∈ q2

theorem LevelInv.next {h : Heap V A} {root d q2 seen} (i : LevelInv h root d [] q2 seen) :
    LevelInv h root (d+1) q2 [] seen where
  a := i.b
  b := by simp
  c := by
    intro y n hn hp
    rcases Nat.lt_succ_iff_lt_or_eq.1 hn with hn | rfl
    · exact i.c y n hn hp
    · simpa using i.dd y hp
  dd := by
    intro y hp
    cases hp with
    | succ hp hc =>
      have := i.dd _ hp
      simp at this
      simpa using i.e _ this _ ((child_iff h _ _).1 hc)
  e := by
    intro x hx y hy
    simpa using i.e x hx y hy

def LevelLe (h : Heap V A) (root a b : Addr) : Prop :=
  ∀ n, PathLen h root n b → ∃ m, m ≤ n ∧ PathLen h root m a

theorem LevelInv.pop {h : Heap V A} {root d node q1 q2 seen} (i : LevelInv h root d (node :: q1) q2 seen)
    (hs : node ∈ seen) : LevelInv h root d q1 q2 seen where
  a := fun x hx => i.a x (by simp [hx])
  b := i.b
  c := i.c
  dd := by
    intro y hp
    rcases i.dd y hp with h1 | h1
    · exact Or.inl h1
    · rcases List.mem_cons.1 h1 with rfl | h1
      · exact Or.inl hs
      · exact Or.inr h1
  e := by
    intro x hx y hy
    rcases i.e x hx y hy with h1 | h1 | h1
    · exact Or.inl h1
    · rcases List.mem_cons.1 h1 with rfl | h1
      · exact Or.inl hs
      · exact Or.inr (Or.inl h1)
    · exact Or.inr (Or.inr h1)

theorem LevelInv.push {h : Heap V A} {root d node q1 q2 seen} (i : LevelInv h root d (node :: q1) q2 seen) :
    LevelInv h root d q1 (q2 ++ layersOf h node) (node :: seen) where
  a := fun x hx => i.a x (by simp [hx])
  b := by
    intro x hx
    rcases List.mem_append.1 hx with hx | hx
    · exact i.b x hx
    · exact PathLen.succ (i.a node (by simp)) ((child_iff h _ _).2 hx)
  c := fun y n hn hp => by simp [i.c y n hn hp]
  dd := by
    intro y hp
    rcases i.dd y hp with h1 | h1
    · left; simp [h1]
    · rcases List.mem_cons.1 h1 with rfl | h1
      · left; simp
      · exact Or.inr h1
  e := by
    intro x hx y hy
    rcases List.mem_cons.1 hx with rfl | hx
    · right; right; simp [hy]
    · rcases i.e x hx y hy with h1 | h1 | h1
      · left; simp [h1]
      · rcases List.mem_cons.1 h1 with rfl | h1
        · left; simp
        · right; left; exact h1
      · right; right; simp [h1]

theorem bfs_levels_aux (h : Heap V A) (root : Addr) (q seen : List Addr) :
    ∀ d q1 q2, q = q1 ++ q2 → LevelInv h root d q1 q2 seen →
      (bfsLoop h q seen).Pairwise (LevelLe h root) := by
  induction q, seen using bfsLoop.induct h with
  | case1 => intros; simp [bfsLoop]
  | case2 seen node rest hs ih =>
    rw [bfsLoop, if_pos hs]
    intro d q1 q2 hq i
    cases q1 with
    | nil =>
      simp at hq; subst hq
      exact ih (d+1) rest [] (by simp) (i.next.pop hs)
    | cons x q1 =>
      simp at hq; obtain ⟨rfl, rfl⟩ := hq
      exact ih d q1 q2 rfl (i.pop hs)
  | case3 seen node rest hs ih =>
    rw [bfsLoop, if_neg hs]
    intro d q1 q2 hq i
    have key : ∀ d q1 q2, rest = q1 ++ q2 → LevelInv h root d (node :: q1) q2 seen →
        (node :: bfsLoop h (rest ++ layersOf h node) (node :: seen)).Pairwise (LevelLe h root) := by
      intro d q1 q2 hq i
      refine List.pairwise_cons.2 ⟨?_, ?_⟩
      · intro y hy n hp
        refine ⟨d, ?_, i.a node (by simp)⟩
        by_contra hlt
        have h1 := i.c y n (by omega) hp
        exact (bfs_nodup h _ _).2 y hy (by simp [h1])
      · exact ih d q1 (q2 ++ layersOf h node) (by simp [hq]) i.push
    cases q1 with
    | nil =>
      simp at hq; subst hq
      exact key (d+1) rest [] (by simp) i.next
    | cons x q1 =>
      simp at hq; obtain ⟨rfl, rfl⟩ := hq
      exact key d q1 q2 rfl i

theorem bfs_levels (h : Heap V A) (root : Addr) :
    (walkBfs h root).Pairwise (LevelLe h root) := by
  refine bfs_levels_aux h root [root] [] 0 [root] [] (by simp) ⟨?_, by simp, by simp, ?_, by simp⟩
  · intro x hx; simp at hx; subst hx; exact PathLen.zero
  · intro y hp; cases hp; simp

/-! ## dfs -/

theorem unseenWeight_mono (h : Heap V A) {s t : List Addr} (hst : ∀ x ∈ s, x ∈ t) :
    unseenWeight h t ≤ unseenWeight h s := by
  unfold unseenWeight
  refine sum_map_le ?_
  intro x _
  by_cases hs : x ∈ s
  · simp [hs, hst x hs]
  · by_cases ht : x ∈ t <;> simp [hs, ht]

theorem Dfs.seen_iff {h : Heap V A} {seen todo pre post seen'} (d : Dfs h seen todo pre post seen') :
    ∀ x, x ∈ seen' ↔ x ∈ seen ∨ x ∈ pre := by
  induction d with
  | nil => simp
  | skip _ _ ih => exact ih
  | visit _ _ _ _ ih1 ih2 => intro x; rw [ih2, ih1]; simp; grind

theorem Dfs.post_perm {h : Heap V A} {seen todo pre post seen'} (d : Dfs h seen todo pre post seen') :
    post.Perm pre := by
  induction d with
  | nil => simp
  | skip _ _ ih => exact ih
  | visit _ _ _ _ ih1 ih2 =>
    refine List.perm_middle.trans ?_
    exact List.Perm.cons _ (ih1.append ih2)

theorem Dfs.nodup {h : Heap V A} {seen todo pre post seen'} (d : Dfs h seen todo pre post seen') :
    pre.Nodup ∧ ∀ x ∈ pre, x ∉ seen := by
  induction d with
  | nil => simp
  | skip _ _ ih => exact ih
  | @visit seen c cs todo pre₁ post₁ seen₁ pre₂ post₂ seen₂ hc _ d1 d2 ih1 ih2 =>
    have hs := Dfs.seen_iff d1
    refine ⟨?_, ?_⟩
    · rw [List.cons_append, List.nodup_cons]
      refine ⟨?_, List.nodup_append.2 ⟨ih1.1, ih2.1, ?_⟩⟩
      · intro hm
        rcases List.mem_append.1 hm with hm | hm
        · exact ih1.2 c hm (by simp)
        · exact ih2.2 c hm ((hs c).2 (by simp))
      · rintro a ha b hb rfl
        exact ih2.2 a hb ((hs a).2 (by simp [ha]))
    · intro x hx
      simp only [List.cons_append, List.mem_cons, List.mem_append] at hx
      rcases hx with rfl | hx | hx
      · exact hc
      · have := ih1.2 x hx; simp at this; exact this.2
      · intro hx'
        exact ih2.2 x hx ((hs x).2 (by simp [hx']))

theorem Dfs.sound {h : Heap V A} {seen todo pre post seen'} (d : Dfs h seen todo pre post seen') :
    ∀ x ∈ pre, ∃ y ∈ todo, Reachable h y x := by
  induction d with
  | nil => simp
  | skip _ _ ih => intro x hx; obtain ⟨y, hy, hr⟩ := ih x hx; exact ⟨y, by simp [hy], hr⟩
  | @visit seen c cs todo pre₁ post₁ seen₁ pre₂ post₂ seen₂ hc hcs d1 d2 ih1 ih2 =>
    intro x hx
    simp only [List.cons_append, List.mem_cons, List.mem_append] at hx
    rcases hx with rfl | hx | hx
    · exact ⟨x, by simp, Relation.ReflTransGen.refl⟩
    · obtain ⟨y, hy, hr⟩ := ih1 x hx
      rw [isChildren_eq hcs] at hy
      exact ⟨c, by simp, Relation.ReflTransGen.head ((child_iff h _ _).2 hy) hr⟩
    · obtain ⟨y, hy, hr⟩ := ih2 x hx
      exact ⟨y, by simp [hy], hr⟩

theorem Dfs.complete {h : Heap V A} {seen todo pre post seen'} (d : Dfs h seen todo pre post seen') :
    (∀ x ∈ todo, x ∈ seen') ∧ ∀ x ∈ pre, ∀ y ∈ layersOf h x, y ∈ seen' := by
  induction d with
  | nil => simp
  | skip hc d ih =>
    refine ⟨?_, ih.2⟩
    intro x hx
    rcases List.mem_cons.1 hx with rfl | hx
    · exact (Dfs.seen_iff d _).2 (Or.inl hc)
    · exact ih.1 x hx
  | @visit seen c cs todo pre₁ post₁ seen₁ pre₂ post₂ seen₂ hc hcs d1 d2 ih1 ih2 =>
    have s1 := Dfs.seen_iff d1
    have s2 := Dfs.seen_iff d2
    refine ⟨?_, ?_⟩
    · intro x hx
      rcases List.mem_cons.1 hx with rfl | hx
      · exact (s2 x).2 (Or.inl ((s1 x).2 (by simp)))
      · exact ih2.1 x hx
    · intro x hx y hy
      simp only [List.cons_append, List.mem_cons, List.mem_append] at hx
      rcases hx with rfl | hx | hx
      · rw [← isChildren_eq hcs] at hy
        exact (s2 y).2 (Or.inl (ih1.1 y hy))
      · exact (s2 y).2 (Or.inl (ih1.2 x hx y hy))
      · exact ih2.2 x hx y hy

theorem dfsLoop_spec (h : Heap V A) : ∀ (m : Nat) (seen it : List Addr),
    unseenWeight h seen + 2 * it.length ≤ m → ∃ pre po seen', Dfs h seen it pre po seen' ∧
      ∀ node stack,
        dfsLoop h true ((node, it) :: stack) seen = po ++ node :: dfsLoop h true stack seen' ∧
        dfsLoop h false ((node, it) :: stack) seen = pre ++ dfsLoop h false stack seen' := by
  intro m
  induction m using Nat.strongRecOn with
  | _ m IH =>
    intro seen it hm
    cases it with
    | nil => exact ⟨[], [], seen, Dfs.nil, fun node stack => by constructor <;> (conv_lhs => rw [dfsLoop]) <;> simp⟩
    | cons c it =>
      by_cases hc : c ∈ seen
      · obtain ⟨pre, po, seen', hd, hl⟩ := IH (m-1) (by simp at hm; omega) seen it (by simp at hm; omega)
        refine ⟨pre, po, seen', Dfs.skip hc hd, fun node stack => ?_⟩
        obtain ⟨h1, h2⟩ := hl node stack
        constructor <;> (conv_lhs => rw [dfsLoop]) <;> simp [hc, h1, h2]
      · have hw := unseenWeight_cons h seen c hc
        obtain ⟨pre1, po1, seen1, hd1, hl1⟩ := IH (m-1) (by simp at hm; omega) (c :: seen) (layersOf h c)
          (by simp at hm; omega)
        have hsub : ∀ x ∈ seen, x ∈ seen1 := fun x hx => (Dfs.seen_iff hd1 x).2 (by simp [hx])
        have hw2 := unseenWeight_mono h hsub
        obtain ⟨pre2, po2, seen2, hd2, hl2⟩ := IH (m-1) (by simp at hm; omega) seen1 it
          (by simp at hm; omega)
        refine ⟨_, _, seen2, Dfs.visit hc (isChildren_layersOf h c) hd1 hd2, fun node stack => ?_⟩
        obtain ⟨h1, h2⟩ := hl1 c ((node, it) :: stack)
        obtain ⟨h3, h4⟩ := hl2 node stack
        constructor <;> (conv_lhs => rw [dfsLoop]) <;> simp [hc, h1, h2, h3, h4]

theorem walkDfs_spec (h : Heap V A) (root : Addr) :
    ∃ seen', Dfs h [] [root] (walkDfs h root false) (walkDfs h root true) seen' := by
  obtain ⟨pre, po, seen', hd, hl⟩ := dfsLoop_spec h _ [root] (layersOf h root) (Nat.le_refl _)
  obtain ⟨h1, h2⟩ := hl root []
  have h0' : dfsLoop h true [] seen' = [] := by rw [dfsLoop]
  have h0 : dfsLoop h false [] seen' = [] := by rw [dfsLoop]
  refine ⟨seen', ?_⟩
  have := Dfs.visit (by simp) (isChildren_layersOf h root) hd (Dfs.nil)
  simp only [walkDfs, h1, h2]
  simpa [h0', h0] using this

theorem mem_walkDfs (h : Heap V A) (root a : Addr) (post : Bool) :
    a ∈ walkDfs h root post ↔ Reachable h root a := by
  obtain ⟨seen', hd⟩ := walkDfs_spec h root
  have hpre : a ∈ walkDfs h root false ↔ Reachable h root a := by
    constructor
    · intro ha
      obtain ⟨y, hy, hr⟩ := Dfs.sound hd a ha
      simp at hy; subst hy; exact hr
    · intro hr
      obtain ⟨h1, h2⟩ := Dfs.complete hd
      have hs := Dfs.seen_iff hd
      simp [hs] at h1 h2
      induction hr with
      | refl => exact h1
      | tail _ hc ih => exact h2 _ ih _ ((child_iff h _ _).1 hc)
  cases post with
  | false => exact hpre
  | true => rw [← hpre]; exact (Dfs.post_perm hd).mem_iff

theorem nodup_walkDfs (h : Heap V A) (root : Addr) (post : Bool) : (walkDfs h root post).Nodup := by
  obtain ⟨seen', hd⟩ := walkDfs_spec h root
  cases post with
  | false => exact (Dfs.nodup hd).1
  | true => exact (Dfs.post_perm hd).nodup_iff.2 (Dfs.nodup hd).1

/-- In post order on an acyclic graph, all children of a node come before it. -/
theorem Dfs.post_children {h : Heap V A} (hac : Acyclic h) {seen todo pre post seen'}
    (d : Dfs h seen todo pre post seen') : ∀ fin : List Addr,
    (∀ x ∈ fin, ∀ y ∈ layersOf h x, y ∈ fin) →
    (∀ c ∈ todo, ∀ g ∈ seen, Reachable h c g → g ∈ fin) →
    (∀ x ∈ fin, x ∈ seen) →
    (∀ l1 x l2, post = l1 ++ x :: l2 → ∀ y ∈ layersOf h x, y ∈ fin ∨ y ∈ l1) := by
  induction d with
  | nil => intro fin _ _ _ l1 x l2 he; simp at he
  | skip _ _ ih =>
    intro fin h1 h2 h3
    exact ih fin h1 (fun c hc => h2 c (by simp [hc])) h3
  | @visit seen c cs todo pre₁ post₁ seen₁ pre₂ post₂ seen₂ hc hcs d1 d2 ih1 ih2 =>
    intro fin h1 h2 h3
    have s1 := Dfs.seen_iff d1
    have p1 := Dfs.post_perm d1
    have hcs' := isChildren_eq hcs
    have c1 := Dfs.complete d1
    -- finished nodes after the subtree of `c`
    have A1 := ih1 fin h1 (by
      intro k hk g hg hr
      have hck : Child h c k := (child_iff h _ _).2 (hcs' ▸ hk)
      rcases List.mem_cons.1 hg with rfl | hg
      · exact absurd (Relation.TransGen.head' hck hr) (hac _)
      · exact h2 c (by simp) g hg (Relation.ReflTransGen.head hck hr)) (fun x hx => by simp [h3 x hx])
    -- all children of c are finished
    have hcfin : ∀ y ∈ layersOf h c, y ∈ fin ∨ y ∈ post₁ := by
      intro y hy
      have hck : Child h c y := (child_iff h _ _).2 hy
      have := (s1 y).1 (c1.1 y (hcs' ▸ hy))
      rcases this with hm | hm
      · rcases List.mem_cons.1 hm with rfl | hm
        · exact absurd (Relation.TransGen.single hck) (hac _)
        · exact Or.inl (h2 c (by simp) y hm (Relation.ReflTransGen.single hck))
      · exact Or.inr (p1.mem_iff.2 hm)
    have A2 := ih2 (c :: (post₁ ++ fin)) (by
      intro x hx y hy
      simp only [List.mem_cons, List.mem_append] at hx ⊢
      rcases hx with rfl | hx | hx
      · rcases hcfin y hy with h | h <;> simp [h]
      · obtain ⟨l1, l2, rfl⟩ := List.append_of_mem hx
        rcases A1 l1 x l2 rfl y hy with h | h <;> simp [h]
      · simp [h1 x hx y hy]) (by
      intro k hk g hg hr
      rcases (s1 g).1 hg with hg | hg
      · rcases List.mem_cons.1 hg with rfl | hg
        · simp
        · simp [h2 k (by simp [hk]) g hg hr]
      · simp [p1.mem_iff.2 hg]) (by
      intro x hx
      simp only [List.mem_cons, List.mem_append] at hx
      rw [s1]
      rcases hx with rfl | hx | hx
      · simp
      · simp [p1.mem_iff.1 hx]
      · simp [h3 x hx])
    intro l1 x l2 he y hy
    rw [List.append_eq_append_iff] at he
    rcases he with ⟨as, rfl, he⟩ | ⟨bs, rfl, he⟩
    · -- l1 = post₁ ++ as
      cases as with
      | nil =>
        simp at he; obtain ⟨rfl, rfl⟩ := he
        rcases hcfin y hy with h | h <;> simp [h]
      | cons a as =>
        simp at he; obtain ⟨rfl, he⟩ := he
        have := A2 as x l2 he y hy
        simp only [List.mem_cons, List.mem_append] at this ⊢
        grind
    · cases bs with
      | nil =>
        simp at he; obtain ⟨rfl, rfl⟩ := he
        simpa using hcfin y hy
      | cons b bs =>
        simp at he; obtain ⟨rfl, he⟩ := he
        exact A1 l1 x bs rfl y hy

end Thinc
