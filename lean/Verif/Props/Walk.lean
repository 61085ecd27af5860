import Verif.Lemmas.Walk
/-!
# C01, C02: `Model.walk`
-/
namespace Thinc
open Spec
variable {V A : Type}

/-- C01. For each of the three valid orders `walk` terminates (it is a total function) and yields
every node reachable from the start exactly once; on sharing, diamonds and cycles alike. Any other
order raises `ValueError`. -/
theorem C01_walk_each_reachable_once (h : Heap V A) (root : Addr) (order : String) :
    (order ∈ ["bfs", "dfs_pre", "dfs_post"] →
      ∃ out, walk h root order = .ok out ∧ out.Nodup ∧ ∀ a, a ∈ out ↔ Reachable h root a) ∧
    (order ∉ ["bfs", "dfs_pre", "dfs_post"] → walk h root order = .error .valueError) := by
  constructor
  · intro ho
    simp at ho
    rcases ho with rfl | rfl | rfl
    · exact ⟨_, by simp [walk], nodup_walkBfs h root, mem_walkBfs h root⟩
    · exact ⟨_, by simp [walk], nodup_walkDfs h root false, fun a => mem_walkDfs h root a false⟩
    · exact ⟨_, by simp [walk], nodup_walkDfs h root true, fun a => mem_walkDfs h root a true⟩
  · intro ho
    simp at ho
    simp [walk, ho]

/-- C02 (bfs). Nodes come in order of their distance from the start: if `a` is yielded before `b`,
every path to `b` is at least as long as some path to `a`. -/
theorem C02_bfs_by_distance (h : Heap V A) (root : Addr) (out : List Addr)
    (ho : walk h root "bfs" = .ok out) :
    out.Pairwise fun a b => ∀ n, PathLen h root n b → ∃ m, m ≤ n ∧ PathLen h root m a := by
  simp [walk] at ho; subst ho
  exact bfs_levels h root

/-- C02 (dfs). The `dfs_pre` and `dfs_post` sequences are the preorder and the postorder of one
and the same left-to-right depth-first search from the start. -/
theorem C02_dfs_orders (h : Heap V A) (root : Addr) (pre post : List Addr)
    (h1 : walk h root "dfs_pre" = .ok pre) (h2 : walk h root "dfs_post" = .ok post) :
    ∃ seen, Dfs h [] [root] pre post seen := by
  simp [walk] at h1 h2; subst h1 h2
  exact walkDfs_spec h root

/-- C02 (dfs_post on an acyclic graph). Every descendant of a node is yielded before that node. -/
theorem C02_post_descendants_first (h : Heap V A) (root : Addr) (hac : Acyclic h)
    (out : List Addr) (ho : walk h root "dfs_post" = .ok out) :
    ∀ l₁ x l₂, out = l₁ ++ x :: l₂ → ∀ y, Descendant h x y → y ∈ l₁ := by
  simp [walk] at ho; subst ho
  obtain ⟨seen, hd⟩ := walkDfs_spec h root
  have key := Dfs.post_children hac hd [] (by simp) (by simp) (by simp)
  intro l₁ x l₂ he y hy
  induction hy with
  | single hc => simpa using key l₁ x l₂ he _ ((child_iff h _ _).1 hc)
  | tail _ hc ih =>
    obtain ⟨a, b, rfl⟩ := List.append_of_mem ih
    have := key a _ (b ++ x :: l₂) (by simp [he]) _ ((child_iff h _ _).1 hc)
    simp at this
    simp [this]

/-! Non-vacuity: a diamond with a shared node, and a cycle. -/

def exNode (ls : List Addr) : Node Nat Nat :=
  { name := "n", id := 0, layers := ls, refs := [], dims := [], hasParams := [], params := [],
    grads := [], attrs := [], shims := [] }

/-- 0 → 1, 2; 1 → 3; 2 → 3, 4. -/
def exDiamond : Heap Nat Nat := [exNode [1, 2], exNode [3], exNode [3, 4], exNode [], exNode []]

/-- 0 → 1 → 2 → 0. -/
def exCycle : Heap Nat Nat := [exNode [1], exNode [2], exNode [0]]

example : walk exDiamond 0 "bfs" = .ok [0, 1, 2, 3, 4] := by
  simp [walk, walkBfs, bfsLoop, exDiamond, exNode, layersOf]
example : walk exDiamond 0 "dfs_pre" = .ok [0, 1, 3, 2, 4] := by
  simp [walk, walkDfs, dfsLoop, exDiamond, exNode, layersOf]
example : walk exDiamond 0 "dfs_post" = .ok [3, 1, 4, 2, 0] := by
  simp [walk, walkDfs, dfsLoop, exDiamond, exNode, layersOf]
example : walk exCycle 0 "dfs_post" = .ok [2, 1, 0] := by
  simp [walk, walkDfs, dfsLoop, exCycle, exNode, layersOf]

/-- The hypothesis of `C02_post_descendants_first` holds of the diamond. -/
example : Acyclic exDiamond := by
  have hlt : ∀ a b, Child exDiamond a b → a < b := by
    rintro a b ⟨n, hn, hb⟩
    match a, hn with
    | 0, hn => simp [exDiamond, exNode] at hn; subst hn; simp at hb; rcases hb with rfl | rfl <;> decide
    | 1, hn => simp [exDiamond, exNode] at hn; subst hn; simp at hb; subst hb; decide
    | 2, hn => simp [exDiamond, exNode] at hn; subst hn; simp at hb; rcases hb with rfl | rfl <;> decide
    | 3, hn => simp [exDiamond, exNode] at hn; subst hn; simp at hb
    | 4, hn => simp [exDiamond, exNode] at hn; subst hn; simp at hb
    | k + 5, hn => simp [exDiamond] at hn
  intro a h
  have : ∀ b, Descendant exDiamond a b → a < b := by
    intro b hb
    induction hb with
    | single hc => exact hlt _ _ hc
    | tail _ hc ih => exact Nat.lt_trans ih (hlt _ _ hc)
  exact Nat.lt_irrefl _ (this a h)

end Thinc
