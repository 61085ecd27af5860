import Verif.Model.Heap
/-!
# `Model.walk` (thinc/model.py, lines 374-420)
-/
namespace Thinc
variable {V A : Type}

/-- Weight of the not-yet-seen part of the heap: the termination measure of the walks
(ghost; not part of the program). -/
def unseenWeight (h : Heap V A) (seen : List Addr) : Nat :=
  ((List.range h.length).map
    (fun a => if a ∈ seen then 0 else 2 + 2 * (layersOf h a).length)).sum

theorem layersOf_of_ge (h : Heap V A) (a : Addr) (ha : h.length ≤ a) : layersOf h a = [] := by
  simp [layersOf, List.getElem?_eq_none ha]

theorem sum_map_le {l : List Nat} {f g : Nat → Nat} (hfg : ∀ x ∈ l, f x ≤ g x) :
    (l.map f).sum ≤ (l.map g).sum := by
  induction l with
  | nil => simp
  | cons x xs ih =>
    have h1 := hfg x (by simp)
    have h2 := ih (fun y hy => hfg y (by simp [hy]))
    simp only [List.map_cons, List.sum_cons]; omega

theorem sum_map_lt {l : List Nat} {f g : Nat → Nat} {a k : Nat} (ha : a ∈ l)
    (hfg : ∀ x ∈ l, f x ≤ g x) (hlt : f a + k ≤ g a) :
    (l.map f).sum + k ≤ (l.map g).sum := by
  induction l with
  | nil => simp at ha
  | cons x xs ih =>
    have h1 := hfg x (by simp)
    have h2 := sum_map_le (fun y hy => hfg y (List.mem_cons_of_mem x hy))
    simp only [List.map_cons, List.sum_cons]
    rcases List.mem_cons.1 ha with rfl | hx
    · omega
    · have h3 := ih hx (fun y hy => hfg y (by simp [hy]))
      omega

/-- Seeing a new node lowers the measure by its weight (or, for an address outside the heap,
the node has no children). -/
theorem unseenWeight_cons (h : Heap V A) (seen : List Addr) (a : Addr) (ha : a ∉ seen) :
    unseenWeight h (a :: seen) + 2 * (layersOf h a).length ≤ unseenWeight h seen := by
  unfold unseenWeight
  by_cases hr : a < h.length
  · refine sum_map_lt (a := a) (List.mem_range.2 hr) ?_ ?_
    · intro x _
      by_cases hx : x ∈ seen
      · simp [hx]
      · by_cases hxa : x = a
        · simp [hxa]
        · simp [hx, hxa]
    · simp [ha]
  · rw [layersOf_of_ge h a (Nat.le_of_not_lt hr)]
    refine sum_map_le ?_
    intro x _
    by_cases hx : x ∈ seen
    · simp [hx]
    · by_cases hxa : x = a
      · simp [hxa]
      · simp [hx, hxa]

/-- `_walk_bfs` loop, model.py:389-398: `queue` is the part of the Python list not yet
iterated over, `seen` the set of visited addresses; returns the yielded nodes in order. -/
def bfsLoop (h : Heap V A) (queue seen : List Addr) : List Addr :=
  match queue with
  | [] => []
  | node :: rest =>
    if node ∈ seen then bfsLoop h rest seen
    else node :: bfsLoop h (rest ++ layersOf h node) (node :: seen)
termination_by unseenWeight h seen + queue.length
decreasing_by
  · simp
  · have := unseenWeight_cons h seen node (by assumption)
    simp; omega

/-- `_walk_bfs`, model.py:389-398. -/
def walkBfs (h : Heap V A) (root : Addr) : List Addr := bfsLoop h [root] []

/-- Measure of the depth-first stack (ghost). -/
def stackWeight (stack : List (Addr × List Addr)) : Nat :=
  (stack.map (fun p => 1 + 2 * p.2.length)).sum

/-- `_walk_dfs` loop, model.py:400-420.  A stack entry carries the node together with its
iterator over `node.layers` (the code keeps that iterator in `seen[id(node)]`; a node is pushed
exactly when its iterator is created, so the two are in one-to-one correspondence).  The top of
the stack is the head.  `seen` is the key set of the Python dict. -/
def dfsLoop (h : Heap V A) (post : Bool) (stack : List (Addr × List Addr)) (seen : List Addr) :
    List Addr :=
  match stack with
  | [] => []
  | (node, it) :: stack =>
    match it with
    | [] =>                                    -- StopIteration
      if post then node :: dfsLoop h post stack seen else dfsLoop h post stack seen
    | child :: it =>
      if child ∈ seen then dfsLoop h post ((node, it) :: stack) seen
      else
        let rest := dfsLoop h post ((child, layersOf h child) :: (node, it) :: stack) (child :: seen)
        if post then rest else child :: rest
termination_by unseenWeight h seen + stackWeight stack
decreasing_by
  · simp [stackWeight]
  · simp [stackWeight]
  · simp [stackWeight]
  · have := unseenWeight_cons h seen child (by assumption)
    simp [stackWeight]; omega

/-- `_walk_dfs`, model.py:400-420. -/
def walkDfs (h : Heap V A) (root : Addr) (post : Bool) : List Addr :=
  if post then dfsLoop h post [(root, layersOf h root)] [root]
  else root :: dfsLoop h post [(root, layersOf h root)] [root]

/-- `Model.walk(order=...)`, model.py:374-387. -/
def walk (h : Heap V A) (root : Addr) (order : String := "bfs") : Except PyErr (List Addr) :=
  if order = "bfs" then .ok (walkBfs h root)
  else if order = "dfs_pre" then .ok (walkDfs h root false)
  else if order = "dfs_post" then .ok (walkDfs h root true)
  else .error .valueError

end Thinc
