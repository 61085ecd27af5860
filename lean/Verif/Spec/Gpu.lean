import Verif.Model.Gpu
/-!
# What it means that a launch always gives a result
-/
namespace Thinc.Gpu
variable {α : Type}

/-- Every thread has come to its end. -/
def Config.Finished (c : Config α) : Prop := ∀ t, ∃ r, c.todo t = .ret r

/-- No two threads access the same element unless both only read it. -/
def RaceFree (log : List Access) : Prop :=
  ∀ a ∈ log, ∀ b ∈ log, a.thread ≠ b.thread → a.loc = b.loc → a.isWrite = false ∧ b.isWrite = false

/-- Whatever the launch parameters and in whatever order the threads run: no access is outside of its array, there is no data race,
the memory satisfies `Q` once all threads have finished, and they all finish if each gets to run often enough. -/
def Always (k : Kernel α) (m : Mem α) (Q : Mem α → Prop) : Prop :=
  ∀ blocks threads : Nat, 0 < blocks → 0 < threads →
    (∀ schedule : List Nat, ∃ c, (launch blocks threads k m).run schedule = some c ∧ RaceFree c.log ∧ (c.Finished → Q c.mem)) ∧
    ∃ n : Nat, ∀ schedule : List Nat, (∀ t < threads * blocks, n ≤ schedule.count t) →
      ∀ c, (launch blocks threads k m).run schedule = some c → c.Finished

/-- Array `p` holds the floats `f i j`, `r` rows of `c` of them. -/
def Mem.Holds (m : Mem α) (p r c : Nat) (f : Nat → Nat → α) : Prop :=
  m.size p = r * c ∧ ∀ i < r, ∀ j < c, m.get (p, i * c + j) = .num (f i j)

/-- The same for an array of ints. -/
def Mem.HoldsInts (m : Mem α) (p r c : Nat) (f : Nat → Nat → Int) : Prop :=
  m.size p = r * c ∧ ∀ i < r, ∀ j < c, m.get (p, i * c + j) = .int (f i j)

/-- Array `p` holds the floats `f 0`, …, `f (n - 1)`. -/
def Mem.HoldsList (m : Mem α) (p n : Nat) (f : Nat → α) : Prop := m.size p = n ∧ ∀ i < n, m.get (p, i) = .num (f i)

/-- The arrays from number `k` on are as before. -/
def Mem.SameFrom (m : Mem α) (k : Nat) (m0 : Mem α) : Prop := ∀ p ≥ k, m.size p = m0.size p ∧ ∀ i, m.get (p, i) = m0.get (p, i)

end Thinc.Gpu
