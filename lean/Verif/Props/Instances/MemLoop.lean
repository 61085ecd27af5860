import Verif.Props.MemLoop
import Verif.Props.Instances.MemSession
import Verif.Props.Instances.Memory
/-!
# C123: training loops on arrays
-/
namespace Thinc
open Shared Spec.Shared

/-- A network whose layers share arrays, in memory that is already in use: the loop is the loop on values. -/
example (erf : ℝ → ℝ) (draws : Nat → Nat → Nat → ℝ) (N : Nat) (slot : Slots) (cfg : OptCfg (Nat × String)) (root : Addr) (t : TrainState Unit)
    (cell : Nat → Mat ℝ) (iterations : List (List (Val × (Val → Except PyErr Val)))) :
    (MSession.loop (memNet erf draws) N slot cfg root ⟨t, ⟨readParams t.nodes slot, cell, 3⟩, [0, 2], [], []⟩ iterations).map MSession.train =
      trainLoop (valNet erf draws) N slot cfg root t iterations :=
  C123_loop (memNet_faithful erf draws) _ rfl (fun a ha => (by simp at ha; show a < 3; omega)) rfl iterations

/-- Linear regression, for any data. -/
example (its : List (List (ℝ × ℝ))) : ∃ u, exMemStart.loop (linearBody 0 1).layer 2 exLinearSlots exTrainCfg 0
      ((its.map fun bs => bs.map fun b => exLinearBatch b.1 b.2).map fun bs => bs.map fun b => (b.input, b.lossGrad)) = .ok u ∧
    u.train.opt.step = 0 + (its.map fun bs => bs.map fun b => exLinearBatch b.1 b.2).length ∧
    Spec.Wired u.train.nodes 0 exLinearSlots exLinearKey (Spec.descent (fun t _ => 1 / ((t : ℝ) + 2)) (fun _ _ => 1) 0 0
      ((its.map fun bs => bs.map fun b => exLinearBatch b.1 b.2).map fun bs => bs.map Spec.Batch.loss)) 0 :=
  C123_loop_sgd (C122_linear 0 1) (cfg := exTrainCfg) rfl (fun _ _ _ => rfl) (fun _ _ _ => rfl) exMemStart rfl (fun _ h => (by cases h)) rfl _
    exLinear_wired (exSession_takesAll _ (by
      intro bs hbs b hb
      obtain ⟨cs, -, rfl⟩ := List.mem_map.1 hbs
      obtain ⟨c, -, rfl⟩ := List.mem_map.1 hb
      exact ⟨c.1, c.2, rfl⟩) _ _ _ _)

theorem exLinear_distinct : Spec.DistinctIds exLinearHeap 0 := by
  intro a b n m _ _ e1 e2 _
  have h1 : ∀ (a : Nat) n, exLinearHeap[a]? = some n → a = 0 := by
    intro a n e
    have := (List.getElem?_eq_some_iff.1 e).1
    simp only [exLinearHeap, List.length_cons, List.length_nil] at this
    omega
  exact (h1 a n e1).trans (h1 b m e2).symm

theorem exAdam_takes (its : List (List (ℝ × ℝ))) (hne : ∀ bs ∈ its, bs ≠ []) : ∀ (k : ℕ) (S : Spec.Vars fun _ : Fin 2 => (1, 1)),
    Spec.TakesEvery (linear 0 1) (fun t p => exAdamTrain.hyper t (exLinearKey p) none) true k S
      (its.map fun bs => bs.map fun b => exLinearBatch b.1 b.2) := by
  induction its with
  | nil => intro k S; trivial
  | cons bs its ih =>
    intro k S
    refine ⟨?_, ?_, ih (fun b hb => hne b (by simp [hb])) _ _⟩
    · simpa using hne bs (by simp)
    · intro b hb
      obtain ⟨c, -, rfl⟩ := List.mem_map.1 hb
      exact C90_takes (exLinear_takes c.1 c.2 _) (C90_linear_fills 0 1) (by decide)

/-- The same with Adam. -/
example (its : List (List (ℝ × ℝ))) (hne : ∀ bs ∈ its, bs ≠ []) :=
  C123_loop_adam (C122_linear 0 1) (cfg := exAdamTrain) rfl (fun _ _ _ _ => by norm_num [exAdamTrain]) (fun _ => Nat.one_pos) exMemStart rfl
    (fun _ h => (by cases h)) rfl (S := fun _ => Spec.Var.fresh 0) _ exLinear_wired exLinear_distinct
    (fun p => C90_fresh (sh := fun _ : Fin 2 => (1, 1)) true exLinearKey (fun _ => 0) p) (exAdam_takes its hne _ _)

end Thinc
