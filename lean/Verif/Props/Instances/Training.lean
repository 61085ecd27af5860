import Verif.Props.Optimizer
import Verif.Props.CopyTraining
import Verif.Props.Splitting
/-!
# Concrete cases that meet the hypotheses of the theorems about optimizers and training
-/
namespace Thinc
open Spec

/-- Adam with decay, clipping and a learning rate that changes. -/
noncomputable def insAdam : OptCfg (Nat × String) :=
  ⟨fun t _ _ => 1 / (t + 1), fun _ _ _ => 0.9, fun _ _ _ => 0.999, fun _ _ _ => 0.001, fun _ _ _ => 0.01, fun _ _ _ => 1, false, true⟩

example := C17_per_parameter_partial insAdam true (fun h => by simp [insAdam] at h) (3, "W")
  [.call (3, "W") 1 [1, 2] [3, 4] 1, .call (4, "W") 1 [1] [3] 1, .stepSchedules, .setScore 5, .call (3, "W") 1 [1, 2] [3, 4] 1]
example := C18_consumes_gradient insAdam (OptState.init true) (3, "W") 1 [1, 2] [3, 4] rfl 1
example := C19_clip_gradient [3, 4] 1 (by norm_num)
example := C19_optimizer_clips insAdam (OptState.init true) (3, "W") [1, 2] [3, 4] (by norm_num [insAdam])
example := C20_bias_correction 0.9 0.999 0.001 2 5 7 (by norm_num) (by norm_num) (by norm_num) (by norm_num) (by norm_num) (by norm_num) (by norm_num)
example := C20_constant_gradient 0.9 5 (by norm_num) (by norm_num) 3 (by norm_num)

/-- The model of `Props/Training.lean` has one layer. -/
theorem ins_distinct : DistinctIds exLinearHeap 0 := by
  intro a b n m _ _ e1 e2 _
  have h1 : ∀ (a : Nat) n, exLinearHeap[a]? = some n → a = 0 := by
    intro a n e
    have := (List.getElem?_eq_some_iff.1 e).1
    simp only [exLinearHeap, List.length_cons, List.length_nil] at this
    omega
  exact (h1 a n e1).trans (h1 b m e2).symm

/-- Linear regression with Adam takes any batches of pairs, in iterations with at least one batch. -/
theorem ins_takesEvery (iterations : List (List (ℝ × ℝ))) (hne : ∀ bs ∈ iterations, bs ≠ []) (hyper : ℕ → Fin 2 → Hyper) (decay : Bool) (k : ℕ)
    (S : Vars fun _ : Fin 2 => (1, 1)) : TakesEvery (linear 0 1) hyper decay k S (exBatches iterations) := by
  induction iterations generalizing k S with
  | nil => trivial
  | cons bs its ih =>
    refine ⟨?_, ?_, ih (fun b hb => hne b (by simp [hb])) _ _⟩
    · simpa using hne bs (by simp)
    · intro b hb
      obtain ⟨c, -, rfl⟩ := List.mem_map.1 hb
      exact C90_takes (exLinear_takes c.1 c.2 _) (C90_linear_fills 0 1) (by decide)

example (iterations : List (List (ℝ × ℝ))) (hne : ∀ bs ∈ iterations, bs ≠ []) :=
  C117_copy_adam (sh := fun _ : Fin 2 => (1, 1)) (S := Unit) [] 7 5 exLinear_wired
    (fun a n k X _ h hX => (exLinear_set h k).1 ⟨X, hX⟩) ins_distinct (by decide) exLinear_acyclic exLinear_wf
    (fun a n h k hk => (exLinear_set h k).2 hk)
    (fun a n h => (by obtain ⟨-, rfl⟩ := exLinear_node a n h; simp [exLinearNode])) (by decide) (cfg := insAdam) rfl
    (fun _ _ _ _ => by norm_num [insAdam]) (fun _ => Nat.one_pos) (fun _ _ _ _ => rfl) (L := linear 0 1) (OptState.init true) rfl rfl rfl
    (fun avgs h => by simpa [OptState.init] using h.symm) (exBatches iterations) (ins_takesEvery iterations hne _ _ _ _)

example (t : ℝ) (best : Params fun _ : Fin 2 => (1, 1)) {δ : ℝ} (hδ : 0 < δ) :=
  C115_linear_regression_converges (A := Unit) (n := 1) (nO := 1) (nI := 1) Nat.one_pos (X := Mat.ofFn 1 1 fun _ _ => 1)
    (T := Mat.ofFn 1 1 fun _ _ => t) (x := fun _ _ => 1) (t := fun _ _ => t) (isMat_ofFn' _ _ fun _ _ => rfl) (isMat_ofFn' _ _ fun _ _ => rfl)
    (sh := fun _ : Fin 2 => (1, 1)) (W := 0) (b := 1) rfl rfl (by decide) false (cfg := exQuarter) rfl (fun _ _ _ => rfl) (fun _ _ _ => rfl)
    (fun _ _ _ => rfl) (lr := 1 / 4) (fun _ _ _ => rfl) (by norm_num) (by norm_num)
    ⟨exLinearHeap, OptState.init true⟩ exLinear_wired best hδ

/-- A classifier with one hidden linear layer; the labels of the rows are 1, 0 and 2, and the label 0 is "missing". -/
example {s : TrainState Unit} {θ : Params (fun p : Fin 4 => if p = 0 then (2, 2) else if p = 1 then (1, 2) else if p = 2 then (3, 2) else (1, 3))}
    {root : Addr} {slot : Slots} {key : Fin 4 → Nat × String} (x : Fin 3 → Fin 2 → ℝ) (its : List (List (Labels x ![1, 0, 2]) × List (Labels x ![1, 0, 2])))
    (hsame : ∀ it ∈ its, SameRows (it.1.map Labels.toRows) (it.2.map Labels.toRows)) (H : Wired s.nodes root slot key θ 0) :=
  C116_labels (o := 3) (m := 2) (W := 2) (b := 3) rfl rfl (by decide) (T := 1) one_pos true ⟨false, none, .int 0, none, 0⟩ rfl (Or.inl ⟨rfl, by decide⟩)
    (fun names h => by simp at h) (fun r => Or.inl (by fin_cases r <;> decide))
    (fun θ => ⟨_, .one (C116_linear 0 1 rfl rfl true θ), fun _ => trivial⟩) (cfg := exQuarter) rfl (fun _ _ _ => rfl) (fun _ _ _ => rfl) s its hsame H

end Thinc
