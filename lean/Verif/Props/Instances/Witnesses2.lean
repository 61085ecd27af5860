import Verif.Props.CrossentropyGrad
import Verif.Props.Initialize
import Verif.Props.Lstm
import Verif.Props.TorchShim
import Verif.Props.TensorFlow
import Verif.Props.InitVariance
import Verif.Props.Session
import Verif.Props.Instances.Training
/-!
# The hypotheses of the theorems hold of concrete cases (2)
-/
namespace Thinc
open Spec

/-! ### C46 -/

/-- Two rows of guesses over three classes. -/
noncomputable def witGuesses : Mat ℝ := ⟨2, 3, fun _ => 0.5⟩
/-- One-hot targets. -/
noncomputable def witTargets : Mat ℝ := ⟨2, 3, fun k => if k = 1 ∨ k = 3 then 1 else 0⟩

theorem witGuesses_prob : isProb witGuesses := by
  intro i hi j hj
  constructor <;> norm_num [witGuesses, Mat.at]
theorem witTargets_prob : isProb witTargets := by
  intro i hi j hj
  simp only [witTargets, Mat.at]
  split <;> norm_num

theorem wit_fits (missing : Missing) : (CCE.mk true none missing none 0).Fits witGuesses :=
  ⟨Or.inl ⟨rfl, by decide⟩, fun names h => by simp at h, witGuesses_prob⟩

example := C46_missing_out_of_range_raises (CCE.mk true none (.int 1) none 0) witGuesses (wit_fits _) [2] 3 [] rfl (by decide) (.inl (by decide))
  (.intList [2, 3]) (.inl rfl)
example := C46_matrix_targets (CCE.mk true none (.int 1) none 0) witGuesses witTargets (wit_fits _) rfl rfl rfl witTargets_prob
example := C46_bad_matrix (CCE.mk true none .none none 0) witGuesses ⟨1, 3, fun _ => 0⟩ rfl rfl (.inl (by decide))
example := C46_strings_without_names (CCE.mk true none .none none 0) witGuesses "cat".toList ["dog".toList] rfl
example := C46_unknown_name (CCE.mk true (some ["cat".toList, "dog".toList]) .none (some ['!']) 0) witGuesses ["cat".toList, "dog".toList]
  (by decide) (by decide) rfl ["!dog".toList] [.negates 1] (.cons (.negates ['!'] 1 (by decide) rfl (by decide) nofun) .nil) "bird".toList []
  nofun (by decide) (by
    intro p h _ rest e
    cases h
    simp at e) ⟨[], .nil⟩

/-! ### C79 -/

theorem wit_chain : ∃ s', (NetNode.chain 9 ([0, 1, 2].map .leaf)).initialize exNetEnv (some (.arr exNetX)) (some (.arr (Mat.ofFn 2 7 fun _ _ => 0)))
    (exNetState fun id => if id = 0 then some 4 else if id = 1 then some 5 else none) = .ok s' := by
  obtain ⟨h1, -⟩ := C79_inference (E := exNetEnv) (id := 9) (ids := [0, 1, 2]) (X := exNetX) (n := some 7)
    (Y := some (.arr (Mat.ofFn 2 7 fun _ _ => 0)))
    (exNetState_sane fun id => if id = 0 then some 4 else if id = 1 then some 5 else none) (by simp) (by simp)
    (fun j hj => by simp at hj; rcases hj with rfl | rfl | rfl <;> simp [exNetEnv, IsDense]) ⟨7, rfl, rfl⟩
  exact h1.2 ⟨.inl rfl, .inl rfl, 4, .inl rfl, .inl rfl, 5, .inl rfl, .inl rfl, 7, .inr ⟨rfl, rfl⟩, trivial⟩

example := C79_ready (exNetState_sane _) wit_chain.choose_spec
example := C79_frame wit_chain.choose_spec 3 (by simp [NetNode.ids, idsOf])
example := C79_chain (exNetState_sane _) (by simp [plainOkAll, NetNode.PlainOk]) (by decide) wit_chain.choose_spec
example := C79_again (exNetState_sane _) (by simp) (by simp)
  (fun j hj => by simp at hj; rcases hj with rfl | rfl | rfl <;> simp [exNetEnv, IsDense]) (Y := some (.arr (Mat.ofFn 2 7 fun _ _ => 0)))
  (n := some 7) ⟨7, rfl, rfl⟩ (Y' := some (.arr (Mat.ofFn 5 7 fun _ _ => 1))) ⟨7, rfl, rfl⟩ (X := exNetX) (X' := Mat.ofFn 5 3 fun _ _ => 0) rfl
  wit_chain.choose_spec

/-! ### C82 -/

example := C82_batch_independent ⟨1, 2, 1, ⟨32, fun _ => 1⟩, fun _ => 0⟩ 1 (by decide) (show 0 < 1 by decide) (show 0 < 2 by decide)
  (show 0 < 1 by decide) (show cellStart 1 1 2 1 0 ≤ 32 by decide) [[[1]], [[2], [3]]] [[[5]], [[4]], [[2], [3]]] (by simp) (by simp) 0 0
  (fun _ _ => 0) (fun _ _ => 0) 1 2 rfl

/-! ### C92 -/

example := Torch.C92_accumulation_scaled (Torch.exShim true) true (Torch.exBatch 3) (Torch.exBatch 1) (fun _ => 1) (Torch.exShim_clean true)
  (Torch.exBatch_exact true 3) (Torch.exBatch_exact true 1) (fun _ => rfl) rfl
example := Torch.C92_scale_positive (Torch.Scaler.init true) [] (by norm_num [Torch.Scaler.init]) (by norm_num [Torch.Scaler.init])
  (by norm_num [Torch.Scaler.init])
example := Torch.C92_caller_scaled (Torch.exShim true) [1, 2] rfl
example := Torch.C92_disabled (Torch.Scaler.init false) rfl
example := Torch.C92_scale_args (Torch.Scaler.init true) true (.tensor true [some 1]) rfl
example := Torch.C92_scale_history (Torch.Scaler.init true) rfl

/-! ### C101, C102 -/

example := C101_training_partial TFCase.shim rfl (by simp [TFCase.shim]) TFCase.shim_shaped [TFCase.pass 3, TFCase.pass 4] (by simp)
  (by simp [TFCase.pass_good]) TFCase.sgd 0
example := C101_input TFCase.shim rfl [TFCase.pass 3] (by simp [TFCase.pass_good]) (TFCase.pass 4) (TFCase.pass_good 4)
example := C101_unused_variable TFCase.shim rfl ⟨1, 5, fun _ => some ⟨[1], [0]⟩, fun _ => none⟩ rfl 1 (by simp [TFCase.shim]) rfl
example := C101_several_inputs_one_row TFCase.shim _ ⟨2, 1, fun _ => some ⟨[1], [0]⟩, fun k => if k = 0 then some ⟨[2], [1, 2]⟩ else some ⟨[1], [2]⟩⟩
  (by decide) rfl _ rfl
example := C102_entries 3 [(.weight 3 "W", ⟨[1], [5]⟩), (.weight 4 "W", ⟨[1], [6]⟩)] (by
  intro k v w h h'
  simp at h h'
  rcases h with ⟨rfl, rfl⟩ | ⟨rfl, rfl⟩ <;> rcases h' with ⟨h, rfl⟩ | ⟨h, rfl⟩ <;> simp_all)

/-! ### C104 -/

theorem wit_rows : IsMat (⟨1, 3, fun k => k + 1⟩ : Mat ℝ) (fun (_ : Fin 1) (j : Fin 3) => (j : ℝ) + 1) :=
  ⟨rfl, rfl, fun i j => by simp [Mat.at, Fin.fin_one_eq_zero]⟩

example := C104_forward_partial .glorotUniform InitCase.rng id InitCase.draws InitCase.good 2 3 1 (by norm_num) 0 1 (by norm_num) true _ _ wit_rows
example := C104_backward .glorotUniform InitCase.rng id InitCase.draws InitCase.good 3 3 1 (by norm_num) 0 1 (by norm_num) true _ _ _ wit_rows _ wit_rows
example := C104_he_relu .heNormal (.inl rfl) InitCase.rng id InitCase.draws InitCase.good 2 3 1 (by norm_num) 0 1 (by norm_num) true _ _ wit_rows

/-! ### C117, C121 -/

example (iterations : List (List (ℝ × ℝ))) (hne : ∀ bs ∈ iterations, bs ≠ []) :=
  C117_adam (sh := fun _ : Fin 2 => (1, 1)) (cfg := insAdam) rfl (fun _ _ _ _ => by norm_num [insAdam]) (fun _ => Nat.one_pos) (fun _ _ _ _ => rfl)
    (L := linear 0 1) (S := fun _ => Var.fresh 0) ⟨exLinearHeap, OptState.init true⟩ ⟨exLinearHeap, OptState.init true⟩ rfl rfl
    (exBatches iterations) exLinear_wired ins_distinct
    (fun p => C90_fresh (sh := fun _ : Fin 2 => (1, 1)) true exLinearKey (fun _ => 0) p) exLinear_wired ins_distinct
    (fun p => C90_fresh (sh := fun _ : Fin 2 => (1, 1)) true exLinearKey (fun _ => 0) p) (ins_takesEvery iterations hne _ _ _ _)
example (iterations : List (List (ℝ × ℝ))) :=
  C117_sgd (sh := fun _ : Fin 2 => (1, 1)) (cfg := exTrainCfg) rfl (fun _ _ _ => rfl) (fun _ _ _ => rfl) (fun _ _ _ _ => ⟨rfl, rfl⟩)
    (L := linear 0 1) ⟨exLinearHeap, OptState.init true⟩ ⟨exLinearHeap, OptState.init true⟩ rfl rfl (exBatches iterations) exLinear_wired
    exLinear_wired (by exact exLinear_takesAll exTrainCfg exLinearKey none iterations 0 0)
example := C117_copy_holds (sh := fun _ : Fin 2 => (1, 1)) (S := Unit) [] 7 5 exLinear_wired
    (fun a n k X _ h hX => (exLinear_set h k).1 ⟨X, hX⟩) (by decide) exLinear_acyclic exLinear_wf
    (fun a n h k hk => (exLinear_set h k).2 hk)
    (fun a n h => (by obtain ⟨-, rfl⟩ := exLinear_node a n h; simp [exLinearNode])) (by decide)
example (x t x' t' : ℝ) := C121_sgd (cfg := exTrainCfg) rfl (fun _ _ _ => rfl) (fun _ _ _ => rfl) ⟨exLinearHeap, OptState.init true⟩ _ _
  (exCalls_work x t x' t') exLinear_wired (exSession_takesAll _ (by simp) _ _ _ _)
example (x t x' t' : ℝ) := C121_adam (cfg := insAdam) rfl (fun _ _ _ _ => by norm_num [insAdam]) (fun _ => Nat.one_pos)
  ⟨exLinearHeap, OptState.init true⟩ (S := fun _ => Var.fresh 0) _ _ (exCalls_work x t x' t') exLinear_wired ins_distinct
  (fun p => C90_fresh (sh := fun _ : Fin 2 => (1, 1)) true exLinearKey (fun _ => 0) p)
  (ins_takesEvery [[(x', t'), (x, t)], [(x', t'), (x', t')]] (by simp) _ _ _ _)

end Thinc
