import Verif.Props.Schedules
/-!
# Concrete cases that meet the hypotheses of the theorems in Props/Schedules
-/
namespace Thinc

example := C23_negative_step (constant (3 : ℚ) : Schedule Unit ℚ) (-1) () (by norm_num)
example := C23_nonneg_step (constant (3 : ℚ) : Schedule Unit ℚ) 5 () (by norm_num)
/-- A learning rate of 1 that decays: 1, 1/2, 1/3, 1/4, … -/
example := C26_decaying (E := Unit) (1 : ℚ) 1 0 (by norm_num) (by norm_num) (by norm_num) () 3 (by norm_num)
example := C26_constant_then (2 : ℚ) 10 (constant 3 : Schedule Unit ℚ) () 4 (by norm_num)
example := C26_constant (2 : ℚ) () 4 (by norm_num)
/-- Batch sizes from 1 to 16. -/
example := C24_compounding_up (E := Unit) 1 16 1.01 0 (by norm_num) (by norm_num) (by norm_num) (by norm_num) ()
example := C24_compounding_down (E := Unit) 16 1 0.5 0 (by norm_num) (by norm_num) (by norm_num) (by norm_num) (by norm_num) ()
example := C25_warmup_shape (E := Unit) (1 : ℚ) 2 10 (by norm_num) (by norm_num) () 3 (by norm_num)
example := C25_warmup_bounds (E := Unit) (1 : ℚ) (by norm_num) 2 10 () 3 (by norm_num)
example := C25_cyclic_shape (E := Unit) (1 : ℚ) 5 4 (by norm_num) () 3 (by norm_num)
example := C25_cyclic_bounds (E := Unit) (1 : ℚ) 5 (by norm_num) 4 (by norm_num) () 3 (by norm_num)
example := C25_cyclic_periodic (E := Unit) (1 : ℚ) 5 4 (by norm_num) () 3 (by norm_num)
example := C25_slanted_partial (E := Unit) (1 : ℚ) (by norm_num) 100 (1/10) (by norm_num) (by norm_num) 32 (by norm_num) 0 (by norm_num) 10
  (by norm_num) (by norm_num) () 20 (by norm_num) (by norm_num)
example := C25_slanted_few_steps (E := Unit) (1 : ℚ) 5 (by norm_num) (1/10) (by norm_num) (by norm_num) 32 0 (by norm_num) () 20 (by norm_num)
/-- A schedule that raises from the first step on. -/
example : ∃ g, (slantedTriangular (1 : ℚ) 5 (1/10) 32 0 : Schedule Unit ℚ).toGenerator 0 1 () = .ok g ∧ g.nth 1 = .error .stopIteration := by
  obtain ⟨g, hg⟩ : ∃ g, (slantedTriangular (1 : ℚ) 5 (1/10) 32 0 : Schedule Unit ℚ).toGenerator 0 1 () = .ok g := ⟨_, rfl⟩
  exact ⟨g, hg, C23_generator_closed _ 0 1 () g .zeroDivisionError hg
    (C25_slanted_few_steps (1 : ℚ) 5 (by norm_num) (1/10) (by norm_num) (by norm_num) 32 0 (by norm_num) () 0 (by norm_num)) 0⟩
example := C24_never_passes_stop (E := Unit) 1 16 1.01 0 0 () _ (C23_nonneg_step _ 0 () (by norm_num))

end Thinc
