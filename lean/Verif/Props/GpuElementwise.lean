import Verif.Model.GpuElementwise
import Verif.Props.GpuKernels
import Verif.Model.Optimizer
import Verif.Props.Activations
import Mathlib.Tactic.Ring
import Mathlib.Tactic.Linarith
import Mathlib.Analysis.Complex.ExponentialBounds
/-!
# C96: elementwise CUDA kernels give the CPU result for every launch size and every schedule, in place or not
-/
namespace Thinc.Gpu
open Real

/-! ### From elements to arrays -/

theorem elemMem_arg (ip : Bool) (junk : Nat → ℝ) (N : Nat) (ins : List NdArr) (k : Nat) (hk : k < ins.length) :
    (elemMem ip junk N ins).size (elemArg ip k) = ins[k].size ∧ ∀ i, (elemMem ip junk N ins).get (elemArg ip k, i) = .num (ins[k].val i) := by
  cases ip <;> simp [elemMem, elemArg, memOf, nums, Mem.get, hk]

theorem elemMem_out (ip : Bool) (junk : Nat → ℝ) (N : Nat) (ins : List NdArr) (h0 : 0 < ins.length) (hN : ins[0].size = N) :
    (elemMem ip junk N ins).size 0 = N := by
  cases ip
  · simp [elemMem, memOf, nums]
  · have := (elemMem_arg true junk N ins 0 h0).1
    simpa [elemArg, hN] using this

/-- What an element may read: anything that is not the result, and its own place in the result. -/
abbrev elemRd (i : Nat) : Loc → Prop := fun l => l.1 ≠ 0 ∨ l = (0, i)
/-- What it may write. -/
abbrev elemOwn (i : Nat) : Loc → Prop := fun l => l = (0, i)

theorem always_elem {N : Nat} (ip : Bool) (junk : Nat → ℝ) (ins : List NdArr) (f : Nat → ℝ) (body : Unit → Nat → Prog ℝ Unit)
    (h0 : 0 < ins.length) (hN : ∀ x ∈ ins, x.size = N)
    (hbody : ∀ i < N, ∀ m : Mem ℝ, i < m.size 0 →
      (∀ k (hk : k < ins.length), i < m.size (elemArg ip k) ∧ elemRd i (elemArg ip k, i) ∧ m.get (elemArg ip k, i) = .num (ins[k].val i)) →
      (body () i).wp (elemRd i) (elemOwn i) m (fun _ m => m.get (0, i) = .num (f i))) :
    Always (grid N () body) (elemMem ip junk N ins)
      (fun m => m.HoldsList 0 N f ∧ m.SameFrom 1 (elemMem ip junk N ins)) := by
  have hout := elemMem_out ip junk N ins h0 (hN _ (List.getElem_mem _))
  refine Always.mono (always_grid (O := elemOwn) (ro := fun l => l.1 ≠ 0) (P := fun i m => m.get (0, i) = .num (f i))
    (J := fun _ _ => True) body () ?_ ?_ ?_ trivial (fun _ _ _ _ _ => trivial) ?_) ?_
  · rintro b b' l _ _ rfl h
    injection h
  · rintro b l _ rfl h
    exact h rfl
  · intro b m m' h hp
    rw [← h _ rfl]
    exact hp
  · intro i hi s m _ hs hro hO
    refine wp_mono (fun _ _ h => ⟨trivial, h⟩) (hbody i hi m (by rw [hs, hout]; exact hi) (fun k hk => ?_))
    obtain ⟨h1, h2⟩ := elemMem_arg ip junk N ins k hk
    refine ⟨by rw [hs, h1, hN _ (List.getElem_mem _)]; exact hi, ?_⟩
    by_cases hz : elemArg ip k = 0
    · rw [hz] at h2 ⊢
      exact ⟨Or.inr rfl, by rw [hO _ rfl, h2]⟩
    · exact ⟨Or.inl hz, by rw [hro _ hz, h2]⟩
  · rintro m ⟨h1, h2, h3⟩
    refine ⟨⟨by rw [h1, hout], h2⟩, fun p hp => ⟨by rw [h1], fun i => h3 _ (fun b _ h => ?_)⟩⟩
    injection h with h _
    omega

theorem elem_write {i : Nat} {m : Mem ℝ} {x : ℝ} (h : i < m.size 0) :
    (writeNum 0 i x).wp (elemRd i) (elemOwn i) m (fun _ m => m.get (0, i) = .num x) :=
  wp_writeNum i rfl h rfl (get_set_self _ _ _)

/-- A function of one array. -/
theorem always_elem1 (ip : Bool) (junk : Nat → ℝ) (X : NdArr) (f : Nat → ℝ) (body : Unit → Nat → Prog ℝ Unit)
    (hbody : ∀ i < X.size, ∀ m : Mem ℝ, i < m.size 0 → i < m.size (elemArg ip 0) → elemRd i (elemArg ip 0, i) →
      m.get (elemArg ip 0, i) = .num (X.val i) →
      (body () i).wp (elemRd i) (elemOwn i) m (fun _ m => m.get (0, i) = .num (f i))) :
    Always (grid X.size () body) (elemMem ip junk X.size [X])
      (fun m => m.HoldsList 0 X.size f ∧ m.SameFrom 1 (elemMem ip junk X.size [X])) :=
  always_elem ip junk [X] f body (by simp) (by simp) (fun i hi m h0 h =>
    hbody i hi m h0 (h 0 (by simp)).1 (h 0 (by simp)).2.1 (h 0 (by simp)).2.2)

theorem checkShape_ok {X : NdArr} {s : List Nat} (h : X.shape = s) : checkShape X s = .ok () := if_neg (not_not.2 h)
theorem checkShape_error {X : NdArr} {s : List Nat} (h : X.shape ≠ s) : checkShape X s = .error .valueError := if_pos h
theorem size_eq {X Y : NdArr} (h : X.shape = Y.shape) : X.size = Y.size := by rw [NdArr.size, NdArr.size, h]

/-- A function of two arrays. -/
theorem always_elem2 (ip : Bool) (junk : Nat → ℝ) (dY X : NdArr) (hX : X.shape = dY.shape) (f : Nat → ℝ) (body : Unit → Nat → Prog ℝ Unit)
    (hbody : ∀ i < dY.size, ∀ m : Mem ℝ, i < m.size 0 → i < m.size (elemArg ip 0) → elemRd i (elemArg ip 0, i) →
      m.get (elemArg ip 0, i) = .num (dY.val i) → i < m.size (elemArg ip 1) → elemRd i (elemArg ip 1, i) →
      m.get (elemArg ip 1, i) = .num (X.val i) →
      (body () i).wp (elemRd i) (elemOwn i) m (fun _ m => m.get (0, i) = .num (f i))) :
    Always (grid dY.size () body) (elemMem ip junk dY.size [dY, X])
      (fun m => m.HoldsList 0 dY.size f ∧ m.SameFrom 1 (elemMem ip junk dY.size [dY, X])) :=
  always_elem ip junk [dY, X] f body (by simp) (by simp [size_eq hX]) (fun i hi m h0 h =>
    hbody i hi m h0 (h 0 (by simp)).1 (h 0 (by simp)).2.1 (h 0 (by simp)).2.2 (h 1 (by simp)).1 (h 1 (by simp)).2.1 (h 1 (by simp)).2.2)

/-! ### Activations -/

/-- **C96**: `clipped_linear` (and with it `relu_k`, `hard_sigmoid` and `hard_tanh`) on the GPU, in place or not, gives the values of the
CPU function, with any number of blocks and threads and any interleaving. -/
theorem C96_clipped_linear (ip : Bool) (junk : Nat → ℝ) (slope offset lo hi : ℝ) (X : NdArr) :
    let L := gpuClippedLinear ip junk slope offset lo hi X
    Always L.kernel L.mem (fun m => m.HoldsList 0 X.size (clippedLinear slope offset lo hi X.val) ∧ m.SameFrom 1 L.mem) :=
  always_elem1 ip junk X _ _ (fun i _ m h0 h1 hr hx => wp_bind'.2 (wp_readNum i rfl h1 hr hx (elem_write h0)))

/-- **C96**: `dish` on the GPU. -/
theorem C96_dish (ip : Bool) (junk : Nat → ℝ) (X : NdArr) :
    let L := gpuDish ip junk X
    Always L.kernel L.mem (fun m => m.HoldsList 0 X.size (dish X.val) ∧ m.SameFrom 1 L.mem) := by
  refine always_elem1 ip junk X _ _ (fun i _ m h0 h1 hr hx => wp_bind'.2 (wp_readNum i rfl h1 hr hx ?_))
  refine wp_mono (fun _ m h => ?_) (elem_write h0)
  rw [h, dish]
  simp only
  congr 1
  rw [add_comm 1 (_ * _), ← sq]
  ring

/-- **C96**: `mish` on the GPU. -/
theorem C96_mish (ip : Bool) (junk : Nat → ℝ) (threshold : ℝ) (X : NdArr) :
    let L := gpuMish ip junk threshold X
    Always L.kernel L.mem (fun m => m.HoldsList 0 X.size (opsMish threshold X.val) ∧ m.SameFrom 1 L.mem) := by
  refine always_elem1 ip junk X _ _ (fun i _ m h0 h1 hr hx => wp_bind'.2 (wp_readNum i rfl h1 hr hx ?_))
  unfold opsMish
  simp only
  split_ifs with h
  · exact wp_bind'.2 (wp_readNum i rfl h1 hr hx (elem_write h0))
  · exact wp_bind'.2 (wp_readNum i rfl h1 hr hx (wp_bind'.2 (wp_readNum i rfl h1 hr hx (elem_write h0))))

/-- A function that is replaced by 0 far to the left and by the identity far to the right. -/
noncomputable def cutOff (t : ℝ) (f : ℝ → ℝ) (x : ℝ) : ℝ := if x ≥ t then x else if x ≤ -t then 0 else f x

/-- **C96**: `gelu` on the GPU: `x Φ(x)` between -6 and 6, and 0 or `x` outside. -/
theorem C96_gelu (erf : ℝ → ℝ) (ip : Bool) (junk : Nat → ℝ) (X : NdArr) :
    let L := gpuGelu erf ip junk X
    Always L.kernel L.mem (fun m => m.HoldsList 0 X.size (fun i => cutOff 6 (fun x => x * (0.5 * (1 + erf (x / √2)))) (X.val i)) ∧
      m.SameFrom 1 L.mem) := by
  refine always_elem1 ip junk X _ _ (fun i _ m h0 h1 hr hx => wp_bind'.2 (wp_readNum i rfl h1 hr hx ?_))
  unfold cutOff
  split_ifs with h h'
  · exact elem_write h0
  · exact elem_write h0
  · refine wp_mono (fun _ m h => ?_) (elem_write h0)
    rw [h]
    congr 5
    ring

/-- **C96**: `swish` on the GPU: `x σ(x)` between -17 and 17, and 0 or `x` outside. -/
theorem C96_swish (ip : Bool) (junk : Nat → ℝ) (X : NdArr) :
    let L := gpuSwish ip junk X
    Always L.kernel L.mem (fun m => m.HoldsList 0 X.size (fun i => cutOff 17 (fun x => x * (1 / (1 + exp (-x)))) (X.val i)) ∧
      m.SameFrom 1 L.mem) := by
  refine always_elem1 ip junk X _ _ (fun i _ m h0 h1 hr hx => wp_bind'.2 (wp_readNum i rfl h1 hr hx ?_))
  unfold cutOff
  split_ifs with h h'
  · exact wp_bind'.2 (wp_readNum i rfl h1 hr hx (elem_write h0))
  · refine wp_bind'.2 (wp_readNum i rfl h1 hr hx ?_)
    rw [if_pos h']
    exact elem_write h0
  · refine wp_bind'.2 (wp_readNum i rfl h1 hr hx ?_)
    rw [if_neg h']
    exact wp_bind'.2 (wp_readNum i rfl h1 hr hx (wp_bind'.2 (wp_readNum i rfl h1 hr hx (elem_write h0))))

/-! ### Gradients -/

/-- **C96**: `backprop_clipped_linear` on the GPU gives what the CPU gives, except that a slope of zero gives zeros instead of an
exception. -/
theorem C96_backprop_clipped_linear (ip : Bool) (junk : Nat → ℝ) (slope offset lo hi : ℝ) (dY X : NdArr) (hX : X.shape = dY.shape) :
    ∃ L, gpuBackpropClippedLinear ip junk slope offset lo hi dY X = .ok L ∧
      (∀ dX, backpropClippedLinear slope offset lo hi dY.val X.val = .ok dX →
        Always L.kernel L.mem (fun m => m.HoldsList 0 dY.size dX ∧ m.SameFrom 1 L.mem)) ∧
      (slope = 0 → Always L.kernel L.mem (fun m => m.HoldsList 0 dY.size (fun _ => 0) ∧ m.SameFrom 1 L.mem)) := by
  unfold gpuBackpropClippedLinear
  rw [checkShape_ok hX]
  refine ⟨_, rfl, fun dX hdX => ?_, fun hs => ?_⟩
  · unfold backpropClippedLinear at hdX
    by_cases hs : slope = 0
    · rw [if_pos hs] at hdX
      exact absurd hdX (by simp)
    · rw [if_neg hs] at hdX
      injection hdX with hdX
      subst hdX
      refine always_elem2 ip junk dY X hX _ _ (fun i _ m h0 h1 hr1 hy h2 hr2 hx => wp_bind'.2 (wp_readNum i rfl h2 hr2 hx ?_))
      simp only
      split_ifs with h
      · exact wp_bind'.2 (wp_readNum i rfl h1 hr1 hy (elem_write h0))
      · rw [mul_zero]
        exact elem_write h0
  · refine always_elem2 ip junk dY X hX _ _ (fun i _ m h0 h1 hr1 hy h2 hr2 hx => wp_bind'.2 (wp_readNum i rfl h2 hr2 hx ?_))
    split_ifs with h
    · refine wp_bind'.2 (wp_readNum i rfl h1 hr1 hy ?_)
      rw [hs, mul_zero]
      exact elem_write h0
    · exact elem_write h0

/-- **C96**: `backprop_hard_swish` on the GPU. -/
theorem C96_backprop_hard_swish (ip : Bool) (junk : Nat → ℝ) (dY X : NdArr) (hX : X.shape = dY.shape) :
    ∃ L, gpuBackpropHardSwish ip junk dY X = .ok L ∧
      Always L.kernel L.mem (fun m => m.HoldsList 0 dY.size (backpropHardSwish dY.val X.val) ∧ m.SameFrom 1 L.mem) := by
  unfold gpuBackpropHardSwish
  rw [checkShape_ok hX]
  refine ⟨_, rfl, always_elem2 ip junk dY X hX _ _ (fun i _ m h0 h1 hr1 hy h2 hr2 hx => wp_bind'.2 (wp_readNum i rfl h2 hr2 hx ?_))⟩
  unfold backpropHardSwish
  simp only
  by_cases h : X.val i > 2.5
  · rw [if_pos h, if_neg (by norm_num at h ⊢; linarith), if_pos h, mul_one]
    exact wp_bind'.2 (wp_readNum i rfl h1 hr1 hy (elem_write h0))
  · rw [if_neg h, if_neg h]
    refine wp_bind'.2 (wp_readNum i rfl h2 hr2 hx ?_)
    split_ifs with h'
    · rw [mul_zero]
      exact elem_write h0
    · exact wp_bind'.2 (wp_readNum i rfl h1 hr1 hy (wp_bind'.2 (wp_readNum i rfl h2 hr2 hx (elem_write h0))))

/-- **C96**: `backprop_hard_swish_mobilenet` on the GPU. -/
theorem C96_backprop_hard_swish_mobilenet (ip : Bool) (junk : Nat → ℝ) (dY X : NdArr) (hX : X.shape = dY.shape) :
    ∃ L, gpuBackpropHardSwishMobilenet ip junk dY X = .ok L ∧
      Always L.kernel L.mem (fun m => m.HoldsList 0 dY.size (backpropHardSwishMobilenet dY.val X.val) ∧ m.SameFrom 1 L.mem) := by
  unfold gpuBackpropHardSwishMobilenet
  rw [checkShape_ok hX]
  refine ⟨_, rfl, always_elem2 ip junk dY X hX _ _ (fun i _ m h0 h1 hr1 hy h2 hr2 hx => wp_bind'.2 (wp_readNum i rfl h2 hr2 hx ?_))⟩
  unfold backpropHardSwishMobilenet
  simp only
  by_cases h : X.val i > 3
  · rw [if_pos h, if_neg (by linarith), if_pos h, one_mul]
    exact wp_bind'.2 (wp_readNum i rfl h1 hr1 hy (elem_write h0))
  · rw [if_neg h, if_neg h]
    refine wp_bind'.2 (wp_readNum i rfl h2 hr2 hx ?_)
    split_ifs with h'
    · rw [zero_mul]
      exact elem_write h0
    · refine wp_bind'.2 (wp_readNum i rfl h1 hr1 hy (wp_bind'.2 (wp_readNum i rfl h2 hr2 hx (wp_mono (fun _ m h => ?_) (elem_write h0)))))
      rw [h]
      congr 1
      ring

/-- **C96**: `backprop_dish` on the GPU. -/
theorem C96_backprop_dish (ip : Bool) (junk : Nat → ℝ) (dY X : NdArr) (hX : X.shape = dY.shape) :
    ∃ L, gpuBackpropDish ip junk dY X = .ok L ∧
      Always L.kernel L.mem (fun m => m.HoldsList 0 dY.size (backpropDish dY.val X.val) ∧ m.SameFrom 1 L.mem) := by
  unfold gpuBackpropDish
  rw [checkShape_ok hX]
  refine ⟨_, rfl, always_elem2 ip junk dY X hX _ _ (fun i _ m h0 h1 hr1 hy h2 hr2 hx => wp_bind'.2 (wp_readNum i rfl h2 hr2 hx ?_))⟩
  refine wp_bind'.2 (wp_readNum i rfl h1 hr1 hy (wp_mono (fun _ m h => ?_) (elem_write h0)))
  rw [h, backpropDish]
  simp only [sq]

/-- **C96**: `backprop_mish` on the GPU. -/
theorem C96_backprop_mish (ip : Bool) (junk : Nat → ℝ) (threshold : ℝ) (dY X : NdArr) (hX : X.shape = dY.shape) :
    ∃ L, gpuBackpropMish ip junk threshold dY X = .ok L ∧
      Always L.kernel L.mem (fun m => m.HoldsList 0 dY.size (opsBackpropMish threshold dY.val X.val) ∧ m.SameFrom 1 L.mem) := by
  unfold gpuBackpropMish
  rw [checkShape_ok hX]
  refine ⟨_, rfl, always_elem2 ip junk dY X hX _ _ (fun i _ m h0 h1 hr1 hy h2 hr2 hx => wp_bind'.2 (wp_readNum i rfl h2 hr2 hx ?_))⟩
  unfold opsBackpropMish
  simp only
  by_cases h : X.val i ≥ threshold
  · rw [if_pos h, if_neg (not_lt.2 h)]
    exact wp_bind'.2 (wp_readNum i rfl h1 hr1 hy (elem_write h0))
  · rw [if_neg h, if_pos (not_le.1 h)]
    refine wp_bind'.2 (wp_readNum i rfl h1 hr1 hy (wp_mono (fun _ m h => ?_) (elem_write h0)))
    rw [h]
    have e2 : exp (2 * X.val i) = exp (X.val i) ^ 2 := by rw [← exp_nat_mul]; norm_num
    congr 3
    rw [e2]
    ring

/-- **C96**: `backprop_gelu` on the GPU: the gradient times `Φ(x) + x φ(x)` between -6 and 6, and times 0 or 1 outside. -/
theorem C96_backprop_gelu (erf : ℝ → ℝ) (ip : Bool) (junk : Nat → ℝ) (dY X : NdArr) (hX : X.shape = dY.shape) :
    ∃ L, gpuBackpropGelu erf ip junk dY X = .ok L ∧
      Always L.kernel L.mem (fun m => m.HoldsList 0 dY.size (fun i => if X.val i ≥ 6 then dY.val i else if X.val i ≤ -6 then 0 else
        backpropGelu erf dY.val X.val i) ∧ m.SameFrom 1 L.mem) := by
  unfold gpuBackpropGelu
  rw [checkShape_ok hX]
  refine ⟨_, rfl, always_elem2 ip junk dY X hX _ _ (fun i _ m h0 h1 hr1 hy h2 hr2 hx => wp_bind'.2 (wp_readNum i rfl h2 hr2 hx ?_))⟩
  split_ifs with h h'
  · exact wp_bind'.2 (wp_readNum i rfl h1 hr1 hy (elem_write h0))
  · exact elem_write h0
  · exact wp_bind'.2 (wp_readNum i rfl h1 hr1 hy (elem_write h0))

/-- **C96**: `backprop_swish` on the GPU: the gradient times `y + σ(x) (1 - y)` between -17 and 17, and times 0 or 1 outside. -/
theorem C96_backprop_swish (ip : Bool) (junk : Nat → ℝ) (dY X Y : NdArr) (hX : X.shape = dY.shape) (hY : Y.shape = dY.shape) :
    ∃ L, gpuBackpropSwish ip junk dY X Y = .ok L ∧
      Always L.kernel L.mem (fun m => m.HoldsList 0 dY.size (fun i => if X.val i ≥ 17 then dY.val i else if X.val i ≤ -17 then 0 else
        dY.val i * (Y.val i + 1 / (1 + exp (-X.val i)) * (1 - Y.val i))) ∧ m.SameFrom 1 L.mem) := by
  unfold gpuBackpropSwish
  rw [checkShape_ok hX, checkShape_ok hY]
  refine ⟨_, rfl, always_elem ip junk [dY, X, Y] _ _ (by simp) (by simp [size_eq hX, size_eq hY]) (fun i _ m h0 h => ?_)⟩
  obtain ⟨h1, hr1, hd⟩ := h 0 (by simp)
  obtain ⟨h2, hr2, hx⟩ := h 1 (by simp)
  obtain ⟨h3, hr3, hy⟩ := h 2 (by simp)
  simp only [List.getElem_cons_zero, List.getElem_cons_succ] at hd hx hy
  refine wp_bind'.2 (wp_readNum i rfl h2 hr2 hx (wp_bind'.2 (wp_readNum i rfl h3 hr3 hy ?_)))
  split_ifs with h h'
  · exact wp_bind'.2 (wp_readNum i rfl h1 hr1 hd (elem_write h0))
  · exact elem_write h0
  · exact wp_bind'.2 (wp_readNum i rfl h1 hr1 hd (elem_write h0))

/-- The hypotheses of the theorems on gradients can be met. -/
example : (⟨[2, 3], fun k => k⟩ : NdArr).shape = (⟨[2, 3], fun _ => 1⟩ : NdArr).shape ∧ (⟨[2, 3], fun k => k⟩ : NdArr).size = 6 := ⟨rfl, rfl⟩

/-- **C96**: arrays of different shapes raise ValueError. -/
theorem C96_shapes (erf : ℝ → ℝ) (ip : Bool) (junk : Nat → ℝ) (t a b c d : ℝ) (dY X Y : NdArr) (h : X.shape ≠ dY.shape) :
    gpuBackpropClippedLinear ip junk a b c d dY X = .error .valueError ∧ gpuBackpropHardSwish ip junk dY X = .error .valueError ∧
    gpuBackpropHardSwishMobilenet ip junk dY X = .error .valueError ∧ gpuBackpropDish ip junk dY X = .error .valueError ∧
    gpuBackpropMish ip junk t dY X = .error .valueError ∧ gpuBackpropGelu erf ip junk dY X = .error .valueError ∧
    gpuBackpropSwish ip junk dY X Y = .error .valueError ∧ (∀ Z, Z.shape = dY.shape → gpuBackpropSwish ip junk dY Z X = .error .valueError) := by
  have e := checkShape_error h
  refine ⟨?_, ?_, ?_, ?_, ?_, ?_, ?_, fun Z hZ => ?_⟩
  · rw [gpuBackpropClippedLinear, e]; rfl
  · rw [gpuBackpropHardSwish, e]; rfl
  · rw [gpuBackpropHardSwishMobilenet, e]; rfl
  · rw [gpuBackpropDish, e]; rfl
  · rw [gpuBackpropMish, e]; rfl
  · rw [gpuBackpropGelu, e]; rfl
  · rw [gpuBackpropSwish, e]; rfl
  · rw [gpuBackpropSwish, checkShape_ok hZ, e]; rfl

/-! ### The gradients belong to the functions -/

theorem hasDerivAt_cutOff {t : ℝ} (ht : 0 < t) {f : ℝ → ℝ} {f' x : ℝ} (hf : HasDerivAt f f' x) (h1 : x ≠ t) (h2 : x ≠ -t) :
    HasDerivAt (cutOff t f) (if x ≥ t then 1 else if x ≤ -t then 0 else f') x := by
  rcases lt_or_gt_of_ne h1 with h | h
  · rw [if_neg (not_le.2 h)]
    rcases lt_or_gt_of_ne h2 with h' | h'
    · rw [if_pos h'.le]
      refine (hasDerivAt_const x (0 : ℝ)).congr_of_eventuallyEq ?_
      filter_upwards [isOpen_Iio.mem_nhds h'] with y hy
      simp only [Set.mem_Iio] at hy
      rw [cutOff, if_neg (by linarith), if_pos hy.le]
    · rw [if_neg (not_le.2 h')]
      refine hf.congr_of_eventuallyEq ?_
      filter_upwards [isOpen_Ioo.mem_nhds (show x ∈ Set.Ioo (-t) t from ⟨h', h⟩)] with y hy
      rw [cutOff, if_neg (not_le.2 hy.2), if_neg (not_le.2 hy.1)]
  · rw [if_pos h.le]
    refine (hasDerivAt_id x).congr_of_eventuallyEq ?_
    filter_upwards [isOpen_Ioi.mem_nhds h] with y hy
    simp only [Set.mem_Ioi] at hy
    rw [cutOff, if_pos hy.le, id]

theorem hasDerivAt_xsigmoid (x : ℝ) :
    HasDerivAt (fun x : ℝ => x * (1 / (1 + exp (-x)))) (x * (1 / (1 + exp (-x))) + 1 / (1 + exp (-x)) * (1 - x * (1 / (1 + exp (-x))))) x := by
  have hp : 1 + exp (-x) ≠ 0 := by positivity
  have h1 : HasDerivAt (fun x : ℝ => 1 + exp (-x)) (-exp (-x)) x := by
    simpa using ((hasDerivAt_neg x).exp).const_add 1
  have h := (hasDerivAt_id x).mul ((hasDerivAt_const x (1 : ℝ)).div h1 hp)
  refine (h.congr_deriv ?_).congr_of_eventuallyEq (Filter.Eventually.of_forall fun y => rfl)
  simp only [id, Pi.div_apply]
  field_simp
  ring

/-- **C96**: the gradient that `backprop_swish` applies on the GPU is the derivative of what `swish` computes on the GPU, at every point
except the two where the approximation sets in. -/
theorem C96_swish_gradient (x : ℝ) (h1 : x ≠ 17) (h2 : x ≠ -17) :
    let Y := cutOff 17 (fun x => x * (1 / (1 + exp (-x))))
    HasDerivAt Y (if x ≥ 17 then 1 else if x ≤ -17 then 0 else Y x + 1 / (1 + exp (-x)) * (1 - Y x)) x := by
  refine (hasDerivAt_cutOff (by norm_num) (hasDerivAt_xsigmoid x) h1 h2).congr_deriv ?_
  by_cases h : x ≥ 17
  · rw [if_pos h, if_pos h]
  · rw [if_neg h, if_neg h]
    by_cases h' : x ≤ -17
    · rw [if_pos h', if_pos h']
    · rw [if_neg h', if_neg h', cutOff, if_neg h, if_neg h']

/-- **C96**: the same for `gelu`, with the error function CUDA provides. -/
theorem C96_gelu_gradient (erf : ℝ → ℝ) (herf : ∀ x, HasDerivAt erf (2 / √π * exp (-x ^ 2)) x) (x : ℝ) (h1 : x ≠ 6) (h2 : x ≠ -6) :
    HasDerivAt (cutOff 6 (fun x => x * (0.5 * (1 + erf (x / √2)))))
      (if x ≥ 6 then 1 else if x ≤ -6 then 0 else gaussianCdf erf x + x * gaussianPdf x) x := by
  refine hasDerivAt_cutOff (by norm_num) ?_ h1 h2
  have hs : √2 ≠ 0 := by positivity
  have hpi : √π ≠ 0 := by positivity
  have h := (hasDerivAt_id x).mul ((((herf (x / √2)).comp x ((hasDerivAt_id x).div_const (√2))).const_add 1).const_mul 0.5)
  refine (h.congr_deriv ?_).congr_of_eventuallyEq (Filter.Eventually.of_forall fun y => rfl)
  simp only [id, Function.comp, Pi.div_apply, gaussianCdf, gaussianPdf]
  have e1 : (x / √2) ^ 2 = x ^ 2 / 2 := by rw [div_pow, sq_sqrt (by norm_num)]
  have e2 : √(2 * π) = √2 * √π := sqrt_mul (by norm_num) _
  rw [e1, e2, show -0.5 * x * x = -(x ^ 2 / 2) by ring, show 1 / √2 * x = x / √2 by ring]
  field_simp
  ring

example : ∃ erf : ℝ → ℝ, erf 0 = 0 ∧ ∀ x, HasDerivAt erf (2 / √π * exp (-x ^ 2)) x := exists_erf

/-- **C96**: `swish` on the GPU differs from `x σ(x)` by less than `1e-6` everywhere. -/
theorem C96_swish_error (x : ℝ) : |cutOff 17 (fun x => x * (1 / (1 + exp (-x)))) x - x * (1 / (1 + exp (-x)))| < 1e-6 := by
  have key : ∀ y : ℝ, 17 ≤ y → y / (1 + exp y) < 1e-6 := by
    intro y hy
    have h17 : (2.15e7 : ℝ) < exp 17 := by
      have h := exp_one_gt_d9
      have e : exp 17 = exp 1 ^ 17 := by rw [← exp_nat_mul]; norm_num
      rw [e]
      calc (2.15e7 : ℝ) < 2.7 ^ 17 := by norm_num
        _ ≤ _ := by gcongr; linarith
    have h1 : exp y = exp 17 * exp (y - 17) := by rw [← exp_add]; ring_nf
    have h2 := add_one_le_exp (y - 17)
    have h3 : (2.15e7 : ℝ) * (y - 17 + 1) ≤ exp y := by
      rw [h1]
      exact mul_le_mul h17.le h2 (by linarith) (exp_pos _).le
    rw [div_lt_iff₀ (by positivity)]
    nlinarith
  unfold cutOff
  split_ifs with h h'
  · have hp := exp_pos (-x)
    have e : x - x * (1 / (1 + exp (-x))) = x / (1 + exp x) := by
      rw [exp_neg]
      have := exp_pos x
      field_simp
      ring
    rw [e, abs_of_nonneg (div_nonneg (by linarith) (by positivity))]
    exact key x h
  · have e : (0 : ℝ) - x * (1 / (1 + exp (-x))) = -x / (1 + exp (-x)) := by ring
    rw [e, abs_of_nonneg (div_nonneg (by linarith) (by positivity))]
    exact key (-x) (by linarith)
  · norm_num

/-! ### Adam -/

/-- **C96**: `adam` on the GPU makes the same step as on the CPU: parameters and both moments, for every launch size and every schedule;
the gradient is only read.  (The caller's `fill(0)` comes after it.)  Arrays of different sizes raise ValueError. -/
theorem C96_adam (b1 b2 eps lr : ℝ) (w g m1 m2 : List ℝ) :
    (∀ e, adam w g m1 m2 b1 b2 eps lr = .error e → gpuAdam b1 b2 eps lr w g m1 m2 = .error e) ∧
    ∀ w' m1' m2', adam w g m1 m2 b1 b2 eps lr = .ok (w', m1', m2') →
      ∃ L, gpuAdam b1 b2 eps lr w g m1 m2 = .ok L ∧
        Always L.kernel L.mem (fun m => m.HoldsList 0 w.length (fun k => g.getD k 0) ∧ m.HoldsList 1 w.length (fun k => w'.getD k 0) ∧
          m.HoldsList 2 w.length (fun k => m1'.getD k 0) ∧ m.HoldsList 3 w.length (fun k => m2'.getD k 0)) := by
  unfold adam gpuAdam
  by_cases hl : w.length ≠ g.length ∨ w.length ≠ m1.length ∨ w.length ≠ m2.length
  · rw [if_pos hl, if_pos hl]
    exact ⟨fun e h => by injection h with h; rw [h], fun _ _ _ h => by simp at h⟩
  · rw [if_neg hl, if_neg hl]
    refine ⟨fun e h => by simp at h, fun w' m1' m2' h => ⟨_, rfl, ?_⟩⟩
    simp only [not_or, not_not] at hl
    obtain ⟨hg, hm1, hm2⟩ := hl
    simp only [Except.ok.injEq, Prod.mk.injEq] at h
    obtain ⟨hw', hm1', hm2'⟩ := h
    have e1 : ∀ i < w.length, m1'.getD i 0 = m1.getD i 0 * b1 + g.getD i 0 * (1 - b1) := by
      intro i hi
      rw [← hm1', List.getD_eq_getElem _ _ (by simp; omega), List.getD_eq_getElem _ _ (by omega), List.getD_eq_getElem _ _ (by omega)]
      simp
    have e2 : ∀ i < w.length, m2'.getD i 0 = m2.getD i 0 * b2 + g.getD i 0 * g.getD i 0 * (1 - b2) := by
      intro i hi
      rw [← hm2', List.getD_eq_getElem _ _ (by simp; omega), List.getD_eq_getElem _ _ (by omega), List.getD_eq_getElem _ _ (by omega)]
      simp
    have e3 : ∀ i < w.length, w'.getD i 0 = w.getD i 0 - lr * (m1'.getD i 0 / (1 * √(m2'.getD i 0) + eps)) := by
      intro i hi
      rw [hm1', hm2'] at hw'
      have hL1 : m1'.length = w.length := by rw [← hm1']; simp; omega
      have hL2 : m2'.length = w.length := by rw [← hm2']; simp; omega
      rw [← hw', List.getD_eq_getElem _ _ (by simp; omega), List.getD_eq_getElem _ _ (by omega), List.getD_eq_getElem _ _ (by omega),
        List.getD_eq_getElem _ _ (by omega)]
      simp
    refine Always.mono (always_grid (O := fun i l => l.1 ∈ [1, 2, 3] ∧ l.2 = i) (ro := fun l => l.1 = 0)
      (P := fun i m => m.get (1, i) = .num (w'.getD i 0) ∧ m.get (2, i) = .num (m1'.getD i 0) ∧ m.get (3, i) = .num (m2'.getD i 0))
      (J := fun _ _ => True) _ () ?_ ?_ ?_ trivial (fun _ _ _ _ _ => trivial) ?_) ?_
    · rintro b b' l _ _ ⟨_, h⟩ ⟨_, h'⟩
      omega
    · rintro b l _ ⟨h, _⟩ h'
      simp [h'] at h
    · intro b m m' h hp
      rwa [← h (1, b) ⟨by simp, rfl⟩, ← h (2, b) ⟨by simp, rfl⟩, ← h (3, b) ⟨by simp, rfl⟩]
    · intro i hi s m _ hs hro hO
      have hz : ∀ p < 4, i < m.size p := by
        intro p hp
        rw [hs]
        interval_cases p <;> exact hi
      refine wp_bind'.2 (wp_readNum (x := g.getD i 0) i rfl (hz 0 (by omega)) (Or.inl rfl) (by rw [hro _ rfl]; rfl) ?_)
      refine wp_bind'.2 (wp_readNum (x := m1.getD i 0) i rfl (hz 2 (by omega)) (Or.inr ⟨by simp, rfl⟩) (by rw [hO _ ⟨by simp, rfl⟩]; rfl) ?_)
      refine wp_bind'.2 (wp_writeNum i rfl (hz 2 (by omega)) ⟨by simp, rfl⟩ ?_)
      refine wp_bind'.2 (wp_readNum (x := m2.getD i 0) i rfl (hz 3 (by omega)) (Or.inr ⟨by simp, rfl⟩)
        (by rw [get_set_ne _ _ (by simp), hO _ ⟨by simp, rfl⟩]; rfl) ?_)
      refine wp_bind'.2 (wp_writeNum i rfl (hz 3 (by omega)) ⟨by simp, rfl⟩ ?_)
      refine wp_bind'.2 (wp_readNum (x := w.getD i 0) i rfl (hz 1 (by omega)) (Or.inr ⟨by simp, rfl⟩)
        (by rw [get_set_ne _ _ (by simp), get_set_ne _ _ (by simp), hO _ ⟨by simp, rfl⟩]; rfl) ?_)
      refine wp_writeNum i rfl (hz 1 (by omega)) ⟨by simp, rfl⟩ ⟨trivial, ?_, ?_, ?_⟩
      · rw [get_set_self, e3 i hi, e1 i hi, e2 i hi]
        congr 1
        ring_nf
      · rw [get_set_ne _ _ (by simp), get_set_ne _ _ (by simp), get_set_self, e1 i hi]
        congr 1
        ring
      · rw [get_set_ne _ _ (by simp), get_set_self, e2 i hi]
        congr 1
        ring
    · rintro m ⟨h1, h2, h3⟩
      refine ⟨⟨by rw [h1]; rfl, fun i hi => ?_⟩, ⟨by rw [h1]; rfl, fun i hi => (h2 i hi).1⟩, ⟨by rw [h1]; rfl, fun i hi => (h2 i hi).2.1⟩,
        ⟨by rw [h1]; rfl, fun i hi => (h2 i hi).2.2⟩⟩
      rw [h3 _ (fun b _ h => by simpa using h.1)]
      rfl

/-- The hypothesis can be met. -/
example : ∃ r, adam [1, 2] [3, 4] [0, 0] [0, 0] 0.9 0.999 1e-8 0.001 = .ok r := ⟨_, if_neg (by simp)⟩

end Thinc.Gpu
