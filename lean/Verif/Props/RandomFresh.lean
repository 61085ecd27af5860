import Verif.Props.Random
import Mathlib.Tactic.Ring
import Mathlib.Tactic.Linarith
/-!
# C128: no random number is used twice
-/
namespace Thinc
open Random Spec.Random

/-- Specification: the draws `draws m i j` for masks of the given shapes are the numbers that the generator gives between its states `k` and
`k'`, every number for one entry of one mask only. -/
def Spec.Random.Fresh (source : Nat → ℝ) (shapes : List (Nat × Nat)) (draws : Nat → Nat → Nat → ℝ) (k k' : Nat) : Prop :=
  ∃ position : Nat → Nat → Nat → Nat,
    (∀ m rows cols, shapes[m]? = some (rows, cols) → ∀ i < rows, ∀ j < cols,
      draws m i j = source (position m i j) ∧ k ≤ position m i j ∧ position m i j < k') ∧
    ∀ m rows cols m' rows' cols', shapes[m]? = some (rows, cols) → shapes[m']? = some (rows', cols') →
      ∀ i < rows, ∀ j < cols, ∀ i' < rows', ∀ j' < cols', position m i j = position m' i' j' → m = m' ∧ i = i' ∧ j = j'

private theorem cell_lt {rows cols i j : Nat} (hi : i < rows) (hj : j < cols) : i * cols + j < rows * cols := by
  calc i * cols + j < i * cols + cols := by omega
    _ = (i + 1) * cols := by ring
    _ ≤ rows * cols := Nat.mul_le_mul_right _ hi

private theorem cell_inj {cols i j i' j' : Nat} (hj : j < cols) (hj' : j' < cols) (h : i * cols + j = i' * cols + j') : i = i' ∧ j = j' := by
  have hi : i = i' := by
    have h1 : (i * cols + j) / cols = i := by
      rw [Nat.mul_comm, Nat.mul_add_div (by omega), Nat.div_eq_of_lt hj]; rfl
    have h2 : (i' * cols + j') / cols = i' := by
      rw [Nat.mul_comm, Nat.mul_add_div (by omega), Nat.div_eq_of_lt hj']; rfl
    rw [← h1, ← h2, h]
  subst hi
  exact ⟨rfl, by omega⟩

private theorem drawMasks_le {rate : ℝ} (source : Nat → ℝ) : ∀ (shapes : List (Nat × Nat)) (k : Nat),
    k ≤ (drawMasks source (some rate) shapes k).2
  | [], k => Nat.le.refl
  | (rows, cols) :: shapes, k => by
    have h : k ≤ (drawMask source (some rate) rows cols k).2 := by
      simp only [drawMask]
      split
      · exact Nat.le.refl
      · split
        · exact Nat.le.refl
        · exact Nat.le_add_right _ _
    exact Nat.le_trans h (drawMasks_le source shapes _)

private theorem drawMasks_fresh {rate : ℝ} (h0 : 0 < rate) (h1 : rate < 1) (source : Nat → ℝ) (shapes : List (Nat × Nat)) (k : Nat) :
    Spec.Random.Fresh source shapes (fun m => (drawMasks source (some rate) shapes k).1.getD m fun _ _ => 0) k
      (drawMasks source (some rate) shapes k).2 := by
  have e0 : ¬ rate ≤ 0 := not_le.mpr h0
  have e1 : ¬ rate ≥ 1.0 := by norm_num; exact h1
  induction shapes generalizing k with
  | nil => exact ⟨fun _ _ _ => 0, by simp, by simp⟩
  | cons sh shapes ih =>
    obtain ⟨rows, cols⟩ := sh
    have hd : drawMask source (some rate) rows cols k = (fun i j => source (k + i * cols + j), k + rows * cols) := by
      simp only [drawMask, if_neg e0, if_neg e1]
    obtain ⟨p, hp, hinj⟩ := ih (k + rows * cols)
    have hds : drawMasks source (some rate) ((rows, cols) :: shapes) k =
        ((fun i j => source (k + i * cols + j)) :: (drawMasks source (some rate) shapes (k + rows * cols)).1,
          (drawMasks source (some rate) shapes (k + rows * cols)).2) := by
      simp only [drawMasks, hd]
    rw [hds]
    have hle := drawMasks_le (rate := rate) source shapes (k + rows * cols)
    refine ⟨fun m i j => match m with | 0 => k + i * cols + j | m + 1 => p m i j, ?_, ?_⟩
    · intro m r c hm i hi j hj
      cases m with
      | zero =>
        simp only [List.getElem?_cons_zero, Option.some.injEq, Prod.mk.injEq] at hm
        obtain ⟨rfl, rfl⟩ := hm
        have := cell_lt hi hj
        exact ⟨rfl, by dsimp only; omega, by dsimp only; omega⟩
      | succ m =>
        obtain ⟨h1, h2, h3⟩ := hp m r c (by simpa using hm) i hi j hj
        exact ⟨by simpa using h1, by dsimp only; omega, h3⟩
    · intro m r c m' r' c' hm hm' i hi j hj i' hi' j' hj' heq
      cases m with
      | zero =>
        simp only [List.getElem?_cons_zero, Option.some.injEq, Prod.mk.injEq] at hm
        obtain ⟨rfl, rfl⟩ := hm
        have hlt := cell_lt hi hj
        cases m' with
        | zero =>
          simp only [List.getElem?_cons_zero, Option.some.injEq, Prod.mk.injEq] at hm'
          obtain ⟨rfl, rfl⟩ := hm'
          dsimp only at heq
          have hc : i * cols + j = i' * cols + j' := by omega
          obtain ⟨rfl, rfl⟩ := cell_inj hj hj' hc
          exact ⟨rfl, rfl, rfl⟩
        | succ m' =>
          have := (hp m' r' c' (by simpa using hm') i' hi' j' hj').2.1
          dsimp only at heq
          omega
      | succ m =>
        cases m' with
        | zero =>
          simp only [List.getElem?_cons_zero, Option.some.injEq, Prod.mk.injEq] at hm'
          obtain ⟨rfl, rfl⟩ := hm'
          have hlt := cell_lt hi' hj'
          have := (hp m r c (by simpa using hm) i hi j hj).2.1
          dsimp only at heq
          omega
        | succ m' =>
          obtain ⟨rfl, rfl, rfl⟩ := hinj m r c m' r' c' (by simpa using hm) (by simpa using hm') i hi j hj i' hi' j' hj' heq
          exact ⟨rfl, rfl, rfl⟩

/-- **C128.**  A dropout layer in training uses numbers that the generator gives during this call, and none of them twice, also in a list of
arrays.  The generator never goes back, so no later call uses them again. -/
theorem C128_fresh {rate : ℝ} (h0 : 0 < rate) (h1 : rate < 1) (source : Nat → ℝ) (P : ParamVals) (X : Val) (k : Nat) :
    ∃ draws : Nat → Nat → Nat → ℝ,
      (dropoutR rate true source true P X k).1 = dropout rate true draws true P X ∧
      Spec.Random.Fresh source (maskShapes X) draws k (dropoutR rate true source true P X k).2 := by
  have h : ¬ (rate = 0 ∨ (true && true) = false) := by simp [h0.ne']
  have hd : dropoutR rate true source true P X k =
      (dropout rate true (fun m => (drawMasks source (some rate) (maskShapes X) k).1.getD m fun _ _ => 0) true P X,
        (drawMasks source (some rate) (maskShapes X) k).2) := by
    unfold dropoutR
    rw [if_neg h]
  rw [hd]
  exact ⟨fun m => (drawMasks source (some rate) (maskShapes X) k).1.getD m fun _ _ => 0, rfl, drawMasks_fresh h0 h1 source (maskShapes X) k⟩

/-- **C128.**  No call of a network turns the generator back. -/
theorem C128_forward_only {N : (Nat → ℝ) → RLayer} {L : Layer} (h : Network N L) (source : Nat → ℝ) (train : Bool) (P : ParamVals) (X : Val)
    (k : Nat) : k ≤ (N source train P X k).2 := by
  have hmask : ∀ rate rows cols k, k ≤ (drawMask source rate rows cols k).2 := by
    intro rate rows cols k
    cases rate with
    | none => exact Nat.le.refl
    | some rate =>
      simp only [drawMask]
      split
      · exact Nat.le.refl
      · split
        · exact Nat.le.refl
        · exact Nat.le_add_right _ _
  induction h generalizing X k with
  | plain L => exact Nat.le.refl
  | dropout rate isEnabled draws =>
    unfold dropoutR
    split
    · exact Nat.le.refl
    · exact drawMasks_le source _ _
  | embed E rate fast flips =>
    unfold embedR
    split
    · exact Nat.le.refl
    · split
      · exact hmask _ _ _ _
      · exact Nat.le.refl
  | hashEmbed E seed rate fast flips =>
    unfold hashEmbedR
    split
    · exact Nat.le.refl
    · split
      · exact hmask _ _ _ _
      · exact Nat.le.refl
    · exact Nat.le.refl
  | @combine tree comb calls Ns Ls len nets ih =>
    have hcall : ∀ i x k, k ≤ (callLayerR (Ns.map fun N => N source) train P i x k).2 := by
      intro i x k
      simp only [callLayerR, List.getElem?_map]
      by_cases hi : i < Ns.length
      · have hi' : i < Ls.length := len ▸ hi
        rw [List.getElem?_eq_getElem hi]
        refine ih (Ns[i], Ls[i]) ?_ x k
        rw [← List.getElem_zip (h := by simpa using ⟨hi, hi'⟩)]
        exact List.getElem_mem _
      · rw [List.getElem?_eq_none (by omega)]
        exact Nat.le.refl
    have hrun : ∀ (t : CallTree) k, k ≤ (t.runR (callLayerR (Ns.map fun N => N source) train P) k).2 := by
      intro t
      induction t with
      | done r => intro k; exact Nat.le.refl
      | call i x next iht =>
        intro k
        have h1 := hcall i x k
        rw [CallTree.runR]
        generalize callLayerR (Ns.map fun N => N source) train P i x k = q at h1 ⊢
        obtain ⟨r, k'⟩ := q
        cases r with
        | error e => exact h1
        | ok r => exact Nat.le_trans h1 (iht r k')
    exact hrun _ _

/-- **C128.**  `with_cpu` does not turn the generator back either. -/
theorem C128_with_cpu_forward_only {N : (Nat → ℝ) → RLayer} {L : Layer} (h : Network N L) (source : Nat → ℝ) (train : Bool) (P : ParamVals)
    (X : Val) (k : Nat) : k ≤ (withCpuR (N source) train P X k).2 := C128_forward_only h source true P X k

/-- Two arrays of two numbers: the layer draws four different numbers. -/
example : Spec.Random.Fresh (fun n => n) [(1, 2), (2, 1)] (fun m i j => ([[[0, 1], [0, 0]], [[2, 0], [3, 0]]].getD m []).getD i [] |>.getD j 0) 0 4 := by
  refine ⟨fun m i j => if m = 0 then j else 2 + i, ?_, ?_⟩
  · intro m r c h i hi j hj
    match m with
    | 0 =>
      simp only [List.getElem?_cons_zero, Option.some.injEq, Prod.mk.injEq] at h
      obtain ⟨rfl, rfl⟩ := h
      obtain rfl : i = 0 := by omega
      have : j = 0 ∨ j = 1 := by omega
      rcases this with rfl | rfl <;> norm_num
    | 1 =>
      simp only [List.getElem?_cons_succ, List.getElem?_cons_zero, Option.some.injEq, Prod.mk.injEq] at h
      obtain ⟨rfl, rfl⟩ := h
      obtain rfl : j = 0 := by omega
      have : i = 0 ∨ i = 1 := by omega
      rcases this with rfl | rfl <;> norm_num
    | m + 2 => simp at h
  · intro m r c m' r' c' h h' i hi j hj i' hi' j' hj' he
    match m, m' with
    | 0, 0 =>
      simp only [List.getElem?_cons_zero, Option.some.injEq, Prod.mk.injEq] at h h'
      simp only [if_true] at he
      omega
    | 0, 1 =>
      simp only [List.getElem?_cons_succ, List.getElem?_cons_zero, Option.some.injEq, Prod.mk.injEq] at h h'
      simp at he
      omega
    | 1, 0 =>
      simp only [List.getElem?_cons_succ, List.getElem?_cons_zero, Option.some.injEq, Prod.mk.injEq] at h h'
      simp at he
      omega
    | 1, 1 =>
      simp only [List.getElem?_cons_succ, List.getElem?_cons_zero, Option.some.injEq, Prod.mk.injEq] at h h'
      simp at he
      omega
    | m + 2, _ => simp at h
    | 0, m + 2 => simp at h'
    | 1, m + 2 => simp at h'

example (source : Nat → ℝ) := C128_forward_only (Network.dropout (1 / 2) true fun _ _ _ => 0) source
example (source : Nat → ℝ) := C128_with_cpu_forward_only (Network.dropout (1 / 2) true fun _ _ _ => 0) source
example := C128_fresh (rate := 1 / 2) (by norm_num) (by norm_num)

end Thinc
