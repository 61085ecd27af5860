import Verif.Model.FlattenInit
import Verif.Props.WithInit
import Verif.Props.Containers
import Mathlib.Tactic.NormNum
/-!
# C118: `with_flatten` and `with_reshape` initialize their layer with what they will call it with
-/
namespace Thinc
open Spec Container
variable {α : Type}

/-- Specification: for the input `X`, the wrapped layer is initialized with `a` and called with `a`. -/
structure Spec.InitAsCalled {β γ ι δ σ : Type} (a : β) (init : InitFn β γ σ → σ → Except PyErr σ)
    (forward : (β → Except PyErr ι) → Except PyErr δ) : Prop where
  initialized : ∀ (f : InitFn β γ σ) (s : σ), init f s = f (some a) none s
  called : ∀ L e, L a = .error e → forward L = .error e

/-- **C118 for `with_flatten`, version 2.** -/
theorem C118_with_flatten_v2 {β γ σ : Type} (X : List (List β)) :
    InitAsCalled (σ := σ) (γ := Arr α) X.flatten (fun f s => withFlattenInit f (some X) none s)
      (fun L : List β → Except PyErr (List γ × (List γ → Except PyErr (List β))) => withFlattenV2 L X) := by
  have h : (flattenNested X).1 = X.flatten := by
    induction X with
    | nil => rfl
    | cons x X ih => simp [flattenNested, ih]
  exact ⟨fun f s => by simp [withFlattenInit, h], fun L e he => by simp [withFlattenV2, h, he, bind, Except.bind]⟩

/-- **C118 for `with_flatten`, version 1.** -/
theorem C118_with_flatten {β σ : Type} [Zero α] (X : List (List β)) :
    InitAsCalled (σ := σ) (γ := Arr α) X.flatten (fun f s => withFlattenInit f (some X) none s)
      (fun L : List β → Except PyErr (Arr α × (Arr α → Except PyErr (Arr α))) => withFlattenV1 L X) := by
  have h : (flattenNested X).1 = X.flatten := by
    induction X with
    | nil => rfl
    | cons x X ih => simp [flattenNested, ih]
  exact ⟨fun f s => by simp [withFlattenInit, h], fun L e he => by simp [withFlattenV1, h, he, bind, Except.bind]⟩

/-- **C118 for `with_reshape`**: the layer is initialized with the rows of the three-dimensional array. -/
theorem C118_with_reshape {σ : Type} (X : NdArray α) (nB nT nI : Nat) (hI : 0 < nI) (hX : X.shape = [nB, nT, nI]) (hw : WellShaped X) (nO : Nat)
    (isTrain : Bool) :
    InitAsCalled (σ := σ) (γ := NdArray α) (⟨[nB * nT, nI], X.data⟩ : NdArray α) (fun f s => withReshapeInit f (some X) none s)
      (fun L : NdArray α → Except PyErr (NdArray α × (NdArray α → Except PyErr (NdArray α))) =>
        withReshape (fun x _ => L x) (.ok nO) X isTrain) := by
  have hl : X.data.length = nB * nT * nI := by rw [hw, hX]; simp [Nat.mul_assoc]
  have h2 := reshape_infer X (nB * nT) nI hI hl
  refine ⟨fun f s => ?_, fun L e he => ?_⟩
  · simp [withReshapeInit, initWithoutData, reshapeRowsOpt, reshapeRows, hX, h2, bind, Except.bind, pure, Except.pure]
  · simp [withReshape, NdArray.axis, hX, h2, he, bind, Except.bind]

/-- **C118 for `with_reshape`**, the targets: the layer is initialized with their rows. -/
theorem C118_with_reshape_targets {σ : Type} (X Y : NdArray α) (nB nT nI nO : Nat) (hI : 0 < nI) (hO : 0 < nO) (hX : X.shape = [nB, nT, nI])
    (hY : Y.shape = [nB, nT, nO]) (hwX : WellShaped X) (hwY : WellShaped Y) (f : InitFn (NdArray α) (NdArray α) σ) (s : σ) :
    withReshapeInit f (some X) (some Y) s = f (some ⟨[nB * nT, nI], X.data⟩) (some ⟨[nB * nT, nO], Y.data⟩) s := by
  have hl : X.data.length = nB * nT * nI := by rw [hwX, hX]; simp [Nat.mul_assoc]
  have hl' : Y.data.length = nB * nT * nO := by rw [hwY, hY]; simp [Nat.mul_assoc]
  have h2 := reshape_infer X (nB * nT) nI hI hl
  have h3 := reshape_infer Y (nB * nT) nO hO hl'
  simp [withReshapeInit, initWithoutData, reshapeRowsOpt, reshapeRows, hX, hY, h2, h3, bind, Except.bind, pure, Except.pure]

/-- Without example data `with_reshape` initializes its layer twice: the parameters are drawn, thrown away and drawn again. -/
theorem C118_reshape_twice {σ : Type} (f : InitFn (NdArray α) (NdArray α) σ) (s : σ) :
    withReshapeInit f none none s = (f none none s).bind (f none none) := by
  simp [withReshapeInit, initWithoutData, reshapeRowsOpt, bind, pure, Except.bind, Except.pure]

private theorem concat1_rows : ∀ (as : List (Arr α)) (a : Arr α) (n c : Nat), a.tail = [c] → a.len = n →
    (∀ b ∈ as, b.len = n) → (widths : List Nat) → as.map Arr.tail = widths.map (fun w => [w]) →
    ∃ y, forM' as a npConcat1 = .ok y ∧ y.tail = [c + widths.sum] ∧ y.len = n
  | [], a, n, c, ht, hl, _, widths, hw => by
    obtain rfl : widths = [] := by simpa using hw
    exact ⟨a, rfl, by simpa using ht, hl⟩
  | b :: as, a, n, c, ht, hl, hb, widths, hw => by
    cases widths with
    | nil => simp at hw
    | cons w widths =>
      simp only [List.map_cons, List.cons.injEq] at hw
      have hbl : b.len = n := hb b (by simp)
      have h1 : npConcat1 a b = .ok ⟨[c + w], List.zipWith (· ++ ·) a.rows b.rows⟩ := by
        simp [npConcat1, ht, hw.1, hl, hbl]
      obtain ⟨y, hy, hyt, hyl⟩ := concat1_rows as ⟨[c + w], List.zipWith (· ++ ·) a.rows b.rows⟩ n (c + w) rfl
        (by simp only [Arr.len, List.length_zipWith] at hl hbl ⊢; omega) (fun b hb' => hb b (by simp [hb'])) widths hw.2
      exact ⟨y, by simp only [forM', h1, hy], by simp [hyt, Nat.add_assoc], hyl⟩

/-- **C118 fails for the targets of `with_flatten`**: the outputs of all sequences should be stacked, but they are put side by side.  For `m`
sequences of `n` items whose outputs have the width `c` the layer is initialized with `n` rows of width `m * c` instead of `m * n` rows of
width `c`, so that a layer that infers its output dimension gets a wrong one. -/
theorem C118_flatten_targets_wrong {β σ : Type} (X : List (List β)) (a : Arr α) (as : List (Arr α)) (n c : Nat) (hc : ∀ b ∈ a :: as, b.tail = [c])
    (hn : ∀ b ∈ a :: as, b.len = n) (f : InitFn (List β) (Arr α) σ) (s : σ) :
    ∃ y : Arr α, withFlattenInit f (some X) (some (a :: as)) s = f (some X.flatten) (some y) s ∧
      y.len = n ∧ y.tail = [(as.length + 1) * c] := by
  have h : (flattenNested X).1 = X.flatten := by
    induction X with
    | nil => rfl
    | cons x X ih => simp [flattenNested, ih]
  obtain ⟨y, hy, hyt, hyl⟩ := concat1_rows as a n c (hc a (by simp)) (hn a (by simp)) (fun b hb => hn b (by simp [hb]))
    (List.replicate as.length c) (by
      rw [List.map_replicate, ← List.map_const' (l := as) (b := [c])]
      exact List.map_congr_left fun b hb => hc b (by simp [hb]))
  refine ⟨y, ?_, hyl, ?_⟩
  · have ht : ¬ a.tail = [] := by simp [hc a (by simp)]
    simp [withFlattenInit, npHstack, ht, hy, h, bind, Except.bind]
  · rw [hyt, List.sum_replicate, smul_eq_mul, Nat.add_mul, Nat.one_mul, Nat.add_comm]

/-- **C118 fails for the targets of `with_flatten`**: two sequences of different lengths are refused. -/
theorem C118_flatten_lengths_wrong {β σ : Type} (X : List (List β)) (a b : Arr α) (c : Nat) (ha : a.tail = [c]) (hb : b.tail = [c])
    (hl : a.len ≠ b.len) (f : InitFn (List β) (Arr α) σ) (s : σ) :
    withFlattenInit f (some X) (some [a, b]) s = .error .valueError := by
  simp [withFlattenInit, npHstack, ha, hb, hl, forM', npConcat1, bind, Except.bind]

/-- Targets with one number for each item are stacked as they should be. -/
theorem C118_flatten_targets_partial {β σ : Type} (X : List (List β)) (a : Arr α) (as : List (Arr α)) (h1 : ∀ b ∈ a :: as, b.tail = [])
    (f : InitFn (List β) (Arr α) σ) (s : σ) :
    withFlattenInit f (some X) (some (a :: as)) s = f (some X.flatten) (some ⟨[], (a :: as).flatMap Arr.rows⟩) s := by
  have h : (flattenNested X).1 = X.flatten := by
    induction X with
    | nil => rfl
    | cons x X ih => simp [flattenNested, ih]
  have ha := h1 a (by simp)
  have hc : npConcatenate (a :: as) = .ok ⟨[], (a :: as).flatMap Arr.rows⟩ := by
    have hall : as.all (fun y => y.tail == a.tail) = true := by
      rw [List.all_eq_true]
      intro b hb
      simp [ha, h1 b (by simp [hb])]
    show (if as.all (fun y => y.tail == a.tail) = true then _ else _) = _
    rw [if_pos hall, ha]
    rfl
  simp [withFlattenInit, npHstack, ha, hc, h, bind, Except.bind]

/-! ### Instances -/

example : ∃ y : Arr Int, npHstack [⟨[3], [[1, 2, 3], [4, 5, 6]]⟩, ⟨[3], [[7, 8, 9], [0, 0, 0]]⟩] = .ok y ∧ y.tail = [6] ∧ y.len = 2 :=
  ⟨_, rfl, rfl, rfl⟩

-- A batch of two sequences of one row of two numbers.
example := C118_with_reshape (σ := Nat) (⟨[2, 1, 2], [1, 2, 3, 4]⟩ : NdArray Int) 2 1 2 (by decide) rfl rfl 3

example := C118_with_reshape_targets (σ := Nat) (⟨[2, 1, 2], [1, 2, 3, 4]⟩ : NdArray Int) ⟨[2, 1, 1], [5, 6]⟩ 2 1 2 1 (by decide) (by decide)
  rfl rfl rfl rfl

example := C118_flatten_targets_wrong (σ := Nat) [[1, 2], [3, 4]] (⟨[3], [[1, 2, 3], [4, 5, 6]]⟩ : Arr Int) [⟨[3], [[7, 8, 9], [0, 0, 0]]⟩] 2 3
  (by decide) (by decide)

example := C118_flatten_lengths_wrong (σ := Nat) [[1, 2], [3]] (⟨[1], [[1], [4]]⟩ : Arr Int) ⟨[1], [[7]]⟩ 1 rfl rfl (by decide)

example := C118_flatten_targets_partial (σ := Nat) [[1, 2], [3]] (⟨[], [[1], [4]]⟩ : Arr Int) [⟨[], [[7]]⟩] (by decide)

example : npHstack [(⟨[], [[1], [2]]⟩ : Arr Int), ⟨[], [[3]]⟩] = .ok ⟨[], [[1], [2], [3]]⟩ := by decide

end Thinc
