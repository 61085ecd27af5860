import Verif.Model.LayerHeap
import Mathlib.Algebra.BigOperators.Group.List.Basic
import Mathlib.Order.Nat
/-!
# C52 and C54: combinators on shared arrays
-/
namespace Thinc
variable {V : Type}

/-- All arrays that existed before are as they were. -/
def Spec.Untouched (h h' : ArrHeap V) : Prop := h.next ≤ h'.next ∧ ∀ a < h.next, h'.cell a = h.cell a

/-- The layer, called with the array at `X`, computes `f` and changes no array that existed before; its
output is a new array or its input. -/
def Spec.ForwardIs (L : HLayer V) (f : V → V) : Prop :=
  ∀ X h, X < h.next → Untouched h (L X h).2 ∧ (L X h).1.1 < (L X h).2.next ∧
    (L X h).2.cell (L X h).1.1 = f (h.cell X) ∧ ((L X h).1.1 = X ∨ h.next ≤ (L X h).1.1)

/-- The layer's callback computes `b`, from the input and the gradient, and changes no array that existed
before it ran.  It may run at any later time, as long as the input and the arrays that the layer made
(those that satisfy `kept`) have not been changed by others.  If `new`, its result is a new array. -/
def Spec.CallbackIs (L : HLayer V) (b : V → V → V) (kept : (out : Nat) → Nat → Prop) (new : Prop) : Prop :=
  ∀ X h, X < h.next → ∀ dY h', (L X h).2.next ≤ h'.next → dY < h'.next → h'.cell X = h.cell X →
    (∀ a, h.next ≤ a → a < (L X h).2.next → kept (L X h).1.1 a → h'.cell a = (L X h).2.cell a) →
    Untouched h' ((L X h).1.2 dY h').2 ∧ ((L X h).1.2 dY h').1 < ((L X h).1.2 dY h').2.next ∧
    ((L X h).1.2 dY h').2.cell ((L X h).1.2 dY h').1 = b (h.cell X) (h'.cell dY) ∧
    (new → h'.next ≤ ((L X h).1.2 dY h').1)

/-- The layer computes `f` with gradient `b`, provided nobody changes its input or the arrays it made. -/
def Spec.Works (L : HLayer V) (f : V → V) (b : V → V → V) : Prop := ForwardIs L f ∧ CallbackIs L b (fun _ _ => True) False

/-- The layer computes `f` with gradient `b`, its output and its gradients are new arrays, and it does
not mind if its output is changed later. -/
def Spec.WorksApart (L : HLayer V) (f : V → V) (b : V → V → V) : Prop :=
  ForwardIs L f ∧ CallbackIs L b (fun out a => a ≠ out) True ∧ ∀ X h, X < h.next → h.next ≤ (L X h).1.1

open Spec

theorem Spec.Untouched.refl (h : ArrHeap V) : Untouched h h := ⟨le_refl _, fun _ _ => rfl⟩

theorem Spec.Untouched.trans {h h' h'' : ArrHeap V} (a : Untouched h h') (b : Untouched h' h'') : Untouched h h'' :=
  ⟨le_trans a.1 b.1, fun c hc => by rw [b.2 c (lt_of_lt_of_le hc a.1), a.2 c hc]⟩

theorem Spec.WorksApart.works {L : HLayer V} {f : V → V} {b : V → V → V} (h : WorksApart L f b) : Works L f b :=
  ⟨h.1, fun X hp hX dY h' h1 h2 h3 h4 =>
    have r := h.2.1 X hp hX dY h' h1 h2 h3 fun a ha ha' _ => h4 a ha ha' trivial
    ⟨r.1, r.2.1, r.2.2.1, False.elim⟩⟩

theorem untouched_alloc (h : ArrHeap V) (v : V) : Untouched h (h.alloc v).2 := by
  refine ⟨Nat.le_succ _, fun a ha => ?_⟩
  simp only [ArrHeap.alloc]
  rw [if_neg (by omega)]

theorem alloc_cell (h : ArrHeap V) (v : V) : (h.alloc v).2.cell (h.alloc v).1 = v := by simp [ArrHeap.alloc]

/-- Layers that compute new arrays from their input work, whatever happens to their output. -/
theorem hMap_worksApart (f : V → V) (b : V → V → V) : WorksApart (hMap f b) f b := by
  refine ⟨fun X h hX => ⟨untouched_alloc _ _, Nat.lt_succ_self _, alloc_cell _ _, .inr (le_refl _)⟩, ?_, fun X h hX => le_refl _⟩
  intro X h hX dY h' h1 h2 h3 _
  refine ⟨untouched_alloc _ _, Nat.lt_succ_self _, ?_, fun _ => le_refl _⟩
  have := alloc_cell h' (b (h'.cell X) (h'.cell dY))
  rw [h3] at this
  simpa [hMap, h3] using this

/-- Layers that keep a reference to their output work as long as the output is not changed. -/
theorem hKeepsOutput_works (f : V → V) (b : V → V → V) : Works (hKeepsOutput f b) f (fun x dy => b (f x) dy) := by
  refine ⟨fun X h hX => ⟨untouched_alloc _ _, Nat.lt_succ_self _, alloc_cell _ _, .inr (le_refl _)⟩, ?_⟩
  intro X h hX dY h' h1 h2 h3 h4
  refine ⟨untouched_alloc _ _, Nat.lt_succ_self _, ?_, False.elim⟩
  have h5 := h4 h.next (le_refl _) (Nat.lt_succ_self _) trivial
  have h6 : (hKeepsOutput f b X h).2.cell h.next = f (h.cell X) := alloc_cell _ _
  rw [h6] at h5
  have := alloc_cell h' (b (h'.cell h.next) (h'.cell dY))
  rw [h5] at this
  simpa [hKeepsOutput, ArrHeap.alloc, h5] using this

theorem hNoop_works : Works (V := V) hNoop (fun x => x) (fun _ dy => dy) :=
  ⟨fun _ h hX => ⟨Untouched.refl h, hX, rfl, .inl rfl⟩, fun _ _ _ _ h' _ h2 _ _ => ⟨Untouched.refl h', h2, rfl, False.elim⟩⟩

section
variable [AddCommMonoid V]

/-- The loop of the forward pass: it changes only `Y`, and every callback will work. -/
theorem hAddForward_spec {Ls : List (HLayer V)} {fs : List ((V → V) × (V → V → V))}
    (hf : List.Forall₂ (fun L fb => Works L fb.1 fb.2) Ls fs)
    (X Y : Nat) (h0 h : ArrHeap V) (hX : X < h0.next) (hY : h0.next ≤ Y) (hYn : Y < h.next) (hx : h.cell X = h0.cell X) :
    h.next ≤ (hAddForward X Y Ls h).2.next ∧
    (∀ a < h.next, a ≠ Y → (hAddForward X Y Ls h).2.cell a = h.cell a) ∧
    (hAddForward X Y Ls h).2.cell Y = h.cell Y + (fs.map fun f => f.1 (h0.cell X)).sum ∧
    ∀ dY dX h', (hAddForward X Y Ls h).2.next ≤ dX → dX < h'.next → dY < dX → h'.cell X = h0.cell X →
      (∀ a, h.next ≤ a → a < (hAddForward X Y Ls h).2.next → h'.cell a = (hAddForward X Y Ls h).2.cell a) →
      h'.next ≤ (hAddBackward dY dX (hAddForward X Y Ls h).1 h').next ∧
      (∀ a < h'.next, a ≠ dX → (hAddBackward dY dX (hAddForward X Y Ls h).1 h').cell a = h'.cell a) ∧
      (hAddBackward dY dX (hAddForward X Y Ls h).1 h').cell dX =
        h'.cell dX + (fs.map fun f => f.2 (h0.cell X) (h'.cell dY)).sum := by
  induction hf generalizing h with
  | nil =>
    refine ⟨le_refl _, fun _ _ _ => rfl, by simp [hAddForward], fun dY dX h' _ _ _ _ _ => ⟨le_refl _, fun _ _ _ => rfl, ?_⟩⟩
    simp [hAddForward, hAddBackward]
  | @cons L f Ls fs hL hf ih =>
    obtain ⟨hF, hC⟩ := hL
    have hXh : X < h.next := by omega
    obtain ⟨u1, o1, c1, _⟩ := hF X h hXh
    have hnl : h.next ≤ (L X h).2.next := u1.1
    have hiX : ((L X h).2.iadd Y (L X h).1.1).cell X = h0.cell X := by
      simp only [ArrHeap.iadd]
      rw [if_neg (by omega), u1.2 X hXh, hx]
    have hadd : hAddForward X Y (L :: Ls) h = ((L X h).1.2 :: (hAddForward X Y Ls ((L X h).2.iadd Y (L X h).1.1)).1,
      (hAddForward X Y Ls ((L X h).2.iadd Y (L X h).1.1)).2) := rfl
    obtain ⟨i1, i2, i3, i4⟩ := ih ((L X h).2.iadd Y (L X h).1.1)
      (show Y < (L X h).2.next by omega) hiX
    rw [hadd]
    change (L X h).2.next ≤ _ at i1
    refine ⟨by dsimp only; omega, ?_, ?_, ?_⟩
    · intro a ha haY
      rw [i2 a (show a < (L X h).2.next by omega) haY]
      simp only [ArrHeap.iadd]
      rw [if_neg haY, u1.2 a ha]
    · rw [i3]
      simp only [ArrHeap.iadd, if_true]
      rw [u1.2 Y hYn, c1, hx, List.map_cons, List.sum_cons, add_assoc]
    · intro dY dX h' k1 k2 k3 k4 k5
      dsimp only at k1 k5 ⊢
      have hb : hAddBackward dY dX ((L X h).1.2 :: (hAddForward X Y Ls ((L X h).2.iadd Y (L X h).1.1)).1) h' =
        hAddBackward dY dX (hAddForward X Y Ls ((L X h).2.iadd Y (L X h).1.1)).1
          (((L X h).1.2 dY h').2.iadd dX ((L X h).1.2 dY h').1) := rfl
      rw [hb]
      have hkeep : ∀ a, h.next ≤ a → a < (L X h).2.next → h'.cell a = (L X h).2.cell a := by
        intro a ha ha'
        rw [k5 a ha (by omega), i2 a ha' (by omega)]
        simp only [ArrHeap.iadd]
        rw [if_neg (by omega)]
      obtain ⟨v1, v2, v3, _⟩ := hC X h hXh dY h' (by omega) (by omega) (by rw [k4, hx]) fun a ha ha' _ => hkeep a ha ha'
      have hn' : h'.next ≤ ((L X h).1.2 dY h').2.next := v1.1
      obtain ⟨j1, j2, j3⟩ := i4 dY dX (((L X h).1.2 dY h').2.iadd dX ((L X h).1.2 dY h').1) k1
        (show dX < ((L X h).1.2 dY h').2.next by omega) k3
        (by simp only [ArrHeap.iadd]; rw [if_neg (by omega), v1.2 X (by omega), k4])
        (by
          intro a ha ha'
          have ha2 : (L X h).2.next ≤ a := ha
          refine Eq.trans (if_neg (by omega)) ?_
          rw [v1.2 a (by omega), k5 a (by omega) ha'])
      have j1' : ((L X h).1.2 dY h').2.next ≤ _ := j1
      refine ⟨by omega, ?_, ?_⟩
      · intro a ha hadX
        rw [j2 a (show a < ((L X h).1.2 dY h').2.next by omega) hadX]
        simp only [ArrHeap.iadd]
        rw [if_neg hadX, v1.2 a ha]
      · rw [j3]
        simp only [ArrHeap.iadd, if_true]
        rw [if_neg (by omega), v1.2 dX k2, v3, hx, v1.2 dY (by omega), List.map_cons, List.sum_cons, add_assoc]

/-- `add(f, g, …)` on shared arrays: if the output and the gradients of the first layer are new arrays and
the first layer does not use its output again, then the sum and the gradients are right, and no array that
existed before (in particular the caller's input and gradient) is modified; the other layers may return
any array, and may keep references to their outputs.  Missing: a first layer such as `noop` or `Relu`
(see `C52_noop_first_wrong` and `C52_relu_first_wrong`). -/
theorem C52_shared_arrays_partial {L : HLayer V} {f : V → V} {b : V → V → V} (hL : WorksApart L f b) {Ls : List (HLayer V)}
    {fs : List ((V → V) × (V → V → V))} (hLs : List.Forall₂ (fun L fb => Works L fb.1 fb.2) Ls fs) :
    WorksApart (hAdd (L :: Ls)) (fun x => f x + (fs.map fun g => g.1 x).sum)
      (fun x dy => b x dy + (fs.map fun g => g.2 x dy).sum) := by
  obtain ⟨hF, hC, hN⟩ := hL
  have main := fun X (h : ArrHeap V) (hX : X < h.next) =>
    hAddForward_spec hLs X (L X h).1.1 h (L X h).2 hX (hN X h hX) (hF X h hX).2.1 ((hF X h hX).1.2 X hX)
  have e1 : ∀ X h, (hAdd (L :: Ls) X h).1.1 = (L X h).1.1 := fun _ _ => rfl
  have e2 : ∀ X h, (hAdd (L :: Ls) X h).2 = (hAddForward X (L X h).1.1 Ls (L X h).2).2 := fun _ _ => rfl
  have e3 : ∀ X h dY h', (hAdd (L :: Ls) X h).1.2 dY h' = (((L X h).1.2 dY h').1,
    hAddBackward dY ((L X h).1.2 dY h').1 (hAddForward X (L X h).1.1 Ls (L X h).2).1 ((L X h).1.2 dY h').2) :=
    fun _ _ _ _ => rfl
  refine ⟨?_, ?_, fun X h hX => by rw [e1]; exact hN X h hX⟩
  · intro X h hX
    obtain ⟨m1, m2, m3, _⟩ := main X h hX
    obtain ⟨f1, f2, f3, f4⟩ := hF X h hX
    have f1n := f1.1
    have f0 := hN X h hX
    rw [e1, e2]
    refine ⟨⟨by omega, fun a ha => ?_⟩, by omega, ?_, .inr f0⟩
    · rw [m2 a (by omega) (by omega), f1.2 a ha]
    · rw [m3, f3]
  · intro X h hX dY h' k1 k2 k3 k4
    obtain ⟨m1, m2, m3, m4⟩ := main X h hX
    obtain ⟨f1, f2, f3, f4⟩ := hF X h hX
    have f1n := f1.1
    have f0 := hN X h hX
    rw [e1] at k4
    rw [e2] at k1 k4
    rw [e3]
    obtain ⟨c1, c2, c3, c0⟩ := hC X h hX dY h' (by omega) k2 k3 fun a ha ha' hne => by
      rw [k4 a ha (by omega) hne, m2 a ha' hne]
    have c1n := c1.1
    replace c0 := c0 trivial
    obtain ⟨r1, r2, r3⟩ := m4 dY _ ((L X h).1.2 dY h').2 (by omega) c2 (by omega)
      (by rw [c1.2 X (by omega), k3])
      (fun a ha ha' => by rw [c1.2 a (by omega), k4 a (by omega) ha' (by omega)])
    refine ⟨⟨by dsimp only; omega, fun a ha => ?_⟩, by dsimp only; omega, ?_, fun _ => c0⟩
    · dsimp only
      rw [r2 a (by omega) (by omega), c1.2 a ha]
    · dsimp only
      rw [r3, c3, c1.2 dY k2]

/-- `add(noop, f, g)` changes the caller's input, and the other layers see the changed input: the result
is `x + f(x) + g(x + f(x))`. -/
theorem C52_noop_first_wrong (f g : V → V) (b c : V → V → V) (X : Nat) (h : ArrHeap V) (hX : X < h.next) :
    (hAdd [hNoop, hMap f b, hMap g c] X h).1.1 = X ∧
    (hAdd [hNoop, hMap f b, hMap g c] X h).2.cell X = h.cell X + f (h.cell X) + g (h.cell X + f (h.cell X)) := by
  refine ⟨rfl, ?_⟩
  have h1 : X ≠ h.next := by omega
  have h2 : X ≠ h.next + 1 := by omega
  simp [hAdd, hNoop, hAddForward, hMap, ArrHeap.alloc, ArrHeap.iadd, h1, h2]

/-- `add(f, g)` where the callback of `f` uses its output (Relu, Sigmoid, …): the output has been
overwritten by the sum when the callback runs, so `f` contributes `b (f x + g x) dy` to the gradient
instead of `b (f x) dy`. -/
theorem C52_relu_first_wrong (f g : V → V) (b c : V → V → V) (X : Nat) (h : ArrHeap V) (hX : X < h.next)
    (dY : Nat) (h' : ArrHeap V) (hd : dY < h'.next) (hn : (hAdd [hKeepsOutput f b, hMap g c] X h).2.next ≤ h'.next)
    (hkeep : ∀ a < (hAdd [hKeepsOutput f b, hMap g c] X h).2.next,
      h'.cell a = (hAdd [hKeepsOutput f b, hMap g c] X h).2.cell a) :
    let r := (hAdd [hKeepsOutput f b, hMap g c] X h).1.2 dY h'
    r.2.cell r.1 = b (f (h.cell X) + g (h.cell X)) (h'.cell dY) + c (h.cell X) (h'.cell dY) := by
  have h1 : X ≠ h.next := by omega
  have h2 : X ≠ h.next + 1 := by omega
  have hX' : h'.cell X = h.cell X := by
    rw [hkeep X (by simp [hAdd, hKeepsOutput, hAddForward, hMap, ArrHeap.alloc, ArrHeap.iadd]; omega)]
    simp [hAdd, hKeepsOutput, hAddForward, hMap, ArrHeap.alloc, ArrHeap.iadd, h1, h2]
  have hY' : h'.cell h.next = f (h.cell X) + g (h.cell X) := by
    rw [hkeep _ (by simp [hAdd, hKeepsOutput, hAddForward, hMap, ArrHeap.alloc, ArrHeap.iadd]; omega)]
    simp [hAdd, hKeepsOutput, hAddForward, hMap, ArrHeap.alloc, ArrHeap.iadd, h1]
  have hn' : h.next + 2 ≤ h'.next := hn
  have h3 : X ≠ h'.next := by omega
  have h4 : dY ≠ h'.next := by omega
  simp [hAdd, hKeepsOutput, hAddForward, hAddBackward, hMap, ArrHeap.alloc, ArrHeap.iadd, h3, h4, hX', hY']

/-- Residual connections on arrays make new arrays: they work around every layer that works. -/
theorem C54_residual_shared_arrays {L : HLayer V} {f : V → V} {b : V → V → V} (hL : Works L f b) :
    WorksApart (hResidual L) (fun x => x + f x) (fun x dy => dy + b x dy) := by
  obtain ⟨hF, hC⟩ := hL
  refine ⟨?_, ?_, ?_⟩
  · intro X h hX
    obtain ⟨f1, f2, f3, f4⟩ := hF X h hX
    refine ⟨f1.trans (untouched_alloc _ _), Nat.lt_succ_self _, ?_, .inr f1.1⟩
    refine (alloc_cell _ _).trans ?_
    rw [f1.2 X hX, f3]
  · intro X h hX dY h' k1 k2 k3 k4
    obtain ⟨f1, f2, f3, f4⟩ := hF X h hX
    have k1' : (L X h).2.next + 1 ≤ h'.next := k1
    have f1n := f1.1
    obtain ⟨c1, c2, c3, _⟩ := hC X h hX dY h' (by omega) k2 k3 fun a ha ha' _ => by
      have := k4 a ha (show a < (L X h).2.next + 1 by omega) (show a ≠ (L X h).2.next by omega)
      rw [this]
      exact (untouched_alloc _ _).2 a ha'
    refine ⟨c1.trans (untouched_alloc _ _), Nat.lt_succ_self _, ?_, fun _ => c1.1⟩
    refine (alloc_cell _ _).trans ?_
    rw [c1.2 dY k2, c3]
  · intro X h hX
    exact (hF X h hX).1.1

/-- Residual connections on a `Padded` add in place: around `noop` they change the caller's input (and its
gradient). -/
theorem C54_residual_padded_noop_wrong (X : Nat) (h : ArrHeap V) :
    (hResidualPadded hNoop X h).2.cell X = h.cell X + h.cell X ∧
    ∀ dY h', ((hResidualPadded hNoop X h).1.2 dY h').2.cell dY = h'.cell dY + h'.cell dY := by
  simp [hResidualPadded, hNoop, ArrHeap.iadd]

/-- Around a layer whose output and gradients are new and that does not use its output again, residual
connections on a `Padded` work and change no other array.  Missing: layers such as Relu. -/
theorem C54_residual_padded_shared_arrays_partial {L : HLayer V} {f : V → V} {b : V → V → V} (hL : WorksApart L f b) :
    WorksApart (hResidualPadded L) (fun x => x + f x) (fun x dy => dy + b x dy) := by
  obtain ⟨hF, hC, hN⟩ := hL
  refine ⟨?_, ?_, hN⟩
  · intro X h hX
    obtain ⟨f1, f2, f3, f4⟩ := hF X h hX
    have f0 := hN X h hX
    refine ⟨⟨f1.1, fun a ha => ?_⟩, f2, ?_, .inr f0⟩
    · have hne : a ≠ (L X h).1.1 := by omega
      exact (if_neg hne).trans (f1.2 a ha)
    · refine (if_pos rfl).trans ?_
      rw [f1.2 X hX, f3, add_comm]
  · intro X h hX dY h' k1 k2 k3 k4
    obtain ⟨f1, f2, f3, f4⟩ := hF X h hX
    have f0 := hN X h hX
    obtain ⟨c1, c2, c3, c0⟩ := hC X h hX dY h' k1 k2 k3 fun a ha ha' hne => by
      rw [k4 a ha ha' hne]
      exact if_neg hne
    replace c0 := c0 trivial
    refine ⟨⟨c1.1, fun a ha => ?_⟩, c2, ?_, fun _ => c0⟩
    · have hne : a ≠ ((L X h).1.2 dY h').1 := by omega
      exact (if_neg hne).trans (c1.2 a ha)
    · refine (if_pos rfl).trans ?_
      rw [c1.2 dY k2, c3, add_comm]

omit [AddCommMonoid V] in
/-- Chains of layers that work also work: nothing in between is changed. -/
theorem C51_shared_arrays {L M : HLayer V} {f g : V → V} {b c : V → V → V} (hL : Works L f b) (hM : Works M g c) :
    Works (hChain L M) (fun x => g (f x)) (fun x dy => b x (c (f x) dy)) := by
  obtain ⟨hF, hC⟩ := hL
  obtain ⟨hF', hC'⟩ := hM
  have e1 : ∀ X h, (hChain L M X h).1.1 = (M (L X h).1.1 (L X h).2).1.1 := fun _ _ => rfl
  have e2 : ∀ X h, (hChain L M X h).2 = (M (L X h).1.1 (L X h).2).2 := fun _ _ => rfl
  have e3 : ∀ X h dY h', (hChain L M X h).1.2 dY h' = (L X h).1.2 ((M (L X h).1.1 (L X h).2).1.2 dY h').1
    ((M (L X h).1.1 (L X h).2).1.2 dY h').2 := fun _ _ _ _ => rfl
  constructor
  · intro X h hX
    obtain ⟨f1, f2, f3, f4⟩ := hF X h hX
    obtain ⟨g1, g2, g3, g4⟩ := hF' _ _ f2
    rw [e1, e2]
    exact ⟨f1.trans g1, g2, by rw [g3, f3], by have := f1.1; omega⟩
  · intro X h hX dY h' k1 k2 k3 k4
    obtain ⟨f1, f2, f3, f4⟩ := hF X h hX
    obtain ⟨g1, g2, g3, g4⟩ := hF' _ _ f2
    have f1n := f1.1
    have g1n := g1.1
    rw [e2] at k1 k4
    rw [e3]
    have hin : h'.cell (L X h).1.1 = (L X h).2.cell (L X h).1.1 := by
      by_cases hlt : (L X h).1.1 < h.next
      · have : (L X h).1.1 = X := by omega
        rw [this, k3, f1.2 X hX]
      · rw [k4 _ (by omega) (by omega) trivial, g1.2 _ f2]
    obtain ⟨c1, c2, c3, _⟩ := hC' _ _ f2 dY h' k1 k2 hin fun a ha ha' _ => k4 a (by omega) ha' trivial
    have c1n := c1.1
    obtain ⟨d1, d2, d3, _⟩ := hC X h hX _ ((M (L X h).1.1 (L X h).2).1.2 dY h').2 (by omega) c2
      (by rw [c1.2 X (by omega), k3]) fun a ha ha' _ => by
        rw [c1.2 a (by omega), k4 a ha (by omega) trivial, g1.2 a ha']
    exact ⟨c1.trans d1, d2, by rw [d3, c3, f3], False.elim⟩

omit [AddCommMonoid V] in
/-- Chains of layers whose outputs are new and may be changed later are such layers too. -/
theorem C51_shared_arrays_apart {L M : HLayer V} {f g : V → V} {b c : V → V → V} (hL : WorksApart L f b)
    (hM : WorksApart M g c) : WorksApart (hChain L M) (fun x => g (f x)) (fun x dy => b x (c (f x) dy)) := by
  have hw := (C51_shared_arrays hL.works hM.works).1
  obtain ⟨hF, hC, hN⟩ := hL
  obtain ⟨hF', hC', hN'⟩ := hM
  have e1 : ∀ X h, (hChain L M X h).1.1 = (M (L X h).1.1 (L X h).2).1.1 := fun _ _ => rfl
  have e2 : ∀ X h, (hChain L M X h).2 = (M (L X h).1.1 (L X h).2).2 := fun _ _ => rfl
  have e3 : ∀ X h dY h', (hChain L M X h).1.2 dY h' = (L X h).1.2 ((M (L X h).1.1 (L X h).2).1.2 dY h').1
    ((M (L X h).1.1 (L X h).2).1.2 dY h').2 := fun _ _ _ _ => rfl
  refine ⟨hw, ?_, ?_⟩
  · intro X h hX dY h' k1 k2 k3 k4
    obtain ⟨f1, f2, f3, f4⟩ := hF X h hX
    obtain ⟨g1, g2, g3, g4⟩ := hF' _ _ f2
    have f1n := f1.1
    have g1n := g1.1
    have f0 := hN X h hX
    have g0 := hN' _ _ f2
    rw [e1] at k4
    rw [e2] at k1 k4
    rw [e3]
    obtain ⟨c1, c2, c3, c0⟩ := hC' _ _ f2 dY h' k1 k2 (by rw [k4 _ (by omega) (by omega) (by omega), g1.2 _ f2])
      fun a ha ha' hne => k4 a (by omega) ha' hne
    have c1n := c1.1
    obtain ⟨d1, d2, d3, d0⟩ := hC X h hX _ ((M (L X h).1.1 (L X h).2).1.2 dY h').2 (by omega) c2
      (by rw [c1.2 X (by omega), k3]) fun a ha ha' _ => by
        rw [c1.2 a (by omega), k4 a ha (by omega) (by omega), g1.2 a ha']
    exact ⟨c1.trans d1, d2, by rw [d3, c3, f3], fun _ => le_trans c1n (d0 trivial)⟩
  · intro X h hX
    obtain ⟨f1, f2, f3, f4⟩ := hF X h hX
    exact le_trans f1.1 (hN' _ _ f2)

end

/-- A concrete case: `add(Relu, f)` at the input `-1` where `f` is constantly `5`.  The gradient of the
sum is 0 there, the callback gives 1. -/
example :
    let r := hAdd [hKeepsOutput (fun x => max x 0) (fun y d => if y > 0 then d else 0), hMap (fun _ => 5) (fun _ _ => 0)]
      0 (⟨fun _ => -1, 1⟩ : ArrHeap Int)
    let d := r.2.alloc 1
    let g := r.1.2 d.1 d.2
    g.2.cell g.1 = 1 := by decide

/-- `add` of three layers meets the hypotheses; the second may be `noop` and the third a Relu. -/
example : WorksApart (V := Int) (hAdd [hMap (fun x => 2 * x) (fun _ d => 2 * d), hNoop,
      hKeepsOutput (fun x => max x 0) (fun y d => if y > 0 then d else 0)])
      (fun x => 2 * x + (x + (max x 0 + 0))) (fun x d => 2 * d + (d + ((if max x 0 > 0 then d else 0) + 0))) :=
  C52_shared_arrays_partial (hMap_worksApart _ _) (fs := [(fun x => x, fun _ d => d), (fun x => max x 0, fun x d => if max x 0 > 0 then d else 0)])
    (.cons hNoop_works (.cons (hKeepsOutput_works _ _) .nil))

end Thinc
