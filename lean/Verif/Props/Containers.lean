import Verif.Spec.Containers
import Mathlib.Tactic.Ring
/-!
# C99: `with_reshape`; C100: `with_cpu`
-/
namespace Thinc
open Container Spec

variable {α : Type}

/-! ### Helpers -/

theorem reshape_infer (a : NdArray α) (n w : Nat) (hw : 0 < w) (h : a.data.length = n * w) :
    a.reshape [-1, (w : Int)] = .ok ⟨[n, w], a.data⟩ := by
  have h1 : ((w : Int) = -1) = False := by simp
  have h2 : ¬ ((w : Int) < -1) := by omega
  simp [NdArray.reshape, List.filter, h1, h2, h, axisLength, List.count_cons, hw.ne']

theorem reshape_infer' (a : NdArray α) (n w : Nat) (hn : 0 < n) (h : a.data.length = n * w) :
    a.reshape [(n : Int), -1] = .ok ⟨[n, w], a.data⟩ := by
  have h1 : ((n : Int) = -1) = False := by simp
  have h2 : ¬ ((n : Int) < -1) := by omega
  simp [NdArray.reshape, List.filter, h1, h2, h, axisLength, List.count_cons, hn.ne', Nat.mul_div_cancel_left _ hn]

theorem reshape_three (a : NdArray α) (x y z : Nat) : a.reshape3 [x, y, z] =
    if x * y * z = a.data.length then .ok ⟨[x, y, z], a.data⟩ else .error .valueError := by
  have h1 : ∀ n : Nat, ((n : Int) = -1) = False := by intro n; simp
  have h2 : ∀ n : Nat, ¬ ((n : Int) < -1) := by intro n; omega
  simp [NdArray.reshape3, NdArray.reshape, List.filter, h1, h2, List.count_cons, mul_assoc]

/-! ### The theorems -/

/-- C99, forward pass: the layer is applied to the two-dimensional array of all rows, and its output gets the leading axes
of the input back. -/
theorem C99_forward_partial (layer : Inner (NdArray α) (NdArray α)) (nB nT nI nO : Nat) (hI : 0 < nI) (X : NdArray α)
    (hX : X.shape = [nB, nT, nI]) (hw : WellShaped X) (isTrain : Bool) :
    (∀ e, layer ⟨[nB * nT, nI], X.data⟩ isTrain = .error e → withReshape layer (.ok nO) X isTrain = .error e) ∧
    ∀ Y2 back, layer ⟨[nB * nT, nI], X.data⟩ isTrain = .ok (Y2, back) → Y2.shape = [nB * nT, nO] → WellShaped Y2 →
      ∃ back', withReshape layer (.ok nO) X isTrain = .ok (⟨[nB, nT, nO], Y2.data⟩, back') := by
  have hl : X.data.length = nB * nT * nI := by rw [hw, hX]; simp; ring
  have h2 := reshape_infer X (nB * nT) nI hI hl
  refine ⟨fun e he => ?_, fun Y2 back hc hs hy => ?_⟩
  · simp [withReshape, NdArray.axis, hX, h2, he, bind, Except.bind]
  · have hy' : nB * nT * nO = Y2.data.length := by rw [hy, hs]; simp
    simp [withReshape, NdArray.axis, hX, h2, hc, bind, Except.bind, reshape_three, hy']

/-- C99 fails for every gradient if the layer changes the width: the callback raises ValueError. -/
theorem C99_backprop_width (layer : Inner (NdArray α) (NdArray α)) (nB nT nI nO : Nat) (hI : 0 < nI) (hn : 0 < nB * nT)
    (hne : nO ≠ nI) (X Y : NdArray α) (hX : X.shape = [nB, nT, nI]) (isTrain : Bool)
    (back : NdArray α → Except PyErr (NdArray α)) (h : withReshape layer (.ok nO) X isTrain = .ok (Y, back)) (dY : NdArray α)
    (hdY : dY.shape = [nB, nT, nO]) (hw : WellShaped dY) : back dY = .error .valueError := by
  have hb : ∃ b, back = reshapeBackprop X.shape nB nT b := by
    simp only [withReshape, NdArray.axis, hX, bind, Except.bind, List.getElem?_cons_zero, List.getElem?_cons_succ] at h
    cases h1 : X.reshape [-1, (nI : Int)] with
    | error e => simp [h1] at h
    | ok X2 =>
      cases h2 : layer X2 isTrain with
      | error e => simp [h1, h2] at h
      | ok r =>
        cases h3 : r.1.reshape3 ([nB, nT, nI].dropLast ++ [nO]) with
        | error e => simp only [h1, h2, h3] at h; simp at h
        | ok Y' =>
          simp only [h1, h2, h3, Except.ok.injEq, Prod.mk.injEq] at h
          exact ⟨r.2, by rw [← h.2, hX]⟩
  obtain ⟨b, rfl⟩ := hb
  have hl : dY.data.length = nB * nT * nO := by rw [hw, hdY]; simp; ring
  have h2 := reshape_infer' dY (nB * nT) nO hn hl
  simp only [reshapeBackprop, h2, bind, Except.bind, hX, reshape_three]
  rw [if_neg]
  rw [hl]
  intro h'
  exact hne (Nat.eq_of_mul_eq_mul_left hn h').symm

/-- C99 fails for layers that keep the width as well: their callback is called with a gradient of three dimensions, although their
output had two.  Any layer that insists on two dimensions raises. -/
theorem C99_backprop_dims (layer : Inner (NdArray α) (NdArray α)) (nB nT n : Nat) (hI : 0 < n) (hn : 0 < nB * nT)
    (X Y Y2 : NdArray α) (hX : X.shape = [nB, nT, n]) (hwX : WellShaped X) (isTrain : Bool)
    (back back2 : NdArray α → Except PyErr (NdArray α)) (h : withReshape layer (.ok n) X isTrain = .ok (Y, back))
    (h2 : layer ⟨[nB * nT, n], X.data⟩ isTrain = .ok (Y2, back2)) (dY : NdArray α)
    (hdY : dY.shape = [nB, nT, n]) (hw : WellShaped dY) : back dY = back2 ⟨[nB, nT, n], dY.data⟩ := by
  have hlX : X.data.length = nB * nT * n := by rw [hwX, hX]; simp; ring
  have hr := reshape_infer X (nB * nT) n hI hlX
  simp only [withReshape, NdArray.axis, hX, bind, Except.bind, List.getElem?_cons_zero, List.getElem?_cons_succ, hr, h2] at h
  cases h3 : Y2.reshape3 ([nB, nT, n].dropLast ++ [n]) with
  | error e => simp only [h3] at h; simp at h
  | ok Y' =>
    simp only [h3, Except.ok.injEq, Prod.mk.injEq] at h
    rw [← h.2]
    have hl : dY.data.length = nB * nT * n := by rw [hw, hdY]; simp; ring
    simp only [reshapeBackprop, reshape_infer' dY (nB * nT) n hn hl, bind, Except.bind, reshape_three]
    rw [if_pos hl.symm]

/-- A batch of two sequences of three rows of width 2, through a layer that drops the second column. -/
example : ∃ (layer : Inner (NdArray Int) (NdArray Int)) (X : NdArray Int),
    X.shape = [2, 3, 2] ∧ WellShaped X ∧
    (withReshape layer (.ok 1) X true).map Prod.fst = .ok ⟨[2, 3, 1], [0, 2, 4, 6, 8, 10]⟩ :=
  ⟨fun _ _ => .ok (⟨[6, 1], [0, 2, 4, 6, 8, 10]⟩, fun d => .ok d), ⟨[2, 3, 2], [0, 1, 2, 3, 4, 5, 6, 7, 8, 9, 10, 11]⟩, rfl, rfl, rfl⟩

/-- C99 for arrays without entries: if the width is 0 the forward pass raises. -/
theorem C99_zero_width (layer : Inner (NdArray α) (NdArray α)) (nB nT nO : Nat) (X : NdArray α) (hX : X.shape = [nB, nT, 0])
    (isTrain : Bool) : withReshape layer (.ok nO) X isTrain = .error .valueError := by
  simp [withReshape, NdArray.axis, hX, bind, Except.bind, NdArray.reshape]

/-- An array with fewer than three axes is refused with an IndexError, and the layer is not called. -/
theorem C99_too_few_axes (layer : Inner (NdArray α) (NdArray α)) (nO : Nat) (X : NdArray α) (hX : X.shape.length < 3) (isTrain : Bool) :
    withReshape layer (.ok nO) X isTrain = .error .indexError := by
  obtain ⟨shape, data⟩ := X
  match shape, hX with
  | [], _ => rfl
  | [_], _ => rfl
  | [_, _], _ => rfl

/-- C99 for arrays without entries: if there are no sequences or no positions the forward pass works, the callback raises. -/
theorem C99_empty_backprop (layer : Inner (NdArray α) (NdArray α)) (nB nT nI nO : Nat) (hn : nB * nT = 0)
    (X Y : NdArray α) (hX : X.shape = [nB, nT, nI]) (isTrain : Bool)
    (back : NdArray α → Except PyErr (NdArray α)) (h : withReshape layer (.ok nO) X isTrain = .ok (Y, back)) (dY : NdArray α) :
    back dY = .error .valueError := by
  simp only [withReshape, NdArray.axis, hX, bind, Except.bind, List.getElem?_cons_zero, List.getElem?_cons_succ] at h
  cases h1 : X.reshape [-1, (nI : Int)] with
  | error e => simp [h1] at h
  | ok X2 =>
    cases h2 : layer X2 isTrain with
    | error e => simp [h1, h2] at h
    | ok r =>
      rw [h1] at h
      simp only [h2] at h
      cases h3 : r.1.reshape3 ([nB, nT, nI].dropLast ++ [nO]) with
      | error e => simp only [h3] at h; simp at h
      | ok Y' =>
        simp only [h3] at h
        injection h with h
        rw [← (Prod.mk.inj h).2]
        simp [reshapeBackprop, hn, bind, Except.bind, NdArray.reshape]

/-- Two sequences without positions: the forward pass gives an empty array, the callback raises. -/
example : ∃ Y back, withReshape (α := Int) (fun X _ => .ok (X, fun d => .ok d)) (.ok 3) ⟨[2, 0, 3], []⟩ true = .ok (Y, back) ∧
    Y = ⟨[2, 0, 3], []⟩ ∧ back Y = .error .valueError := ⟨_, _, rfl, rfl, rfl⟩

/-- Backpropagation through `with_reshape` of a layer that keeps the width and insists on two dimensions. -/
theorem C99_backprop_violated : ∃ (layer : Inner (NdArray Int) (NdArray Int)) (X Y dY : NdArray Int) (back : NdArray Int → _),
    (∀ X, X.shape.length = 2 → layer X true = .ok (X, fun d => if d.shape.length = 2 then .ok d else .error .valueError)) ∧
    WellShaped X ∧ X.shape = [1, 2, 1] ∧ withReshape layer (.ok 1) X true = .ok (Y, back) ∧ dY.shape = Y.shape ∧ WellShaped dY ∧
    back dY = .error .valueError :=
  ⟨fun X _ => .ok (X, fun d => if d.shape.length = 2 then .ok d else .error .valueError), ⟨[1, 2, 1], [5, 6]⟩, ⟨[1, 2, 1], [5, 6]⟩,
    ⟨[1, 2, 1], [1, 1]⟩, _, fun _ _ => rfl, rfl, rfl, rfl, rfl, rfl, rfl⟩

/-! ### Devices -/

theorem toCpu_moved : ∀ v : Val α, ArraysOnly v → ∃ v', toCpu v = .ok v' ∧ Moved .cpu v v' := by
  suffices key : ∀ n, ∀ v : Val α, sizeOf v < n → ArraysOnly v → ∃ v', toCpu v = .ok v' ∧ Moved .cpu v v' from
    fun v => key _ v (Nat.lt_succ_self _)
  intro n
  induction n with
  | zero => intro v h; omega
  | succ n ih =>
    have all : ∀ xs : List (Val α), sizeOf xs < n + 1 → (∀ x ∈ xs, ArraysOnly x) →
        ∃ ys, toCpuAll xs = .ok ys ∧ ∃ hn : xs.length = ys.length,
          ∀ i (hx : i < xs.length) (hy : i < ys.length), Moved .cpu xs[i] ys[i] := by
      intro xs
      induction xs with
      | nil => intro _ _; exact ⟨[], rfl, rfl, fun i hx => absurd hx (by simp)⟩
      | cons x xs ihx =>
        intro hs ha
        simp only [List.cons.sizeOf_spec] at hs
        obtain ⟨y, h1, h2⟩ := ih x (by omega) (ha x List.mem_cons_self)
        obtain ⟨ys, g1, g2, g3⟩ := ihx (by omega) fun z hz => ha z (List.mem_cons_of_mem _ hz)
        refine ⟨y :: ys, by simp [toCpuAll, h1, g1, bind, Except.bind], by simp [g2], fun i hx hy => ?_⟩
        cases i with
        | zero => exact h2
        | succ i => exact g3 i (by simpa using hx) (by simpa using hy)
    intro v hs ha
    cases ha with
    | arr d x => cases d <;> exact ⟨_, rfl, .arr _ _⟩
    | tup xs h =>
      simp only [Val.tup.sizeOf_spec] at hs
      obtain ⟨ys, g1, g2, g3⟩ := all xs (by omega) h
      exact ⟨.tup ys, by simp [toCpu, g1, Except.map], .tup _ _ g2 g3⟩
    | list xs h =>
      simp only [Val.list.sizeOf_spec] at hs
      obtain ⟨ys, g1, g2, g3⟩ := all xs (by omega) h
      exact ⟨.list ys, by simp [toCpu, g1, Except.map], .list _ _ g2 g3⟩

theorem toDevice_moved (device : Device) (array : Val α → Except PyErr α) : ∀ v : Val α, ArraysOnly v →
    ∃ v', toDevice device array v = .ok v' ∧ Moved device v v' := by
  suffices key : ∀ n, ∀ v : Val α, sizeOf v < n → ArraysOnly v → ∃ v', toDevice device array v = .ok v' ∧ Moved device v v' from
    fun v => key _ v (Nat.lt_succ_self _)
  intro n
  induction n with
  | zero => intro v h; omega
  | succ n ih =>
    have all : ∀ xs : List (Val α), sizeOf xs < n + 1 → (∀ x ∈ xs, ArraysOnly x) →
        ∃ ys, toDeviceAll device array xs = .ok ys ∧ ∃ hn : xs.length = ys.length,
          ∀ i (hx : i < xs.length) (hy : i < ys.length), Moved device xs[i] ys[i] := by
      intro xs
      induction xs with
      | nil => intro _ _; exact ⟨[], rfl, rfl, fun i hx => absurd hx (by simp)⟩
      | cons x xs ihx =>
        intro hs ha
        simp only [List.cons.sizeOf_spec] at hs
        obtain ⟨y, h1, h2⟩ := ih x (by omega) (ha x List.mem_cons_self)
        obtain ⟨ys, g1, g2, g3⟩ := ihx (by omega) fun z hz => ha z (List.mem_cons_of_mem _ hz)
        refine ⟨y :: ys, by simp [toDeviceAll, h1, g1, bind, Except.bind], by simp [g2], fun i hx hy => ?_⟩
        cases i with
        | zero => exact h2
        | succ i => exact g3 i (by simpa using hx) (by simpa using hy)
    intro v hs ha
    cases ha with
    | arr d x => exact ⟨_, rfl, .arr _ _⟩
    | tup xs h =>
      simp only [Val.tup.sizeOf_spec] at hs
      obtain ⟨ys, g1, g2, g3⟩ := all xs (by omega) h
      exact ⟨.tup ys, by simp [toDevice, g1, Except.map], .tup _ _ g2 g3⟩
    | list xs h =>
      simp only [Val.list.sizeOf_spec] at hs
      obtain ⟨ys, g1, g2, g3⟩ := all xs (by omega) h
      exact ⟨.list ys, by simp [toDevice, g1, Except.map], .list _ _ g2 g3⟩

/-- C100: in training, the layer inside of `with_cpu` gets the input with all arrays on the CPU and the output comes back on the
device of the model; the gradient is handed to the layer's callback with all arrays on the CPU. -/
theorem C100_forward_partial (layer : Inner (Val α) (Val α)) (device : Device) (array : Val α → Except PyErr α) (X : Val α)
    (hX : ArraysOnly X) :
    ∃ Xc, Moved .cpu X Xc ∧ (∀ e, layer Xc true = .error e → withCpu layer device array X true = .error e) ∧
      ∀ Yc back, layer Xc true = .ok (Yc, back) → ArraysOnly Yc →
        ∃ Y back', withCpu layer device array X true = .ok (Y, back') ∧ Moved device Yc Y ∧
          ∀ dY, ArraysOnly dY → ∃ dYc, Moved .cpu dY dYc ∧ back' dY = back dYc := by
  obtain ⟨Xc, h1, h2⟩ := toCpu_moved X hX
  refine ⟨Xc, h2, fun e he => by simp [withCpu, h1, he, bind, Except.bind], fun Yc back hc hY => ?_⟩
  obtain ⟨Y, g1, g2⟩ := toDevice_moved device array Yc hY
  refine ⟨Y, cpuBackprop back, by simp [withCpu, h1, hc, g1, bind, Except.bind], g2, fun dY hd => ?_⟩
  obtain ⟨dYc, k1, k2⟩ := toCpu_moved dY hd
  exact ⟨dYc, k2, by simp [cpuBackprop, k1, bind, Except.bind]⟩

/-- C100 fails in prediction: the layer is always run as in training. -/
theorem C100_always_training (layer : Inner (Val α) (Val α)) (device : Device) (array : Val α → Except PyErr α) (X : Val α) :
    withCpu layer device array X false = withCpu layer device array X true := rfl

/-- C100 fails for gradients: they are left where the layer's callback made them, also if the input is on the GPU. -/
theorem C100_gradient_device_violated : ∃ (layer : Inner (Val Int) (Val Int)) (X Y dY dX : Val Int) (back : Val Int → _),
    (∀ X t, layer X t = .ok (X, fun d => .ok d)) ∧ X = .arr .gpu 3 ∧
    withCpu layer .gpu (fun _ => .error .typeError) X true = .ok (Y, back) ∧ Y = .arr .gpu 3 ∧ dY = .arr .gpu 1 ∧
    back dY = .ok dX ∧ dX = .arr .cpu 1 :=
  ⟨fun X _ => .ok (X, fun d => .ok d), _, _, _, _, _, fun _ _ => rfl, rfl, rfl, rfl, rfl, rfl, rfl⟩

/-- A layer that drops its input in training and not in prediction, like `Dropout`: around it, predictions differ. -/
theorem C100_predict_violated : ∃ (layer : Inner (Val Int) (Val Int)) (X : Val Int),
    (layer X false).map Prod.fst = .ok (.arr .cpu 3) ∧
    (withCpu layer .cpu (fun _ => .error .typeError) X false).map Prod.fst = .ok (.arr .cpu 0) :=
  ⟨fun X t => .ok (if t then .arr .cpu 0 else X, fun d => .ok d), .arr .cpu 3, rfl, rfl⟩

/-- Nested arrays on both devices. -/
example : ∃ v : Val Int, ArraysOnly v ∧ v = .tup [.arr .gpu 1, .list [.arr .cpu 2]] ∧
    toCpu v = .ok (.tup [.arr .cpu 1, .list [.arr .cpu 2]]) := by
  refine ⟨_, ?_, rfl, rfl⟩
  refine .tup _ fun x hx => ?_
  simp only [List.mem_cons, List.not_mem_nil, or_false] at hx
  rcases hx with rfl | rfl
  · exact .arr _ _
  · refine .list _ fun x hx => ?_
    simp only [List.mem_cons, List.not_mem_nil, or_false] at hx
    subst hx
    exact .arr _ _

end Thinc
