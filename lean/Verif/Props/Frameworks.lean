import Verif.Spec.Frameworks
import Verif.Props.TorchWrapper
/-!
# C135: inputs, outputs and gradients of wrapped TensorFlow and MXNet models
-/
namespace Thinc
open Spec Obj Torch Frameworks

/-! ### Conversions -/

theorem xp2tf_eq : xp2tf = xp2torch false := by
  funext o s
  cases o <;> rfl

theorem tf2xp_eq : tf2xp = torch2xp := by
  funext o s
  cases o <;> rfl

theorem mx2xp_eq : mx2xp = torch2xp := by
  funext o s
  cases o <;> rfl

theorem xp2mx_false : xp2mx false = xp2torch false := by
  funext o s
  cases o <;> rfl

theorem reverseTf_eq : reverseTf = reverseInputs := by
  funext c d
  rw [reverseTf, reverseInputs, tf2xp_eq]

theorem reverseMx_eq : reverseMx = reverseInputs := by
  funext c d
  rw [reverseMx, reverseInputs, mx2xp_eq]

theorem mapM_xp2mx (rg : Bool) (xs : List Obj) (s : Store) (hx : ∀ x ∈ xs, ∃ a h, x = .other a h ∧ a % 4 = 0) :
    ∃ ys s', xs.mapM (xp2mx rg) s = .ok (ys, s') ∧ s'.next = s.next + xs.length ∧ SameBefore s s' ∧
      (∀ (n a : ℕ) h, xs[n]? = some (.other a h) → ys[n]? = some (.other (4 * (s.next + n) + 1) true) ∧
        s'.data (4 * (s.next + n) + 1) = s.data a ∧ s'.requiresGrad (4 * (s.next + n) + 1) = rg ∧
        s'.hasGrad (4 * (s.next + n) + 1) = false) := by
  induction xs generalizing s with
  | nil => exact ⟨[], s, rfl, by simp, .refl s, by simp⟩
  | cons x xs ih =>
    obtain ⟨a, h, rfl, ha⟩ := hx x (by simp)
    have hne : ∀ i : ℕ, i % 4 = 0 → i ≠ 4 * s.next + 1 := fun i hi => by omega
    obtain ⟨ys, s', h1, h2, h3, h4⟩ := ih (s.newTensor rg a) (fun y hy => hx y (by simp [hy]))
    refine ⟨.other (4 * s.next + 1) true :: ys, s', ?_, ?_, ?_, ?_⟩
    · simp only [List.mapM_cons, bind, StateT.bind, Except.bind, xp2mx, h1, pure, StateT.pure, Except.pure]
    · rw [h2]; simp [Store.newTensor]; omega
    · exact (sameBefore_newTensor s rg a).trans h3
    · intro n b k hn
      cases n with
      | zero =>
        simp only [List.getElem?_cons_zero, Option.some.injEq, Obj.other.injEq] at hn
        obtain ⟨rfl, rfl⟩ := hn
        have := h3.2 (4 * s.next + 1) (by simp [Store.newTensor]; omega)
        simp only [Nat.add_zero, List.getElem?_cons_zero, true_and]
        rw [this.1, this.2.1, this.2.2]
        simp [Store.newTensor]
      | succ n =>
        rw [List.getElem?_cons_succ] at hn
        have hb : b % 4 = 0 := by
          obtain ⟨b', k', e, hb'⟩ := hx (.other b k) (by simp [List.mem_of_getElem? hn])
          injection e with e1 e2
          subst e1; exact hb'
        have := h4 n b k hn
        simp only [Store.newTensor, Function.update_of_ne (hne b hb)] at this
        rw [show s.next + (n + 1) = s.next + 1 + n by omega, List.getElem?_cons_succ]
        exact this

theorem convert_xp2mx (rg : Bool) (o : Obj) (hk : KeysFine isXp o) (s : Store) :
    ∃ o' s', convertRecursive isXp (xp2mx rg) o s = .ok (o', s') ∧ SameBefore s s' ∧
      Replaced isXp (fun _ x t => TensorOf s s' rg x t) o o' ∧
      ∀ p q, Outermost isXp o p → Outermost isXp o q → objAt o' p = objAt o' q → p = q := by
  obtain ⟨-, hmem, -, hok⟩ := convert_run isXp (xp2mx rg) o hk s
  obtain ⟨ys, s', h1, h2, h3, h4⟩ := mapM_xp2mx rg (iterateRecursive isXp o) s (by
    intro x hx
    obtain ⟨hm, -⟩ := hmem x hx
    obtain ⟨a, h, rfl⟩ := leaf_xp x hm
    exact ⟨a, h, rfl, by simpa [isXp] using hm⟩)
  obtain ⟨o', num, c1, c2, c3, c4⟩ := hok ys s' h1
  have hitem : ∀ p, Outermost isXp o p → ∃ a h, objAt o p = some (.other a h) ∧ a % 4 = 0 ∧
      (iterateRecursive isXp o)[num p]? = some (.other a h) ∧ num p < (iterateRecursive isXp o).length := by
    intro p hp
    obtain ⟨⟨x, hx, hm⟩, _⟩ := id hp
    obtain ⟨a, h, rfl⟩ := leaf_xp x hm
    have e := (c2 p hp).1
    rw [hx] at e
    exact ⟨a, h, hx, by simpa [isXp] using hm, e, (List.getElem?_eq_some_iff.1 e).1⟩
  refine ⟨o', s', c1, h3, ⟨fun p hp => ?_, c4⟩, fun p q hp hq e => ?_⟩
  · obtain ⟨a, h, hx, ha, hi, hlt⟩ := hitem p hp
    obtain ⟨d1, d2, d3, d4⟩ := h4 _ a h hi
    exact ⟨_, _, hx, by rw [(c2 p hp).2, d1], a, h, _, rfl, ha, rfl, by omega, by omega, d2, d3, d4⟩
  · obtain ⟨a, h, _, _, hi, _⟩ := hitem p hp
    obtain ⟨b, k, _, _, hj, _⟩ := hitem q hq
    rw [(c2 p hp).2, (c2 q hq).2, (h4 _ a h hi).1, (h4 _ b k hj).1] at e
    simp only [Option.some.injEq, Obj.other.injEq, and_true] at e
    exact c3 p q hp hq (by omega)

/-- Converting one array. -/
theorem convert_array (d : ℕ) (hd : Bool) (s : Store) (h : isXp (.other d hd) = true) :
    convertRecursive isXp (xp2torch false) (.other d hd) s = .ok (.other (4 * s.next + 1) true, s.newTensor false d) := by
  rw [convertRecursive, if_pos h]
  rfl

theorem tensorOf_new (d : ℕ) (hd : Bool) (s : Store) (rg : Bool) (h : isXp (.other d hd) = true) :
    TensorOf s (s.newTensor rg d) rg (.other d hd) (.other (4 * s.next + 1) true) :=
  ⟨d, hd, s.next, rfl, by simpa [isXp] using h, rfl, le_refl _, by simp [Store.newTensor], by simp [Store.newTensor],
    by simp [Store.newTensor], by simp [Store.newTensor]⟩

/-- Converting a gradient back: a tensor becomes an array, and `None` stays. -/
theorem convert_gradient (d : Obj) (hd : isTorch d = true ∨ d = pyNone) (s : Store) :
    ∃ dx s', convertRecursive isTorch torch2xp d s = .ok (dx, s') ∧ SameBefore s s' ∧
      (isTorch d = true → ArrayOf s s' d dx) ∧ (d = pyNone → dx = pyNone) ∧ ∃ i j, dx = .other i j := by
  rcases hd with hd | rfl
  · obtain ⟨t, ht, rfl⟩ := leaf_torch d hd
    refine ⟨.other (4 * s.next) false, s.newArray t, ?_, sameBefore_newArray _ _, fun _ => ?_, ?_, _, _, rfl⟩
    · rw [convertRecursive, if_pos hd]
      simp only [torch2xp, hd, if_true]
    · exact ⟨t, ht, s.next, rfl, hd, rfl, le_refl _, by simp [Store.newArray], by simp [Store.newArray]⟩
    · rintro h
      rw [h] at hd
      simp [pyNone, isTorch] at hd
  · exact ⟨pyNone, s, rfl, .refl s, fun h => by simp [pyNone, isTorch] at h, fun _ => rfl, _, _, rfl⟩

theorem keysFine_other (m : Obj → Bool) (hm : LeafOnly m) (i : ℕ) (j : Bool) : KeysFine m (.other i j) :=
  (keysFine_leaf hm _).2 ⟨fun _ h => by rcases h with _ | ⟨hc, h⟩; simp [members] at hc,
    fun _ _ h => by rcases h with _ | ⟨hc, h⟩; simp [members] at hc⟩

/-- The gradients in an `ArgsKwargs` with one argument. -/
theorem convert_one (d : Obj) (hd : isTorch d = true ∨ d = pyNone) (s : Store) :
    ∃ dx s', convertRecursive isTorch torch2xp (.argsKwargs [d] []) s = .ok (.argsKwargs [dx] [], s') ∧ SameBefore s s' ∧
      (isTorch d = true → ArrayOf s s' d dx) ∧ (d = pyNone → dx = pyNone) := by
  obtain ⟨dx, s', h1, h2, h3, h4, i, j, rfl⟩ := convert_gradient d hd s
  have hdo : ∃ a b, d = .other a b := by
    rcases hd with h | rfl
    · obtain ⟨a, b, e⟩ := leaf_torch _ h
      exact ⟨a, b, e⟩
    · exact ⟨_, _, rfl⟩
  obtain ⟨a, b, rfl⟩ := hdo
  exact ⟨_, s', convert_wrapArgs isTorch torch2xp leaf_torch (.other a b) (keysFine_other _ leaf_torch _ _) (by simp) s s'
    (.other i j) h1 (fun _ => ⟨_, _, rfl⟩), h2, h3, h4⟩

/-- The callback in training, for one tensor as input. -/
theorem tape_works (K : Keras) (t Yt converted : Obj) (form : Obj → Obj)
    (hform : ∀ dx, unwrapArgs converted (.argsKwargs [dx] []) = .ok (form dx)) :
    TapeWorks K t Yt form (fun dY => do
      let dYtf ← convertRecursive isXp xp2tf dY
      let dXtf ← K.backprop [t] Yt dYtf
      reverseTf converted dXtf) := by
  intro dY s hdY
  obtain ⟨d, hd, rfl⟩ := leaf_xp dY hdY
  refine ⟨_, _, tensorOf_new d hd s false hdY, sameBefore_newTensor _ _ _, ?_, ?_⟩
  · intro e he
    simp only [xp2tf_eq, bind, StateT.bind, Except.bind, convert_array d hd s hdY, Keras.backprop, Keras.inputTensors, pure,
      StateT.pure, Except.pure, List.singleton_append, he]
  · intro g gs s1 hg hgt
    refine ⟨fun e he => ?_, fun s2 h2 => ?_⟩
    · simp only [xp2tf_eq, bind, StateT.bind, Except.bind, convert_array d hd s hdY, Keras.backprop, Keras.inputTensors, pure,
        StateT.pure, Except.pure, List.singleton_append, hg, List.drop_one, List.tail_cons, he]
    · obtain ⟨dx, s3, c1, c2, c3, c4⟩ := convert_one g hgt s2
      refine ⟨dx, s3, ?_, c2, c3, c4⟩
      simp only [xp2tf_eq, bind, StateT.bind, Except.bind, convert_array d hd s hdY, Keras.backprop, Keras.inputTensors, pure,
        StateT.pure, Except.pure, List.singleton_append, hg, List.drop_one, List.tail_cons, h2, reverseTf_eq, reverseInputs,
        List.length_singleton, List.take_succ_cons, List.take_zero, c1, hform, liftE]

/-! ### The theorems -/

/-- C135: a wrapped TensorFlow model is called once, with the input in which every array has become a tensor of its own with
the same contents (in training the tape watches the positional arguments first); its output comes back with every tensor turned
into an array.  In training, if the input is an array or a tuple of one array, the callback computes the gradients of that
array's tensor and of the variables, lets the shim accumulate those of the variables, and returns that of the input, as an array
or as a tuple of one array.  Other inputs are in `C135_evaluation_wrong`, `C135_keywords_wrong`, `C135_kwargs_wrong` and
`C135_several_inputs_wrong`. -/
theorem C135_forward_partial (K : Keras) (X : Obj) (train : Bool) (s : Store) (hX : KeysFine isXp X) :
    ∃ Xt s1 args kwargs, Replaced isXp (fun _ x t => TensorOf s s1 false x t) X Xt ∧ SameBefore s s1 ∧
      (∀ p q, Outermost isXp X p → Outermost isXp X q → objAt Xt p = objAt Xt q → p = q) ∧
      CalledWith Xt args kwargs ∧
      (∀ e, kerasCall K train args kwargs s1 = .error e → K.forward X train s = .error e) ∧
      ∀ Yt s2, kerasCall K train args kwargs s1 = .ok (Yt, s2) → KeysFine isTorch Yt →
        ∃ Y back s3, K.forward X train s = .ok ((Y, back), s3) ∧ SameBefore s2 s3 ∧
          Replaced isTorch (fun _ t y => ArrayOf s2 s3 t y) Yt Y ∧
          (train = true → isXp X = true → TapeWorks K Xt Yt (fun dx => dx) back) ∧
          (train = true → ∀ x, X = .tup [x] → isXp x = true →
            ∃ xt, Xt = .tup [xt] ∧ TapeWorks K xt Yt (fun dx => .tup [dx]) back) := by
  obtain ⟨Xt, s1, h1, h2, h3, h4⟩ := convert_xp2torch false X hX s (by simp)
  obtain ⟨args, kwargs, hw⟩ := wrapArgs_argsKwargs Xt
  have hcw := calledWith_wrapArgs Xt _ _ hw
  refine ⟨Xt, s1, args, kwargs, h3, h2, h4, hcw, ?_, ?_⟩
  · intro e he
    cases train with
    | false =>
      simp only [kerasCall, Bool.false_eq_true, if_false] at he
      simp only [Keras.forward, xp2tf_eq, bind, StateT.bind, Except.bind, h1, hw, Bool.false_eq_true, if_false, he]
    | true =>
      simp only [kerasCall, if_true] at he
      cases hwa : K.watch args s1 with
      | error e' =>
        rw [hwa] at he
        simp only [Except.error.injEq] at he
        subst he
        simp only [Keras.forward, xp2tf_eq, bind, StateT.bind, Except.bind, h1, hw, if_true, getArgs, liftE, pure, StateT.pure,
          Except.pure, hwa]
      | ok r =>
        rw [hwa] at he
        simp only at he
        simp only [Keras.forward, xp2tf_eq, bind, StateT.bind, Except.bind, h1, hw, if_true, getArgs, liftE, pure, StateT.pure,
          Except.pure, hwa, he]
  · intro Yt s2 hc hk
    obtain ⟨Y, s3, y1, y2, y3⟩ := convert_torch2xp Yt hk s2
    cases train with
    | false =>
      simp only [kerasCall, Bool.false_eq_true, if_false] at hc
      refine ⟨Y, fun dY => do
        let _ ← convertRecursive isXp xp2tf dY
        fun _ => .error .unboundLocalError, s3, ?_, y2, y3, by simp, by simp⟩
      simp only [Keras.forward, xp2tf_eq, tf2xp_eq, bind, StateT.bind, Except.bind, h1, hw, Bool.false_eq_true, if_false, hc, y1,
        pure, StateT.pure, Except.pure]
    | true =>
      simp only [kerasCall, if_true] at hc
      cases hwa : K.watch args s1 with
      | error e' => rw [hwa] at hc; simp at hc
      | ok r =>
        rw [hwa] at hc
        simp only at hc
        refine ⟨Y, fun dY => do
          let dYtf ← convertRecursive isXp xp2tf dY
          let dXtf ← K.backprop args Yt dYtf
          reverseTf Xt dXtf, s3, ?_, y2, y3, ?_, ?_⟩
        · simp only [Keras.forward, xp2tf_eq, tf2xp_eq, bind, StateT.bind, Except.bind, h1, hw, if_true, getArgs, liftE, hwa,
            hc, y1, pure, StateT.pure, Except.pure]
        · intro _ hx
          obtain ⟨x, x', e1, e2, hr⟩ := h3.1 [] (outermost_nil.2 hx)
          obtain ⟨i, j, e⟩ := tensorOf_other hr
          simp only [objAt, Option.some.injEq] at e2
          rw [← e2] at e
          subst e
          simp only [wrapArgs, Obj.argsKwargs.injEq] at hw
          rw [← hw.1]
          exact tape_works K _ Yt _ _ fun dx => rfl
        · rintro _ x rfl hx
          obtain ⟨a, b, rfl⟩ := leaf_xp x hx
          have e : convertRecursive isXp (xp2torch false) (.tup [.other a b]) s =
              .ok (.tup [.other (4 * s.next + 1) true], s.newTensor false a) := by
            rw [convertRecursive, if_neg (by simp [isXp])]
            simp only [convertList, bind, StateT.bind, Except.bind, convert_array a b s hx, pure, StateT.pure, Except.pure]
          rw [e] at h1
          simp only [Except.ok.injEq, Prod.mk.injEq] at h1
          obtain ⟨rfl, -⟩ := h1
          simp only [wrapArgs, Obj.argsKwargs.injEq] at hw
          rw [← hw.1]
          exact ⟨_, rfl, tape_works K _ Yt _ _ fun dx => rfl⟩

/-- C135 fails in evaluation: the callback always raises. -/
theorem C135_evaluation_wrong (K : Keras) (X : Obj) (s s' : Store) (Y : Obj) (back : Obj → Run Obj)
    (h : K.forward X false s = .ok ((Y, back), s')) (dY : Obj) (st : Store) : ∃ e, back dY st = .error e := by
  simp only [Keras.forward, bind, StateT.bind, Except.bind, Bool.false_eq_true, if_false] at h
  cases h1 : convertRecursive isXp xp2tf X s with
  | error e => rw [h1] at h; simp at h
  | ok r =>
    rw [h1] at h
    simp only at h
    cases h2 : K.call false (wrapArgs r.1) r.2 with
    | error e => rw [h2] at h; simp at h
    | ok r2 =>
      rw [h2] at h
      simp only at h
      cases h3 : convertRecursive isTorch tf2xp r2.1 r2.2 with
      | error e => rw [h3] at h; simp at h
      | ok r3 =>
        rw [h3] at h
        simp only [pure, StateT.pure, Except.pure, Except.ok.injEq, Prod.mk.injEq] at h
        rw [← h.1.2]
        cases h4 : convertRecursive isXp xp2tf dY st with
        | error e => exact ⟨e, by simp only [StateT.bind, bind, Except.bind, h4]⟩
        | ok r4 => exact ⟨.unboundLocalError, by simp only [StateT.bind, bind, Except.bind, h4]⟩

/-- What a successful training call gives. -/
theorem forward_train (K : Keras) (X : Obj) (s s' : Store) (Y : Obj) (back : Obj → Run Obj)
    (h : K.forward X true s = .ok ((Y, back), s')) :
    ∃ Xt s1 args Yt, convertRecursive isXp xp2tf X s = .ok (Xt, s1) ∧ getArgs (wrapArgs Xt) = .ok args ∧
      back = (fun dY => do
        let dYtf ← convertRecursive isXp xp2tf dY
        let dXtf ← K.backprop args Yt dYtf
        reverseTf Xt dXtf) := by
  simp only [Keras.forward, bind, StateT.bind, Except.bind, if_true] at h
  cases h1 : convertRecursive isXp xp2tf X s with
  | error e => rw [h1] at h; simp at h
  | ok r =>
    rw [h1] at h
    obtain ⟨a, k, hw⟩ := wrapArgs_argsKwargs r.1
    simp only [hw, getArgs, liftE, pure, StateT.pure, Except.pure] at h
    cases h2 : K.watch a r.2 with
    | error e => rw [h2] at h; simp at h
    | ok r2 =>
      rw [h2] at h
      simp only at h
      cases h3 : K.call true (.argsKwargs a k) r2.2 with
      | error e => rw [h3] at h; simp at h
      | ok r3 =>
        rw [h3] at h
        simp only at h
        cases h4 : convertRecursive isTorch tf2xp r3.1 r3.2 with
        | error e => rw [h4] at h; simp at h
        | ok r4 =>
          rw [h4] at h
          simp only [Except.ok.injEq, Prod.mk.injEq] at h
          exact ⟨r.1, r.2, a, r3.1, rfl, by rw [hw]; rfl, h.1.2.symm⟩

/-- C135 fails for keyword arguments: if the input is a dict, the callback always raises. -/
theorem C135_keywords_wrong (K : Keras) (kvs : List (Obj × Obj)) (s s' : Store) (Y : Obj) (back : Obj → Run Obj)
    (h : K.forward (.dict kvs) true s = .ok ((Y, back), s')) (dY : Obj) (st : Store) : ∃ e, back dY st = .error e := by
  obtain ⟨Xt, s1, args, Yt, h1, h2, rfl⟩ := forward_train K _ s s' Y back h
  have hd : ∃ kvs', Xt = .dict kvs' := by
    rw [convertRecursive, if_neg (by simp [isXp])] at h1
    simp only [bind, StateT.bind, Except.bind] at h1
    split at h1
    · simp at h1
    · simp only [pure, StateT.pure, Except.pure, Except.ok.injEq, Prod.mk.injEq] at h1
      exact ⟨_, h1.1.symm⟩
  obtain ⟨kvs', rfl⟩ := hd
  simp only [wrapArgs, getArgs, Except.ok.injEq] at h2
  subst h2
  cases h4 : convertRecursive isXp xp2tf dY st with
  | error e => exact ⟨e, by simp only [bind, StateT.bind, Except.bind, h4]⟩
  | ok r4 => exact ⟨.indexError, by simp only [bind, StateT.bind, Except.bind, h4, Keras.backprop, Keras.inputTensors]⟩

theorem convertArgs_shape (as : List Obj) (i : ℕ) (s s' : Store) (ys : List Obj)
    (h : convertArgs isTorch torch2xp i as s = .ok (ys, s')) : ∃ vs, ys = argItems i vs := by
  induction as generalizing i s ys with
  | nil =>
    simp only [convertArgs, pure, StateT.pure, Except.pure, Except.ok.injEq, Prod.mk.injEq] at h
    exact ⟨[], h.1.symm⟩
  | cons a as ih =>
    simp only [convertArgs, isTorch, Bool.false_eq_true, if_false, bind, StateT.bind, Except.bind, pure, StateT.pure,
      Except.pure] at h
    cases h1 : convertRecursive isTorch torch2xp a s with
    | error e => rw [h1] at h; simp at h
    | ok r =>
      rw [h1] at h
      simp only at h
      cases h2 : convertArgs isTorch torch2xp (i + 1) as r.2 with
      | error e => rw [h2] at h; simp at h
      | ok r2 =>
        rw [h2] at h
        simp only [Except.ok.injEq, Prod.mk.injEq] at h
        obtain ⟨vs, hvs⟩ := ih (i + 1) r.2 r2.1 (by rw [h2, ← h.2])
        exact ⟨r.1 :: vs, by rw [← h.1, hvs]; rfl⟩

/-- Converting positional arguments gives positional arguments. -/
theorem convert_positional (ds : List Obj) (s s' : Store) (o : Obj)
    (h : convertRecursive isTorch torch2xp (.argsKwargs ds []) s = .ok (o, s')) : ∃ vs, o = .argsKwargs vs [] := by
  rw [convertRecursive, if_neg (by simp [isTorch]), if_neg (by simp [isTorch])] at h
  simp only [bind, StateT.bind, Except.bind, convertKwargs, pure, StateT.pure, Except.pure] at h
  cases h1 : convertArgs isTorch torch2xp 0 ds s with
  | error e => rw [h1] at h; simp at h
  | ok r =>
    obtain ⟨vs, hvs⟩ := convertArgs_shape ds 0 s r.2 r.1 h1
    have hi := fromItems_items vs [] (by simp) (by simp)
    rw [items, List.map_nil] at hi
    rw [h1] at h
    simp only [hvs, hi, liftE, pure, StateT.pure, Except.pure, Except.ok.injEq, Prod.mk.injEq] at h
    exact ⟨vs, h.1.symm⟩

theorem convert_two (d0 d1 : Obj) (h0 : isTorch d0 = true ∨ d0 = pyNone) (h1 : isTorch d1 = true ∨ d1 = pyNone) (s : Store) :
    ∃ x0 x1 sm s', convertRecursive isTorch torch2xp (.argsKwargs [d0, d1] []) s = .ok (.argsKwargs [x0, x1] [], s') ∧
      (d0 = pyNone → x0 = pyNone) ∧ (isTorch d1 = true → ArrayOf sm s' d1 x1) := by
  obtain ⟨x0, s1, a1, -, -, a4, -⟩ := convert_gradient d0 h0 s
  obtain ⟨x1, s2, b1, -, b3, -, -⟩ := convert_gradient d1 h1 s1
  have hi := fromItems_items [x0, x1] [] (by simp) (by simp)
  rw [items, List.map_nil] at hi
  simp only [argItems, List.append_nil] at hi
  refine ⟨x0, x1, s1, s2, ?_, a4, b3⟩
  rw [convertRecursive, if_neg (by simp [isTorch]), if_neg (by simp [isTorch])]
  simp only [convertArgs, convertKwargs, isTorch, Bool.false_eq_true, if_false, bind, StateT.bind, Except.bind, pure, StateT.pure,
    Except.pure, a1, b1, List.append_nil]
  have hi' : fromItems (.list [.tup [.int (0 : ℕ), x0], .tup [.int ((0 + 1 : ℕ) : ℤ), x1]]) = .ok (.argsKwargs [x0, x1] []) := hi
  rw [hi']
  rfl

/-- C135 fails for `ArgsKwargs` with keyword arguments: what the callback returns never has a gradient for any of them. -/
theorem C135_kwargs_wrong (K : Keras) (as : List Obj) (kvs : List (Obj × Obj)) (s s' : Store) (Y : Obj) (back : Obj → Run Obj)
    (h : K.forward (.argsKwargs as kvs) true s = .ok ((Y, back), s')) (dY dX : Obj) (st st' : Store)
    (hb : back dY st = .ok (dX, st')) : ∃ ds, dX = .argsKwargs ds [] := by
  obtain ⟨Xt, s1, args, Yt, h1, h2, rfl⟩ := forward_train K _ s s' Y back h
  have hd : ∃ as' kvs', Xt = .argsKwargs as' kvs' := by
    rw [convertRecursive, if_neg (by simp [isXp]), if_neg (by simp [isXp])] at h1
    simp only [bind, StateT.bind, Except.bind] at h1
    split at h1
    · simp at h1
    · split at h1
      · simp at h1
      · rename_i r2 _
        cases hf : fromItems (list (_ ++ r2.1)) with
        | error e =>
          rw [hf] at h1
          simp [liftE, throw, throwThe, MonadExceptOf.throw, StateT.lift, bind, Except.bind] at h1
        | ok o =>
          rw [hf] at h1
          simp only [liftE, pure, StateT.pure, Except.pure, Except.ok.injEq, Prod.mk.injEq] at h1
          rw [← h1.1]
          rw [fromItems] at hf
          split at hf
          · simp at hf
          · split at hf
            · simp at hf
            · simp only [Except.ok.injEq] at hf
              exact ⟨_, _, hf.symm⟩
  obtain ⟨as', kvs', rfl⟩ := hd
  simp only [bind, StateT.bind, Except.bind] at hb
  split at hb
  · simp at hb
  · split at hb
    · simp at hb
    · rename_i r hr
      simp only [Keras.backprop, bind, StateT.bind, Except.bind] at hr
      split at hr
      · simp at hr
      · split at hr
        · simp at hr
        · split at hr
          · simp at hr
          · simp only [pure, StateT.pure, Except.pure, Except.ok.injEq] at hr
            subst hr
            simp only [reverseTf, tf2xp_eq, bind, StateT.bind, Except.bind] at hb
            split at hb
            · simp at hb
            · rename_i r5 h5
              obtain ⟨vs, hvs⟩ := convert_positional _ _ r5.2 r5.1 h5
              simp only [unwrapArgs, liftE, pure, StateT.pure, Except.pure, Except.ok.injEq, Prod.mk.injEq] at hb
              exact ⟨vs, by rw [← hb.1, hvs]⟩

/-- C135 fails for several inputs.  If the input is a tuple of two arrays, the callback asks for the gradients of the rows of the
first array and of the variables, and returns the first two of them.  For instance, if the first array has one row, the result is
the gradient of that row, and the gradient of the first variable in the place of the gradient of the second input. -/
theorem C135_several_inputs_wrong (K : Keras) (a b : ℕ) (ha hb : Bool) (hxa : isXp (.other a ha) = true)
    (hxb : isXp (.other b hb) = true) (s s' : Store) (Y : Obj) (back : Obj → Run Obj)
    (h : K.forward (.tup [.other a ha, .other b hb]) true s = .ok ((Y, back), s')) (dY dX : Obj) (st st' : Store)
    (hok : back dY st = .ok (dX, st')) :
    ∃ t Yt g s1 rows s2 all s3 s4, TensorOf s (s.newTensor false a) false (.other a ha) t ∧
      K.rows t s1 = .ok (rows, s2) ∧ K.gradient Yt (rows ++ K.vars) g s2 = .ok (all, s3) ∧
      K.accumulate (all.drop 1) s3 = .ok ((), s4) ∧
      ∀ d0 d1 ds, all = d0 :: d1 :: ds → (isTorch d0 = true ∨ d0 = pyNone) → (isTorch d1 = true ∨ d1 = pyNone) →
        ∃ x0 x1, dX = .tup [x0, x1] ∧ (d0 = pyNone → x0 = pyNone) ∧ (isTorch d1 = true → ∃ s5, ArrayOf s5 st' d1 x1) := by
  obtain ⟨Xt, s1, args, Yt, h1, h2, rfl⟩ := forward_train K _ s s' Y back h
  have e : convertRecursive isXp xp2tf (.tup [.other a ha, .other b hb]) s =
      .ok (.tup [.other (4 * s.next + 1) true, .other (4 * (s.newTensor false a).next + 1) true],
        (s.newTensor false a).newTensor false b) := by
    rw [xp2tf_eq, convertRecursive, if_neg (by simp [isXp])]
    simp only [convertList, bind, StateT.bind, Except.bind, convert_array a ha s hxa, convert_array b hb _ hxb, pure,
      StateT.pure, Except.pure]
  rw [e] at h1
  simp only [Except.ok.injEq, Prod.mk.injEq] at h1
  obtain ⟨rfl, -⟩ := h1
  simp only [wrapArgs, getArgs, Except.ok.injEq] at h2
  subst h2
  have ht : isTorch (.other (4 * s.next + 1) true) = true := torch_mod.2 (by omega)
  simp only [bind, StateT.bind, Except.bind] at hok
  split at hok
  · simp at hok
  · rename_i rg hrg
    split at hok
    · simp at hok
    · rename_i r hr
      simp only [Keras.backprop, Keras.inputTensors, ht, if_true, bind, StateT.bind, Except.bind] at hr
      split at hr
      · simp at hr
      · rename_i rr hrr
        split at hr
        · simp at hr
        · rename_i ra hra
          split at hr
          · simp at hr
          · rename_i rc hrc
            simp only [pure, StateT.pure, Except.pure, Except.ok.injEq] at hr
            subst hr
            refine ⟨_, Yt, rg.1, rg.2, rr.1, rr.2, ra.1, ra.2, rc.2, tensorOf_new a ha s false hxa, hrr, hra, hrc, ?_⟩
            intro d0 d1 ds hall hd0 hd1
            obtain ⟨x0, x1, sm, sf, c1, c2, c3⟩ := convert_two d0 d1 hd0 hd1 rc.2
            simp only [reverseTf, tf2xp_eq, bind, StateT.bind, Except.bind, hall, List.length_cons, List.length_nil,
              List.take_succ_cons, List.take_zero, c1, unwrapArgs, getArgs, Except.map, liftE, pure, StateT.pure, Except.pure,
              Except.ok.injEq, Prod.mk.injEq] at hok
            exact ⟨x0, x1, hok.1.symm, c2, fun h => ⟨sm, hok.2 ▸ c3 h⟩⟩

/-- C135 for MXNet: as C97, but arrays of every type can be trained with. -/
theorem C135_mxnet_partial (M : Module) (X : Obj) (train : Bool) (s : Store) (hX : PlainInput X) (hl : ∀ xs, X ≠ .list xs) :
    ∃ Xt s1 args kwargs, Replaced isXp (fun _ x t => TensorOf s s1 train x t) X Xt ∧ SameBefore s s1 ∧
      (∀ p q, Outermost isXp X p → Outermost isXp X q → objAt Xt p = objAt Xt q → p = q) ∧
      CalledWith Xt args kwargs ∧
      (∀ e, M.call train (.argsKwargs args kwargs) s1 = .error e → mxForward M X train s = .error e) ∧
      ∀ Yt s2, M.call train (.argsKwargs args kwargs) s1 = .ok (Yt, s2) → KeysFine isTorch Yt →
        ∃ Y back s3, mxForward M X train s = .ok ((Y, back), s3) ∧ SameBefore s2 s3 ∧
          Replaced isTorch (fun _ t y => ArrayOf s2 s3 t y) Yt Y ∧
          (train = true → isTorch Yt = true → BackpropWorks M X Xt Yt back) := by
  obtain ⟨Xt, s1, h1, h2, h3, h4⟩ := convert_xp2mx train X hX.arrays s
  obtain ⟨args, kwargs, hw⟩ := wrapArgs_argsKwargs Xt
  refine ⟨Xt, s1, args, kwargs, h3, h2, h4, calledWith_wrapArgs Xt _ _ hw, ?_, ?_⟩
  · intro e he
    simp only [mxForward, bind, StateT.bind, Except.bind, h1, hw, he]
  · intro Yt s2 hc hk
    obtain ⟨Y, s3, y1, y2, y3⟩ := convert_torch2xp Yt hk s2
    refine ⟨Y, fun dY => do
        let dYmx ← convertRecursive isXp (xp2mx false) dY
        let dXmx ← mxBackprop M train (.argsKwargs args kwargs) (.tup [Yt]) dYmx
        reverseMx Xt dXmx, s3, ?_, y2, y3, ?_⟩
    · simp only [mxForward, bind, StateT.bind, Except.bind, h1, hw, hc, mx2xp_eq, y1, pure, StateT.pure, Except.pure]
    · rintro rfl hYt dY s4 hdY
      obtain ⟨d, hd, rfl⟩ := leaf_xp dY hdY
      have hconv := convert_array d hd s4 hdY
      have hg : isTorch (.other (4 * s4.next + 1) true) = true := torch_mod.2 (by omega)
      obtain ⟨t, ht, rfl⟩ := leaf_torch Yt hYt
      refine ⟨_, _, tensorOf_new d hd s4 false hdY, sameBefore_newTensor _ _ _, ?_, ?_⟩
      · intro e he
        simp only [xp2mx_false, bind, StateT.bind, Except.bind, hconv, pure, StateT.pure, Except.pure, if_true,
          mxBackprop, Module.autograd, asTensors, List.all_cons, hYt, List.all_nil, Bool.and_self, hg, liftE,
          List.length_singleton, he]
      · intro s5 hs5
        obtain ⟨dXt, dX, s6, g1, g2, g3, g4⟩ := reverse_gradients X Xt hX hl s s1 true h3 s5
        refine ⟨dX, s6, ?_, g3, g4⟩
        rw [hw] at g1
        simp only [xp2mx_false, reverseMx_eq, bind, StateT.bind, Except.bind, hconv, pure, StateT.pure, Except.pure, if_true,
          mxBackprop, Module.autograd, asTensors, List.all_cons, hYt, List.all_nil, Bool.and_self, hg, liftE,
          List.length_singleton, hs5, g1, g2]

/-- C135 fails in evaluation for MXNet too: the shim's callback returns `...` instead of gradients, and the callback of the layer, which looks for its
`args`, raises AttributeError. -/
theorem C135_mxnet_evaluation_wrong (M : Module) (id : ℕ) (h : Bool) (s s' : Store) (Y : Obj) (back : Obj → Run Obj) (hX : isXp (.other id h) = true)
    (hf : mxForward M (.other id h) false s = .ok ((Y, back), s')) (d : ℕ) (hd : Bool) (hdY : isXp (.other d hd) = true) (st : Store) :
    back (.other d hd) st = .error .attributeError := by
  have h1 := convert_array id h s hX
  have h2 := convert_array d hd st hdY
  have h3 : ∀ q : Store, convertRecursive isTorch mx2xp pyEllipsis q = .ok (pyEllipsis, q) := fun q => by
    rw [pyEllipsis, convertRecursive, if_neg (by simp [isTorch])]
    rfl
  simp only [mxForward, xp2mx_false, bind, StateT.bind, Except.bind, h1] at hf
  cases h4 : M.call false (wrapArgs (.other (4 * s.next + 1) true)) (s.newTensor false id) with
  | error e => rw [h4] at hf; simp at hf
  | ok r =>
    rw [h4] at hf
    simp only at hf
    cases h5 : convertRecursive isTorch mx2xp r.1 r.2 with
    | error e => rw [h5] at hf; simp at hf
    | ok r2 =>
      rw [h5] at hf
      simp only [pure, StateT.pure, Except.pure, Except.ok.injEq, Prod.mk.injEq] at hf
      rw [← hf.1.2]
      simp only [StateT.bind, bind, Except.bind, h2, mxBackprop, Bool.false_eq_true, if_false, pure, StateT.pure, Except.pure, reverseMx, h3]
      rfl

/-! ### A case -/

namespace KerasCase

/-- A model with one variable.  Its output is a tensor with zeros.  The inputs and the variable have gradients; the rows of a
tensor, which are new tensors, have none. -/
def K : Keras where
  watch _ := fun s => .ok ((), s)
  call _ _ := fun s => .ok (.other (4 * s.next + 1) true, { s with
    next := s.next + 1, data := Function.update s.data (4 * s.next + 1) [0, 0] })
  vars := [.other 37 true]
  rows _ := fun s => .ok ([.other (4 * s.next + 1) true], { s with next := s.next + 1 })
  gradient _ wrt _ := fun s => .ok (wrt.map fun t => match t with
    | .other id _ => if id < 4 * 12 then .other (id + 1) true else pyNone
    | _ => pyNone, s)
  accumulate _ := fun s => .ok ((), s)

/-- A call in training and its callback. -/
noncomputable def trainStep (X dY : Obj) : Run Obj := do
  let r ← K.forward X true
  r.2 dY

/-- `C135_forward_partial` applies to an array: the call and the callback work, and the result is the gradient of the input's
tensor (42 is the gradient of tensor 41, the first new one). -/
example : KeysFine isXp (.other 0 false) ∧ isXp (.other 0 false) = true ∧
    ∃ st', trainStep (.other 0 false) (.other 4 false) TorchCase.store = .ok (.other 56 false, st') ∧
      st'.data 56 = TorchCase.store.data 42 := by
  refine ⟨keysFine_other _ leaf_xp _ _, rfl, ?_⟩
  simp [trainStep, Keras.forward, Keras.backprop, Keras.inputTensors, reverseTf, unwrapArgs, bind, StateT.bind, Except.bind,
    convertRecursive, convertList, convertArgs, convertKwargs, fromItems, fromItem, iter, forM', getArg0, isXp, xp2tf, tf2xp, wrapArgs,
    getArgs, liftE, pure, StateT.pure, Except.pure, K, isTorch, TorchCase.store, Store.newTensor, Store.newArray]

/-- `C135_several_inputs_wrong` applies: the callback returns `None` for the first of two inputs, although it has a gradient, and
for the second the gradient of the variable (38 is the gradient of tensor 37). -/
example : isXp (.other 0 false) = true ∧ isXp (.other 4 false) = true ∧
    ∃ st', trainStep (.tup [.other 0 false, .other 4 false]) (.other 4 false) TorchCase.store =
        .ok (.tup [pyNone, .other 64 false], st') ∧ st'.data 64 = TorchCase.store.data 38 := by
  refine ⟨rfl, rfl, ?_⟩
  simp [trainStep, Keras.forward, Keras.backprop, Keras.inputTensors, reverseTf, unwrapArgs, bind, StateT.bind, Except.bind,
    convertRecursive, convertList, convertArgs, convertKwargs, fromItems, fromItem, iter, forM', isXp, xp2tf, tf2xp, wrapArgs,
    getArgs, liftE, pure, StateT.pure, Except.pure, K, isTorch, TorchCase.store, Store.newTensor, Store.newArray, pyNone, Except.map]

/-- `C135_evaluation_wrong`, `C135_keywords_wrong` and `C135_kwargs_wrong` apply: the calls succeed. -/
example : (∃ r, K.forward (.other 0 false) false TorchCase.store = .ok r) ∧
    (∃ r, K.forward (.dict [(.str "x", .other 0 false)]) true TorchCase.store = .ok r) ∧
    ∃ r, K.forward (.argsKwargs [.other 0 false] [(.str "y", .other 4 false)]) true TorchCase.store = .ok r := by
  refine ⟨?_, ?_, ?_⟩ <;>
  simp [Keras.forward, bind, StateT.bind, Except.bind, convertRecursive, convertDict, convertArgs, convertKwargs, fromItems,
    fromItem, iter, forM', setItem, hashable, isXp, xp2tf, tf2xp, wrapArgs, getArgs, liftE, pure, StateT.pure, Except.pure, K,
    isTorch, TorchCase.store]

/-- `C135_mxnet_partial` applies. -/
example : PlainInput TorchCase.X ∧ ∀ xs, TorchCase.X ≠ .list xs := ⟨TorchCase.plain, by simp [TorchCase.X]⟩

/-- `C135_mxnet_evaluation_wrong` applies to a module that returns its first argument. -/
example : ∃ r, mxForward ⟨fun _ o => match o with
      | .argsKwargs (x :: _) _ => pure x
      | _ => pure pyNone, fun _ _ => pure ()⟩ (.other 0 false) false TorchCase.store = .ok r := by
  simp [mxForward, bind, StateT.bind, Except.bind, convertRecursive, isXp, xp2mx, mx2xp, wrapArgs, pure, StateT.pure, Except.pure, isTorch]

end KerasCase

end Thinc
