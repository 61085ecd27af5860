import Verif.Model.TextInit
/-!
# C118 for the wrappers in a network that is initialized

`Verif.Props.WithInit` compares the init functions and forward passes of the wrappers as functions on sequences.  The wrappers in the
networks of `Verif.Model.TextInit` are components with dimensions and parameters; here the same property is proved for these.
-/
namespace Thinc

/-- Specification: a wrapper initializes its layer with the value that it will call it with.  There is a value, the same for every wrapped
layer `c`, so that whatever exception `c` raises in its init function for this value is raised by the init function of the wrapper, and
whatever exception `c` raises when it is called with this value is raised by the wrapper when it is called with `v`; and if there is no
such value, because `v` cannot be converted, both raise the same exception. -/
def Spec.InitializedAsCalled (wrap : Comp → Comp) (v : Val) : Prop :=
  ∃ r : Except PyErr Val, ∀ (c : Comp) (s : NetState),
    (∀ x, r = .ok x →
      (∀ e, c.init (some x) none s = .error e → (wrap c).init (some v) none s = .error e) ∧
      (∀ train P e, c.layer s train P x = .error e → (wrap c).layer s train P v = .error e)) ∧
    (∀ e, r = .error e → (wrap c).init (some v) none s = .error e ∧ ∀ train P, (wrap c).layer s train P v = .error e)

/-- Specification: a batch of sequences. -/
inductive Spec.IsBatch : Val → Prop
  | list (vs : List Val) : IsBatch (.list vs)
  | ragged (A : Mat ℝ) (lengths : List Nat) : IsBatch (.ragged A lengths)
  | padded (A : Mat ℝ) (steps : Nat) (sizeAtT lengths indices : List Nat) : IsBatch (.padded A steps sizeAtT lengths indices)

open Spec

theorem convertInit_ok {f : Val → Except PyErr Val} {c : Comp} {v x : Val} {s : NetState} (h : f v = .ok x) :
    convertInit f c (some v) none s = c.init (some x) none s := by
  simp [convertInit, convertOpt, h, bind, Except.bind, pure, Except.pure]

theorem convertInit_error {f : Val → Except PyErr Val} {c : Comp} {v : Val} {e : PyErr} {s : NetState} (h : f v = .error e) :
    convertInit f c (some v) none s = .error e := by
  simp [convertInit, convertOpt, h, bind, Except.bind]

/-- **C118 for `with_list` in a network.** -/
theorem C118_with_list_initialized (id : Nat) (v : Val) : InitializedAsCalled (withListC id) v := by
  refine ⟨v.getList, fun c s => ⟨fun x hx => ⟨fun e he => ?_, fun train P e he => ?_⟩, fun e he => ⟨convertInit_error he, fun train P => ?_⟩⟩⟩
  · exact (convertInit_ok hx).trans he
  · show withListL (c.layer s) train P v = _
    cases v <;> simp only [Val.getList] at hx
    all_goals first
      | (cases hx; exact he)
      | (simp only [withListL, withListRaggedL, withListPaddedL, Val.asRagged, bind, Except.bind, pure, Except.pure] at hx ⊢
         repeat' split at hx
         all_goals first
           | (cases hx; done)
           | (cases hx; simp_all))
  · show withListL (c.layer s) train P v = _
    cases v <;> simp only [Val.getList] at he
    all_goals first
      | (cases he; done)
      | (simp only [withListL, withListRaggedL, withListPaddedL, Val.asRagged, bind, Except.bind, pure, Except.pure] at he ⊢
         repeat' split at he
         all_goals first
           | (cases he; done)
           | (cases he; simp_all))

/-- **C118 for `with_ragged` in a network**, given a batch of sequences. -/
theorem C118_with_ragged_initialized {v : Val} (h : IsBatch v) : InitializedAsCalled withRaggedC v := by
  refine ⟨v.getRagged, fun c s => ⟨fun x hx => ⟨fun e he => ?_, fun train P e he => ?_⟩, fun e he => ⟨convertInit_error he, fun train P => ?_⟩⟩⟩
  · exact (convertInit_ok hx).trans he
  · show withRaggedL (c.layer s) train P v = _
    cases h <;> simp only [Val.getRagged] at hx
    all_goals first
      | (cases hx; exact he)
      | (simp only [withRaggedL, withRaggedListL, withRaggedPaddedL, Val.asRagged, bind, Except.bind, pure, Except.pure] at hx ⊢
         repeat' split at hx
         all_goals first
           | (cases hx; done)
           | (cases hx; simp_all))
  · show withRaggedL (c.layer s) train P v = _
    cases h <;> simp only [Val.getRagged] at he
    all_goals first
      | (cases he; done)
      | (simp only [withRaggedL, withRaggedListL, withRaggedPaddedL, Val.asRagged, bind, Except.bind, pure, Except.pure] at he ⊢
         repeat' split at he
         all_goals first
           | (cases he; done)
           | (cases he; simp_all))

/-- **C118 for `with_padded` in a network**, given a batch of sequences. -/
theorem C118_with_padded_initialized (id : Nat) {v : Val} (h : IsBatch v) : InitializedAsCalled (withPaddedC id) v := by
  refine ⟨v.getPadded, fun c s => ⟨fun x hx => ⟨fun e he => ?_, fun train P e he => ?_⟩, fun e he => ⟨convertInit_error he, fun train P => ?_⟩⟩⟩
  · exact (convertInit_ok hx).trans he
  · show withPaddedL (c.layer s) train P v = _
    cases h <;> simp only [Val.getPadded] at hx
    all_goals first
      | (cases hx; exact he)
      | (simp only [withPaddedL, withPaddedListL, withPaddedRaggedL, Val.asRagged, bind, Except.bind, pure, Except.pure] at hx ⊢
         repeat' split at hx
         all_goals first
           | (cases hx; done)
           | (cases hx; simp_all))
  · show withPaddedL (c.layer s) train P v = _
    cases h <;> simp only [Val.getPadded] at he
    all_goals first
      | (cases he; done)
      | (simp only [withPaddedL, withPaddedListL, withPaddedRaggedL, Val.asRagged, bind, Except.bind, pure, Except.pure] at he ⊢
         repeat' split at he
         all_goals first
           | (cases he; done)
           | (cases he; simp_all))

theorem withArrayInit_ok {id : Nat} {c : Comp} {v x : Val} {e : PyErr} {s : NetState} (h : v.getArray = .ok x)
    (he : c.init (some x) none s = .error e) : withArrayInit id c (some v) none s = .error e := by
  simp [withArrayInit, convertOpt, h, he, bind, Except.bind, pure, Except.pure]

theorem withArrayInit_error {id : Nat} {c : Comp} {v : Val} {e : PyErr} {s : NetState} (h : v.getArray = .error e) :
    withArrayInit id c (some v) none s = .error e := by
  simp [withArrayInit, convertOpt, h, bind, Except.bind]

theorem mapM_asArr_arrs (As : List (Mat ℝ)) : (As.map Val.arr).mapM Val.asArr = .ok As := by
  induction As with
  | nil => rfl
  | cons A l ih => simp [List.mapM_cons, ih, Val.asArr, bind, Except.bind, pure, Except.pure]

theorem mapM_asIntMat_mats (As : List (Mat ℤ)) : (As.map Val.intMat).mapM Val.asIntMat = .ok As := by
  induction As with
  | nil => rfl
  | cons A l ih => simp [List.mapM_cons, ih, Val.asIntMat, bind, Except.bind, pure, Except.pure]

theorem mapM_asInts_ints (kss : List (List ℤ)) : (kss.map Val.ints).mapM Val.asInts = .ok kss := by
  induction kss with
  | nil => rfl
  | cons A l ih => simp [List.mapM_cons, ih, Val.asInts, bind, Except.bind, pure, Except.pure]

/-- **C118 for `with_array` in a network**, given a list of float arrays, without padding. -/
theorem C118_with_array_initialized (id : Nat) (As : List (Mat ℝ)) :
    InitializedAsCalled (withArrayC id 0) (.list (As.map Val.arr)) := by
  have hf : (Val.list (As.map Val.arr)).getArray = (opsFlatten (As.map Mat.toArr) 0).map fun x => .arr x.toMat := by
    simp only [Val.getArray, flattenVals, mapM_asArr_arrs]
  have hL : ∀ (L : Layer) train P, withArrayAny L 0 train P (.list (As.map Val.arr)) =
      withArrayListL L 0 train P (.list (As.map Val.arr)) := by
    intro L train P
    rcases As with _ | ⟨A, l⟩ <;> rfl
  have ha : (Val.list (As.map Val.arr)).arrays = .ok (As.map Mat.toArr) := by
    simp only [Val.arrays, Val.items, mapM_asArr_arrs, bind, Except.bind, pure, Except.pure]
  refine ⟨_, fun c s => ⟨fun x hx => ⟨fun e he => withArrayInit_ok (hf.trans hx) he, fun train P e he => ?_⟩,
    fun e he => ⟨withArrayInit_error (hf.trans he), fun train P => ?_⟩⟩⟩
  · refine (hL (c.layer s) train P).trans ?_
    rcases hX : opsFlatten (As.map Mat.toArr) 0 with e' | X <;> rw [hX] at hx <;> cases hx
    simp [withArrayListL, ha, hX, he, bind, Except.bind]
  · refine (hL (c.layer s) train P).trans ?_
    rcases hX : opsFlatten (As.map Mat.toArr) 0 with e' | X <;> rw [hX] at he <;> cases he
    simp [withArrayListL, ha, hX, bind, Except.bind]

/-- **C118 for `with_array` in a network**, given a list of two-dimensional integer arrays, without padding. -/
theorem C118_with_array_ids_initialized (id : Nat) (A : Mat ℤ) (As : List (Mat ℤ)) :
    InitializedAsCalled (withArrayC id 0) (.list ((A :: As).map Val.intMat)) := by
  have hn : ((A :: As).map Val.intMat).mapM Val.asArr = .error .attributeError := by
    simp [List.mapM_cons, Val.asArr, bind, Except.bind]
  have hf : (Val.list ((A :: As).map Val.intMat)).getArray =
      (opsFlatten ((A :: As).map Mat.toArr) 0).map fun x => .intMat x.toMat := by
    simp only [Val.getArray, flattenVals, mapM_asIntMat_mats, hn]
  have hL : ∀ (L : Layer) train P, withArrayAny L 0 train P (.list ((A :: As).map Val.intMat)) =
      withArrayIdsL L 0 train P (.list ((A :: As).map Val.intMat)) := fun _ _ _ => rfl
  have ha : (Val.list ((A :: As).map Val.intMat)).intArrays = .ok ((A :: As).map Mat.toArr) := by
    simp only [Val.intArrays, Val.items, mapM_asIntMat_mats, bind, Except.bind, pure, Except.pure]
  refine ⟨_, fun c s => ⟨fun x hx => ⟨fun e he => withArrayInit_ok (hf.trans hx) he, fun train P e he => ?_⟩,
    fun e he => ⟨withArrayInit_error (hf.trans he), fun train P => ?_⟩⟩⟩
  · refine (hL (c.layer s) train P).trans ?_
    rcases hX : opsFlatten ((A :: As).map Mat.toArr) 0 with e' | X <;> rw [hX] at hx <;> cases hx
    simp only [withArrayIdsL, ha, hX, he, bind, Except.bind]
  · refine (hL (c.layer s) train P).trans ?_
    rcases hX : opsFlatten ((A :: As).map Mat.toArr) 0 with e' | X <;> rw [hX] at he <;> cases he
    simp only [withArrayIdsL, ha, hX, bind, Except.bind]

/-- **C118, lists of one-dimensional integer arrays**: `with_array` initializes its layer with all the integers of the list, in order. -/
theorem C118_with_array_flat_ids (id : Nat) (c : Comp) (ks : List ℤ) (kss : List (List ℤ)) (s : NetState) (e : PyErr)
    (he : c.init (some (.ints (ks :: kss).flatten)) none s = .error e) :
    (withArrayC id 0 c).init (some (.list ((ks :: kss).map Val.ints))) none s = .error e := by
  refine withArrayInit_ok ?_ he
  have h1 : ((ks :: kss).map Val.ints).mapM Val.asArr = .error .attributeError := by
    simp [List.mapM_cons, Val.asArr, bind, Except.bind]
  have h2 : ((ks :: kss).map Val.ints).mapM Val.asIntMat = .error .attributeError := by
    simp [List.mapM_cons, Val.asIntMat, bind, Except.bind]
  simp only [Val.getArray, flattenVals, mapM_asInts_ints, h1, h2]

/-! ### The hypotheses can be met -/

example : IsBatch (.ragged ⟨3, 1, fun i => i⟩ [2, 1]) := .ragged _ _

/-- A layer that wants single sequences of two steps and raises otherwise. -/
def exPicky : Comp where
  dimI _ := none
  dimO _ := none
  setI _ _ := .error .keyError
  setO _ _ := .error .keyError
  init X _ s := match X with
    | some (.ragged _ [2]) => .ok s
    | _ => .error .valueError
  layer _ := fun _ _ X => match X with
    | .ragged A [2] => .ok (.ragged A [2], fun d G => .ok (d, G))
    | _ => .error .valueError

/-- The conversion matters: the layer is given the Ragged both times. -/
example (s : NetState) : (withRaggedC exPicky).init (some (.list [.arr ⟨2, 1, fun i => i⟩])) none s = .ok s ∧
    ∃ Y, (withRaggedC exPicky).layer s true (fun _ => ⟨0, 0, fun _ => 0⟩) (.list [.arr ⟨2, 1, fun i => i⟩]) = .ok Y :=
  ⟨rfl, _, rfl⟩

end Thinc
