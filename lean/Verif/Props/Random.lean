import Verif.Spec.Random
import Verif.Model.TextInit
import Mathlib.Tactic.NormNum
/-!
# C128: predicting draws no random numbers

Predicting leaves the random number generator alone and does not depend on it, so that predictions, for instance to evaluate a model in the
middle of training, do not change the training.
-/
namespace Thinc
open Random Spec.Random

/-! ### The combinators call their layers as the trees say -/

private theorem run_callAll (call : Nat → Val → Except PyErr (Val × Callback)) (next : List (Val × Callback) → CallTree) :
    ∀ (calls : List (Nat × Val)) (results : List (Val × Callback)),
      (callAll next calls results).run call =
        (calls.mapM (fun c => call c.1 c.2) >>= fun outs => (next (results ++ outs)).run call)
  | [], results => by simp [callAll, pure, Except.pure, bind, Except.bind]
  | (i, x) :: calls, results => by
    simp only [callAll, CallTree.run, List.mapM_cons]
    cases call i x with
    | error e => rfl
    | ok r =>
      show (callAll next calls (results ++ [r])).run call = _
      rw [run_callAll call next calls (results ++ [r])]
      simp only [bind, Except.bind, pure, Except.pure]
      cases List.mapM (fun c : Nat × Val => call c.1 c.2) calls with
      | error e => rfl
      | ok outs => simp

private theorem run_chainCalls (train : Bool) (P : ParamVals) (pre : List Layer) :
    ∀ (post : List Layer) (X : Val) (callbacks : List Callback),
      (chainCalls post.length pre.length X callbacks).run (callLayer (pre ++ post) train P) =
        (chainLoop train P post X callbacks >>= fun s =>
          .ok (s.1, fun dY G => forM' s.2.reverse (dY, G) (fun (dY, G) callback => callback dY G)))
  | post, X, callbacks => by
    induction post generalizing pre X callbacks with
    | nil => rfl
    | cons L post ih =>
      have h : callLayer (pre ++ L :: post) train P pre.length X = L train P X := by simp [callLayer]
      simp only [List.length_cons, chainCalls, CallTree.run, chainLoop, h]
      cases L train P X with
      | error e => rfl
      | ok r =>
        have := ih (pre ++ [L]) r.1 (callbacks ++ [r.2])
        simpa [bind, Except.bind] using this

theorem C128_chain : Calls chainTree chain := by
  intro layers train P X
  cases layers with
  | nil => rfl
  | cons L Ls =>
    have := run_chainCalls train P [] (L :: Ls) X []
    simp only [List.nil_append, List.length_nil] at this
    simp only [chainTree, chain, List.length_cons, Nat.add_one_ne_zero, if_false, List.isEmpty_cons] at this ⊢
    rw [this]
    rfl

private theorem run_addCalls (train : Bool) (P : ParamVals) (X : Val) (first : Callback) (pre : List Layer) :
    ∀ (post : List Layer) (Y : Val) (callbacks : List Callback),
      (addCalls X first post.length pre.length Y callbacks).run (callLayer (pre ++ post) train P) =
        (forM' post (Y, callbacks) (addForwardStep train P X) >>= fun s =>
          .ok (s.1, fun dY G => do
            let (dX, G) ← first dY G
            forM' s.2 (dX, G) (addBackwardStep dY)))
  | post, Y, callbacks => by
    induction post generalizing pre Y callbacks with
    | nil => rfl
    | cons L post ih =>
      have h : callLayer (pre ++ L :: post) train P pre.length X = L train P X := by simp [callLayer]
      simp only [List.length_cons, addCalls, CallTree.run, forM', h, addForwardStep, bind, Except.bind]
      cases L train P X with
      | error e => rfl
      | ok r =>
        show CallTree.run _ (match Y.iadd r.1 with | .ok Y => _ | .error e => _) = _
        dsimp only
        cases hY : Y.iadd r.1 with
        | error e => rfl
        | ok Y' =>
          have := ih (pre ++ [L]) Y' (callbacks ++ [r.2])
          simpa [bind, Except.bind, addForwardStep, pure, Except.pure] using this

theorem C128_add : Calls addTree addLayers := by
  intro layers train P X
  cases layers with
  | nil => rfl
  | cons L Ls =>
    have h : callLayer (L :: Ls) train P 0 X = L train P X := by simp [callLayer]
    simp only [addTree, addLayers, List.length_cons, CallTree.run, h, bind, Except.bind]
    cases L train P X with
    | error e => rfl
    | ok r =>
      have := run_addCalls train P X r.2 [L] Ls r.1 []
      simp only [List.length_cons, List.length_nil, Nat.zero_add, List.singleton_append] at this
      dsimp only
      rw [this]
      rfl

private theorem mapM_range (layers : List Layer) (train : Bool) (P : ParamVals) (X : Val) :
    ((List.range layers.length).map fun i => (i, X)).mapM (fun c => callLayer layers train P c.1 c.2) =
      layers.mapM fun layer => layer train P X := by
  have key : ∀ (pre post : List Layer),
      ((List.range' pre.length post.length).map fun i => (i, X)).mapM (fun c => callLayer (pre ++ post) train P c.1 c.2) =
        post.mapM fun layer => layer train P X := by
    intro pre post
    induction post generalizing pre with
    | nil => rfl
    | cons L post ih =>
      have h : callLayer (pre ++ L :: post) train P pre.length X = L train P X := by simp [callLayer]
      have := ih (pre ++ [L])
      simp only [List.length_append, List.length_cons, List.length_nil, Nat.zero_add, List.append_assoc, List.singleton_append] at this
      simp only [List.length_cons, List.range'_succ, List.map_cons, List.mapM_cons, h, this]
  have := key [] layers
  simpa only [List.length_nil, List.nil_append, ← List.range_eq_range'] using this

theorem C128_concatenate : Calls concatenateTree concatenateForward := by
  intro layers train P X
  rw [concatenateTree, run_callAll, mapM_range]
  rfl

private theorem mapM_const (outs : List (Val × Callback)) (train : Bool) (P : ParamVals) (X : Val) :
    (outs.map fun r => ((fun _ _ _ => .ok r) : Layer)).mapM (fun layer => layer train P X) = .ok outs := by
  induction outs with
  | nil => rfl
  | cons r outs ih => simp only [List.map_cons, List.mapM_cons, ih]; rfl

theorem C128_tuplify : Calls tuplifyTree tuplify := by
  intro layers train P X
  rw [tuplifyTree, run_callAll, mapM_range]
  simp only [List.nil_append, CallTree.run, tuplify, mapM_const]
  rfl

theorem C128_map_list : Calls mapListTree fun layers => mapList (nth layers 0) := by
  intro layers train P X
  simp only [mapList, mapListTree]
  cases X.items with
  | error e => rfl
  | ok Xs =>
    show _ = CallTree.run _ (callAll _ _ _)
    rw [run_callAll]
    have : (Xs.map fun X => (0, X)).mapM (fun c : Nat × Val => callLayer layers train P c.1 c.2) =
        Xs.mapM fun X => nth layers 0 train P X := by
      induction Xs with
      | nil => rfl
      | cons x Xs ih => simp only [List.map_cons, List.mapM_cons, ih]; rfl
    rw [this]
    rfl

theorem C128_siamese : Calls siameseTree fun layers => siamese (nth layers 0) (nth layers 1) := by
  intro layers train P X
  simp only [siamese, siameseTree, nth]
  cases X.unpack2 with
  | error e => rfl
  | ok p =>
    obtain ⟨X1, X2⟩ := p
    simp only [CallTree.run, bind, Except.bind, pure, Except.pure]
    cases callLayer layers train P 0 X1 with
    | error e => rfl
    | ok r1 =>
      cases callLayer layers train P 0 X2 with
      | error e => rfl
      | ok r2 =>
        dsimp only
        cases callLayer layers train P 1 (.tup [r1.1, r2.1]) with
        | error e => rfl
        | ok r => rfl

/-- A wrapper that does nothing but call its layer with the converted input and use the result. -/
private theorem calls_wrapper {arg : Val → Except PyErr Val} {wrap : Layer → Layer}
    (h : ∀ L train P X, wrap L train P X =
      (match arg X with
      | .error e => .error e
      | .ok x => match L train P x with
        | .error e => .error e
        | .ok r => wrap (fun _ _ _ => .ok r) true (fun _ => Mat.zeros 0 0) X)) :
    Calls (wrapperTree arg wrap) fun layers => wrap (nth layers 0) := by
  intro layers train P X
  show wrap (nth layers 0) train P X = _
  rw [h, wrapperTree]
  cases arg X with
  | error e => rfl
  | ok x =>
    show (match nth layers 0 train P x with | .error e => _ | .ok r => _) = CallTree.run _ (.call 0 x _)
    simp only [CallTree.run, nth]
    cases callLayer layers train P 0 x <;> rfl

theorem C128_residual : Calls (wrapperTree .ok residual) fun layers => residual (nth layers 0) :=
  calls_wrapper fun L train P X => by
    simp only [residual, bind, Except.bind]
    cases L train P X <;> rfl

theorem C128_with_list : Calls (wrapperTree Val.getList withListL) fun layers => withListL (nth layers 0) :=
  calls_wrapper fun L train P X => by
    cases X
    case padded A st s l i =>
      simp only [withListL, withListPaddedL, Val.getList, bind, Except.bind, pure, Except.pure]
      cases (Val.padded A st s l i).asPadded with
      | error e => rfl
      | ok p =>
        dsimp only
        cases unpadList p with
        | error e => rfl
        | ok xs => dsimp only; cases L train P (Val.ofArrays xs) <;> rfl
    case ragged A l =>
      simp only [withListL, withListRaggedL, Val.getList, Val.asRagged, bind, Except.bind, pure, Except.pure]
      cases opsUnflatten A.toArr l 0 with
      | error e => rfl
      | ok xs => dsimp only; cases L train P (Val.ofArrays xs) <;> rfl
    all_goals
      simp only [withListL, Val.getList]
      generalize L train P _ = q
      cases q <;> rfl

theorem C128_with_ragged : Calls (wrapperTree Val.getRagged withRaggedL) fun layers => withRaggedL (nth layers 0) :=
  calls_wrapper fun L train P X => by
    unfold withRaggedL
    split
    · simp only [Val.getRagged]
      generalize L train P _ = q
      cases q <;> rfl
    · rename_i A st s l i
      simp only [withRaggedPaddedL, Val.getRagged, bind, Except.bind, pure, Except.pure]
      cases (Val.padded A st s l i).asPadded with
      | error e => rfl
      | ok p =>
        dsimp only
        cases unpadList p with
        | error e => rfl
        | ok xs =>
          dsimp only
          cases opsFlatten xs 0 with
          | error e => rfl
          | ok y => dsimp only; generalize L train P _ = q; cases q <;> rfl
    · rfl
    · rename_i h1 h2 h3
      have hg : X.getRagged = (do
          let Xs ← X.arrays
          return Val.ofRagged (Ragged.make (← opsFlatten Xs 0) (Xs.map Arr.len))) := by
        unfold Val.getRagged
        split
        · exact absurd rfl (h1 _ _)
        · exact absurd rfl (h2 _ _ _ _ _)
        · exact absurd rfl (h3 _ _)
        · rfl
      rw [hg]
      simp only [withRaggedListL, bind, Except.bind, pure, Except.pure]
      cases X.arrays with
      | error e => rfl
      | ok xs =>
        dsimp only
        cases opsFlatten xs 0 with
        | error e => rfl
        | ok y => dsimp only; generalize L train P _ = q; cases q <;> rfl

theorem C128_with_padded : ∃ arg, Calls (wrapperTree arg withPaddedL) fun layers => withPaddedL (nth layers 0) := by
  refine ⟨fun X => match X with
    | .padded A st s l i => .ok (.padded A st s l i)
    | .ragged A l => do return Val.ofPadded (← list2padded (← opsUnflatten A.toArr l 0))
    | v => do return Val.ofPadded (← list2padded (← v.arrays)), calls_wrapper fun L train P X => ?_⟩
  cases X
  case padded A st s l i =>
    simp only [withPaddedL]
    generalize L train P _ = q
    cases q <;> rfl
  case ragged A l =>
    simp only [withPaddedL, withPaddedRaggedL, Val.asRagged, bind, Except.bind, pure, Except.pure]
    cases opsUnflatten A.toArr l 0 with
    | error e => rfl
    | ok xs =>
      dsimp only
      cases list2padded xs with
      | error e => rfl
      | ok y => dsimp only; generalize L train P _ = q; cases q <;> rfl
  all_goals
    simp only [withPaddedL, withPaddedListL, bind, Except.bind, pure, Except.pure]
    generalize Val.arrays _ = xs
    cases xs with
    | error e => rfl
    | ok xs =>
      dsimp only
      cases list2padded xs with
      | error e => rfl
      | ok y => dsimp only; generalize L train P _ = q; cases q <;> rfl

theorem C128_with_array (pad : Nat) :
    ∃ arg, Calls (wrapperTree arg fun layer => withArray2dL layer pad) fun layers => withArray2dL (nth layers 0) pad := by
  refine ⟨fun X => match X with
    | .padded A st s l i => .ok (.arr A)
    | .ragged A l => do return .arr (← (Val.ragged A l).asRagged).dataXd.toMat
    | .list vs => do return .arr (← opsFlatten (← (Val.list vs).arrays) pad).toMat
    | .tup vs => do return .arr (← opsFlatten (← (Val.tup vs).arrays) pad).toMat
    | v => .ok v, calls_wrapper fun L train P X => ?_⟩
  cases X
  case padded A st s l i =>
    simp only [withArray2dL, withArray2dPaddedL, Val.paddedParts, bind, Except.bind, pure, Except.pure]
    generalize L train P _ = q
    cases q <;> rfl
  case ragged A l =>
    simp only [withArray2dL, withArrayRaggedL, Val.asRagged, bind, Except.bind, pure, Except.pure]
    generalize L train P _ = q
    cases q <;> rfl
  case list vs =>
    simp only [withArray2dL, withArrayListL, bind, Except.bind, pure, Except.pure]
    generalize Val.arrays _ = xs
    cases xs with
    | error e => rfl
    | ok xs =>
      dsimp only
      cases opsFlatten xs pad with
      | error e => rfl
      | ok y => dsimp only; generalize L train P _ = q; cases q <;> rfl
  case tup vs =>
    simp only [withArray2dL, withArrayListL, bind, Except.bind, pure, Except.pure]
    generalize Val.arrays _ = xs
    cases xs with
    | error e => rfl
    | ok xs =>
      dsimp only
      cases opsFlatten xs pad with
      | error e => rfl
      | ok y => dsimp only; generalize L train P _ = q; cases q <;> rfl
  all_goals
    simp only [withArray2dL]
    generalize L train P _ = q
    cases q <;> rfl

/-! ### Predictions -/

/-- **C128.**  A network predicts the same whatever the generator gives and whatever its state is: what it predicts is what the network of
layers with arbitrary fixed draws predicts.  It leaves the state of the generator as it was, also if it raises.  `with_cpu` is missing:
see `C128_with_cpu_wrong`. -/
theorem C128_predict_partial {N : (Nat → ℝ) → RLayer} {L : Layer} (h : Network N L) (source : Nat → ℝ) (P : ParamVals) (X : Val) (k : Nat) :
    N source false P X k = (L false P X, k) := by
  induction h generalizing X k with
  | plain L => rfl
  | dropout rate isEnabled draws => simp [dropoutR, Thinc.dropout]
  | embed E rate fast flips =>
    simp only [embedR, Thinc.embed, Bool.false_eq_true, if_false]
    split <;> simp_all
  | hashEmbed E seed rate fast flips =>
    simp only [hashEmbedR, Thinc.hashEmbed, Bool.false_eq_true, if_false]
    split <;> simp_all
  | @combine tree comb calls Ns Ls len nets ih =>
    have hcall : ∀ i x k, callLayerR (Ns.map fun N => N source) false P i x k = (callLayer Ls false P i x, k) := by
      intro i x k
      simp only [callLayerR, callLayer, List.getElem?_map]
      by_cases hi : i < Ns.length
      · have hi' : i < Ls.length := len ▸ hi
        rw [List.getElem?_eq_getElem hi, List.getElem?_eq_getElem hi']
        refine ih (Ns[i], Ls[i]) ?_ x k
        rw [← List.getElem_zip (h := by simpa using ⟨hi, hi'⟩)]
        exact List.getElem_mem _
      · rw [List.getElem?_eq_none (by omega), List.getElem?_eq_none (by omega)]
        rfl
    have hrun : ∀ (t : CallTree) k, t.runR (callLayerR (Ns.map fun N => N source) false P) k = (t.run (callLayer Ls false P), k) := by
      intro t
      induction t with
      | done r => intro k; rfl
      | call i x next iht =>
        intro k
        simp only [CallTree.runR, CallTree.run, hcall]
        cases callLayer Ls false P i x with
        | error e => rfl
        | ok r => exact iht r k
    have := hrun (tree (Ns.map fun N => N source).length X) k
    rw [calls Ls false P X]
    refine this.trans ?_
    rw [List.length_map, len]

/-- **C128.**  Predictions in the middle of training do not change it: without them the user gets the same from all the other calls, and
in the end the parameters, the gradients, the optimizer and the generator are the same.  (Partial because of `with_cpu`.) -/
theorem C128_evaluate_partial {σ : Type} {N : (Nat → ℝ) → RLayer} {L : Layer} (h : Network N L) (source : Nat → ℝ)
    (update : σ → ParamVals → GradStore → σ × ParamVals × GradStore) (s : RState σ) (calls : List RCall) :
    (s.run update (N source) (calls.filter fun c => !c.isPredict)).1 = (s.run update (N source) calls).1 ∧
    (s.run update (N source) (calls.filter fun c => !c.isPredict)).2 =
      (s.run update (N source) calls).2.filter fun c => !c.1.isPredict := by
  induction calls generalizing s with
  | nil => exact ⟨rfl, rfl⟩
  | cons c calls ih =>
    cases c with
    | predict X =>
      have hs : (s.step update (N source) (.predict X)).1 = s := by
        simp [RState.step, C128_predict_partial h]
      have := ih s
      simpa [RState.run, hs, RCall.isPredict] using this
    | beginUpdate X =>
      have := ih (s.step update (N source) (.beginUpdate X)).1
      simpa [RState.run, RCall.isPredict] using this
    | backprop i dY =>
      have := ih (s.step update (N source) (.backprop i dY)).1
      simpa [RState.run, RCall.isPredict] using this
    | finishUpdate =>
      have := ih (s.step update (N source) .finishUpdate).1
      simpa [RState.run, RCall.isPredict] using this

/-! ### Rates without randomness -/

/-- **C128.**  Dropout that is switched off, or whose rate is 0 or less or at least 1, draws nothing in training either. -/
theorem C128_no_dropout (rate : ℝ) (isEnabled : Bool) (h : isEnabled = false ∨ rate ≤ 0 ∨ 1 ≤ rate) (source : Nat → ℝ) (train : Bool)
    (P : ParamVals) (X : Val) (k : Nat) : (dropoutR rate isEnabled source train P X k).2 = k := by
  have hmask : (rate ≤ 0 ∨ 1 ≤ rate) → ∀ shapes k, (drawMasks source (some rate) shapes k).2 = k := by
    intro hr shapes
    induction shapes with
    | nil => intro k; rfl
    | cons sh shapes ih =>
      intro k
      have : (drawMask source (some rate) sh.1 sh.2 k).2 = k := by
        rcases hr with hr | hr
        · simp [drawMask, hr]
        · have hr' : rate ≥ 1.0 := by norm_num; exact hr
          simp only [drawMask, if_pos hr']
          split <;> rfl
      simp only [drawMasks, ih, this]
  unfold dropoutR
  split
  · rfl
  · rename_i hne
    rcases h with h | h
    · exact absurd (Or.inr (by simp [h])) hne
    · exact hmask h _ _

/-! ### Training -/

theorem drawMasks_ok {rate : ℝ} (h0 : 0 < rate) (h1 : rate < 1) (source : Nat → ℝ) : ∀ (shapes : List (Nat × Nat)) (k : Nat),
    (drawMasks source (some rate) shapes k).2 = k + (shapes.map fun s => s.1 * s.2).sum ∧
    ∀ m (hm : m < shapes.length), ((drawMasks source (some rate) shapes k).1.getD m fun _ _ => 0) =
      fun i j => source (k + ((shapes.take m).map fun s => s.1 * s.2).sum + i * shapes[m].2 + j)
  | [], k => ⟨rfl, fun m hm => absurd hm (by simp)⟩
  | (r, c) :: shapes, k => by
    have hd : drawMask source (some rate) r c k = (fun i j => source (k + i * c + j), k + r * c) := by
      simp only [drawMask]
      rw [if_neg (not_le.2 h0), if_neg (by norm_num; exact h1)]
    obtain ⟨ih1, ih2⟩ := drawMasks_ok h0 h1 source shapes (k + r * c)
    simp only [drawMasks, hd]
    refine ⟨by rw [ih1]; simp [Nat.add_assoc], fun m hm => ?_⟩
    cases m with
    | zero => simp
    | succ m =>
      have := ih2 m (by simpa using hm)
      simp only [List.getD_cons_succ, this]
      simp [Nat.add_assoc]

/-- **C128.**  In training, `Dropout` with a rate between 0 and 1 draws one number for each entry of its input, row by row, from where the generator is:
for an array, a `Ragged` and a `Padded`. -/
theorem C128_training {rate : ℝ} (h0 : 0 < rate) (h1 : rate < 1) (source : Nat → ℝ) (P : ParamVals) (A : Mat ℝ) (k : Nat) (X : Val)
    (hX : X = .arr A ∨ (∃ lengths, X = .ragged A lengths) ∨ ∃ n s l i, X = .padded A n s l i) :
    dropoutR rate true source true P X k = (dropout rate true (fun _ i j => source (k + i * A.cols + j)) true P X, k + A.rows * A.cols) := by
  have hshape : maskShapes X = [(A.rows, A.cols)] := by
    rcases hX with rfl | ⟨_, rfl⟩ | ⟨_, _, _, _, rfl⟩ <;> rfl
  have hne : ¬ (rate = 0 ∨ (true && true) = false) := by simp [h0.ne']
  have hd : drawMasks source (some rate) [(A.rows, A.cols)] k = ([fun i j => source (k + i * A.cols + j)], k + A.rows * A.cols) := by
    simp only [drawMasks, drawMask]
    rw [if_neg (not_le.2 h0), if_neg (by norm_num; exact h1)]
  unfold dropoutR
  rw [if_neg hne, hshape, hd]
  rcases hX with rfl | ⟨_, rfl⟩ | ⟨_, _, _, _, rfl⟩ <;> (unfold dropout; simp only [if_neg hne]; rfl)

/-- For a list of arrays it draws the numbers of one array after those of the other. -/
theorem C128_training_list {rate : ℝ} (h0 : 0 < rate) (h1 : rate < 1) (source : Nat → ℝ) (P : ParamVals) (As : List (Mat ℝ)) (k : Nat) :
    ∃ draws, dropoutR rate true source true P (.list (As.map .arr)) k =
      (dropout rate true draws true P (.list (As.map .arr)), k + (As.map fun A => A.rows * A.cols).sum) ∧
      ∀ m (hm : m < As.length), draws m = fun i j => source (k + ((As.take m).map fun A => A.rows * A.cols).sum + i * As[m].cols + j) := by
  have hshape : maskShapes (.list (As.map .arr)) = As.map fun A => (A.rows, A.cols) := by
    show arrayShapes _ = _
    unfold arrayShapes
    have : (As.map Val.arr).mapM Val.asArr = .ok As := by
      induction As with
      | nil => rfl
      | cons A As ih => simp only [List.map_cons, List.mapM_cons, ih]; rfl
    rw [this]
  have hne : ¬ (rate = 0 ∨ (true && true) = false) := by simp [h0.ne']
  obtain ⟨d1, d2⟩ := drawMasks_ok h0 h1 source (As.map fun A => (A.rows, A.cols)) k
  refine ⟨fun m => (drawMasks source (some rate) (As.map fun A => (A.rows, A.cols)) k).1.getD m fun _ _ => 0, ?_, fun m hm => ?_⟩
  · unfold dropoutR
    rw [if_neg hne, hshape]
    simp only [List.map_map, Function.comp_def] at d1
    exact Prod.ext rfl d1
  · have := d2 m (by simpa using hm)
    refine this.trans ?_
    simp [List.map_take, Function.comp_def]

/-- A rate of one half, and an array with two rows of three: six numbers. -/
example (source : Nat → ℝ) (P : ParamVals) : (dropoutR (1 / 2) true source true P (.arr ⟨2, 3, fun _ => 1⟩) 5).2 = 11 := by
  rw [C128_training (by norm_num) (by norm_num) source P ⟨2, 3, fun _ => 1⟩ 5 _ (.inl rfl)]
  rfl

/-! ### with_cpu -/

private theorem dropout_half (source : Nat → ℝ) :
    ∃ Y : Mat ℝ, ∃ f : Callback,
      dropoutR (1 / 2) true source true (fun _ => Mat.zeros 0 0) (.arr (Mat.ofFn 1 1 fun _ _ => 1)) 0 = (.ok (.arr Y, f), 1) ∧
      Y.at 0 0 = (if source 0 ≥ 1 / 2 then 1 else 0) / (1.0 - 1 / 2) := by
  have h1 : ¬ ((1 / 2 : ℝ) = 0 ∨ (true && true) = false) := by norm_num
  have h2 : ¬ ((1 / 2 : ℝ) ≤ 0) := by norm_num
  have h3 : ¬ ((1 / 2 : ℝ) ≥ 1.0) := by norm_num
  unfold dropoutR
  rw [if_neg h1]
  simp only [Thinc.dropout, if_neg h1, maskShapes, drawMasks, drawMask, if_neg h2, if_neg h3, dropoutArray, getDropoutMask, npBinary,
    broadcastDim, bind, Except.bind, pure, Except.pure, Mat.ofFn, if_true]
  refine ⟨_, _, rfl, ?_⟩
  norm_num [Mat.at, Mat.ofFn]

/-- **C128 fails for `with_cpu`**: it runs its layer as in training, so that predicting draws numbers and what is predicted depends on them
(here the layer is dropout with the rate 1/2). -/
theorem C128_with_cpu_wrong :
    (withCpuR (dropoutR (1 / 2) true (fun _ => 1)) false (fun _ => Mat.zeros 0 0) (.arr (Mat.ofFn 1 1 fun _ _ => 1)) 0).2 = 1 ∧
    (∃ Y Y' : Mat ℝ, ∃ f f' : Callback,
      (withCpuR (dropoutR (1 / 2) true (fun _ => 1)) false (fun _ => Mat.zeros 0 0) (.arr (Mat.ofFn 1 1 fun _ _ => 1)) 0).1 = .ok (.arr Y, f) ∧
      (withCpuR (dropoutR (1 / 2) true (fun _ => 0)) false (fun _ => Mat.zeros 0 0) (.arr (Mat.ofFn 1 1 fun _ _ => 1)) 0).1 = .ok (.arr Y', f') ∧
      Y.at 0 0 = 2 ∧ Y'.at 0 0 = 0) := by
  obtain ⟨Y, f, h, hY⟩ := dropout_half fun _ => 1
  obtain ⟨Y', f', h', hY'⟩ := dropout_half fun _ => 0
  refine ⟨congrArg Prod.snd h, Y, Y', f, f', congrArg Prod.fst h, congrArg Prod.fst h', hY.trans ?_, hY'.trans ?_⟩ <;> norm_num

/-! ### Instances -/

/-- A network with an embedding table with dropout, a dropout layer in a residual connection, and a linear layer. -/
private theorem exampleNetwork : Network
    (fun source => combineR chainTree [embedR 0 (some (1 / 4)) true source, combineR (wrapperTree .ok residual) [dropoutR (1 / 2) true source],
      plainR (linear 1 2)])
    (chain [embed 0 (some (1 / 4)) (fun _ _ => 0) true, residual (dropout (1 / 2) true fun _ _ _ => 0), linear 1 2]) := by
  refine .combine C128_chain [embedR 0 (some (1 / 4)) true, fun source => combineR (wrapperTree .ok residual) [dropoutR (1 / 2) true source],
    fun _ => plainR (linear 1 2)] _ rfl fun p hp => ?_
  simp only [List.zip_cons_cons, List.zip_nil_right, List.mem_cons, List.not_mem_nil, or_false] at hp
  rcases hp with rfl | rfl | rfl
  · exact Network.embed 0 (some (1 / 4)) true fun _ _ => 0
  · refine .combine C128_residual [dropoutR (1 / 2) true] [dropout (1 / 2) true fun _ _ _ => 0] rfl fun p hp => ?_
    simp only [List.zip_cons_cons, List.zip_nil_right, List.mem_cons, List.not_mem_nil, or_false] at hp
    subst hp
    exact Network.dropout (1 / 2) true fun _ _ _ => 0
  · exact .plain _

example := C128_predict_partial exampleNetwork
example := C128_evaluate_partial (σ := Unit) exampleNetwork
example := C128_no_dropout 0 true (Or.inr (Or.inl (by norm_num)))

/-- In training the same dropout layer does draw numbers, and which ones changes its output. -/
example : ∃ Y Y' : Mat ℝ, ∃ f f' : Callback,
    dropoutR (1 / 2) true (fun _ => 1) true (fun _ => Mat.zeros 0 0) (.arr (Mat.ofFn 1 1 fun _ _ => 1)) 0 = (.ok (.arr Y, f), 1) ∧
    dropoutR (1 / 2) true (fun _ => 0) true (fun _ => Mat.zeros 0 0) (.arr (Mat.ofFn 1 1 fun _ _ => 1)) 0 = (.ok (.arr Y', f'), 1) ∧
    Y.at 0 0 ≠ Y'.at 0 0 := by
  obtain ⟨Y, f, h, hY⟩ := dropout_half fun _ => 1
  obtain ⟨Y', f', h', hY'⟩ := dropout_half fun _ => 0
  refine ⟨Y, Y', f, f', h, h', ?_⟩
  rw [hY, hY']
  norm_num

end Thinc
