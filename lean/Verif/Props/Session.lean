import Verif.Spec.Session
import Verif.Props.Sgd
import Verif.Props.Adam
import Verif.Props.Splitting
/-!
# C121: forward passes, backward passes and predictions in any order
-/
namespace Thinc
open Spec Spec.Tensor
variable {A : Type} {L : Layer} {N : ℕ} {slot : Slots} {cfg : OptCfg (Nat × String)} {root : Addr}

theorem writeGrads_only (slot : Slots) (G : GradStore) (h : Heap (Mat ℝ) A) (N : ℕ) : OnlyGrads h (writeGrads N slot G h) := by
  unfold writeGrads
  generalize List.range N = ps
  induction ps generalizing h with
  | nil => exact OnlyGrads.refl h
  | cons p ps ih => exact (writeGrad_only slot G h p).trans (ih _)

theorem readParams_only {h h' : Heap (Mat ℝ) A} (ho : OnlyGrads h h') (slot : Slots) : readParams h' slot = readParams h slot := by
  funext p
  unfold readParams
  rcases ho (slot p).1 with ⟨e1, e2⟩ | ⟨n, gs, e1, e2⟩
  · rw [e1, e2]
  · rw [e1, e2]
    rfl

/-- What the rest of the calls does. -/
noncomputable def restOf (L : Layer) (N : ℕ) (slot : Slots) (cfg : OptCfg (Nat × String)) (root : Addr) (s : TrainState A)
    (w : List (List (Val × (Val → Except PyErr Val))) × List (Val × (Val → Except PyErr Val))) : Except PyErr (TrainState A) := do
  let s' ← trainLoop L N slot cfg root s w.1
  let h ← w.2.foldlM (backpropBatch L N slot) s'.nodes
  return ⟨h, s'.opt⟩

/-- The iteration that is going on, from its start. -/
theorem trainIteration_split (s : TrainState A) (acc : List (Val × (Val → Except PyErr Val))) :
    trainIteration L N slot cfg root s acc = (acc.foldlM (backpropBatch L N slot) s.nodes).bind fun h => trainIteration L N slot cfg root ⟨h, s.opt⟩ [] := by
  simp only [trainIteration, List.foldlM_nil, bind, pure, Except.pure]
  cases acc.foldlM (backpropBatch L N slot) s.nodes <;> rfl

theorem onlyGrads_fold {h h' : Heap (Mat ℝ) A} (acc : List (Val × (Val → Except PyErr Val))) (e : acc.foldlM (backpropBatch L N slot) h = .ok h') :
    OnlyGrads h h' := by
  induction acc generalizing h with
  | nil => cases e; exact OnlyGrads.refl _
  | cons b bs ih =>
    rw [List.foldlM_cons] at e
    obtain ⟨h1, e1, e2⟩ := bind_ok e
    refine OnlyGrads.trans ?_ (ih e2)
    obtain ⟨⟨Y, cb⟩, -, e1⟩ := bind_ok (show Except.bind _ _ = _ from e1)
    obtain ⟨D, -, e1⟩ := bind_ok e1
    obtain ⟨⟨dv, G⟩, -, e1⟩ := bind_ok e1
    cases e1
    exact writeGrads_only _ _ _ _

theorem restOf_error {s : TrainState A} {begun : List Val} {acc : List (Val × (Val → Except PyErr Val))} {err : PyErr}
    (e : acc.foldlM (backpropBatch L N slot) s.nodes = .error err) (cs : List Call) :
    restOf L N slot cfg root s (work begun acc cs) = .error err := by
  induction cs generalizing begun acc with
  | nil => simp only [restOf, work, trainLoop, List.foldlM_nil, bind, Except.bind, pure, Except.pure, e]
  | cons c cs ih =>
    cases c with
    | predict X => exact ih e
    | beginUpdate X => exact ih e
    | backprop k getGrad =>
      refine ih ?_
      rw [List.foldlM_append, e]
      rfl
    | finishUpdate =>
      have hit := trainIteration_split (L := L) (N := N) (slot := slot) (cfg := cfg) (root := root) s acc
      rw [e] at hit
      simp only [restOf, work, trainLoop, List.foldlM_cons, bind]
      rw [hit]
      rfl

/-- The state of a session in the middle of an iteration that began with `s`. -/
theorem run_from (calls : List Call) : ∀ (s : TrainState A) (begun : List Val) (acc : List (Val × (Val → Except PyErr Val))) (h : Heap (Mat ℝ) A)
    (predicted : List (Except PyErr Val)), acc.foldlM (backpropBatch L N slot) s.nodes = .ok h → Fresh begun.length calls →
    (Session.run L N slot cfg root ⟨⟨h, s.opt⟩, begun.map (L true (readParams s.nodes slot)), predicted⟩ calls).map Session.train =
      restOf L N slot cfg root s (work begun acc calls) := by
  induction calls with
  | nil =>
    intro s begun acc h predicted e _
    simp only [Session.run, List.foldlM_nil, restOf, work, trainLoop, bind, Except.bind, pure, Except.pure, e, Except.map]
  | cons c cs ih =>
    intro s begun acc h predicted e hf
    have ho := onlyGrads_fold acc e
    cases c with
    | predict X =>
      simp only [Session.run, List.foldlM_cons, Session.call, bind, Except.bind]
      exact ih s begun acc h _ e hf
    | beginUpdate X =>
      simp only [Session.run, List.foldlM_cons, Session.call, bind, Except.bind]
      have := ih s (begun ++ [X]) acc h predicted e (by rw [List.length_append]; exact hf)
      rw [List.map_append] at this
      rw [readParams_only ho]
      exact this
    | backprop k getGrad =>
      obtain ⟨hk, hf⟩ := hf
      have hw : work begun acc (.backprop k getGrad :: cs) = work begun (acc ++ [(begun[k], getGrad)]) cs := by
        simp only [work, List.getElem?_eq_getElem hk, Option.map_some, Option.toList_some]
      have hfold : (acc ++ [(begun[k], getGrad)]).foldlM (backpropBatch L N slot) s.nodes = backpropBatch L N slot h (begun[k], getGrad) := by
        rw [List.foldlM_append, e]
        show (backpropBatch L N slot h (begun[k], getGrad)).bind pure = _
        cases backpropBatch L N slot h (begun[k], getGrad) <;> rfl
      have hback : Session.back N slot ⟨⟨h, s.opt⟩, begun.map (L true (readParams s.nodes slot)), predicted⟩ k getGrad =
          (backpropBatch L N slot h (begun[k], getGrad)).map fun h' => ⟨⟨h', s.opt⟩, begun.map (L true (readParams s.nodes slot)), predicted⟩ := by
        unfold Session.back backpropBatch Session.callback
        simp only [List.getElem?_map, List.getElem?_eq_getElem hk, Option.map_some]
        rw [readParams_only ho]
        cases e1 : L true (readParams s.nodes slot) begun[k] with
        | error e => rfl
        | ok r =>
          obtain ⟨Y, cb⟩ := r
          simp only [bind, Except.bind]
          cases e2 : getGrad Y with
          | error e => rfl
          | ok D =>
            simp only
            cases e3 : cb D (readGrads h slot) with
            | error e => rfl
            | ok r => rfl
      rw [hw]
      simp only [Session.run, List.foldlM_cons, Session.call, hback, bind]
      cases e1 : backpropBatch L N slot h (begun[k], getGrad) with
      | error err =>
        rw [e1] at hfold
        exact (restOf_error hfold cs).symm
      | ok h' =>
        rw [e1] at hfold
        exact ih s begun _ h' predicted hfold hf
    | finishUpdate =>
      have hit := trainIteration_split (L := L) (N := N) (slot := slot) (cfg := cfg) (root := root) s acc
      rw [e] at hit
      have hit : trainIteration L N slot cfg root s acc = trainIteration L N slot cfg root ⟨h, s.opt⟩ [] := hit
      simp only [Session.run, List.foldlM_cons, Session.call, Session.finish, bind]
      have hr : restOf L N slot cfg root s (work begun acc (.finishUpdate :: cs)) =
          (trainIteration L N slot cfg root s acc).bind fun t => restOf L N slot cfg root t (work [] [] cs) := by
        simp only [restOf, work, trainLoop, List.foldlM_cons, bind]
        cases trainIteration L N slot cfg root s acc <;> rfl
      rw [hr, hit]
      cases trainIteration L N slot cfg root ⟨h, s.opt⟩ [] with
      | error err => rfl
      | ok t =>
        have := ih t [] [] t.nodes predicted rfl hf
        exact this

/-- The order of the calls between two updates does not matter.  Whatever a user does with a model - predicting in between, running forward
passes ahead, calling callbacks in any order, more than once or not at all - leaves the model and the optimizer in the very state that going
through the batches of the called callbacks one after the other leaves them in; and it raises if and only if that raises.  The callbacks must
come from forward passes since the last update. -/
theorem C121_any_order (s : TrainState A) (predicted : List (Except PyErr Val)) (calls : List Call) (hf : Fresh 0 calls)
    (hdone : (work [] [] calls).2 = []) :
    (Session.run L N slot cfg root ⟨s, [], predicted⟩ calls).map Session.train = trainLoop L N slot cfg root s (work [] [] calls).1 := by
  have h := run_from (L := L) (N := N) (slot := slot) (cfg := cfg) (root := root) calls s [] [] s.nodes predicted rfl hf
  refine Eq.trans h ?_
  unfold restOf
  rw [hdone]
  cases trainLoop L N slot cfg root s (work [] [] calls).1 <;> rfl

/-- The same in the middle of an iteration: the gradients are those of the callbacks called since the last update. -/
theorem C121_pending (s : TrainState A) (predicted : List (Except PyErr Val)) (calls : List Call) (hf : Fresh 0 calls) {s' : TrainState A}
    (h : trainLoop L N slot cfg root s (work [] [] calls).1 = .ok s') :
    (Session.run L N slot cfg root ⟨s, [], predicted⟩ calls).map Session.train =
      ((work [] [] calls).2.foldlM (backpropBatch L N slot) s'.nodes).map fun nodes => ⟨nodes, s'.opt⟩ := by
  have h' := run_from (L := L) (N := N) (slot := slot) (cfg := cfg) (root := root) calls s [] [] s.nodes predicted rfl hf
  refine Eq.trans h' ?_
  unfold restOf
  rw [h]
  show Except.bind ((work [] [] calls).2.foldlM (backpropBatch L N slot) s'.nodes) _ = _
  cases (work [] [] calls).2.foldlM (backpropBatch L N slot) s'.nodes <;> rfl

theorem fresh_prefix {n : ℕ} {pre post : List Call} (h : Fresh n (pre ++ post)) : Fresh n pre := by
  induction pre generalizing n with
  | nil => trivial
  | cons c cs ih =>
    cases c with
    | predict X => exact ih (n := n) h
    | beginUpdate X => exact ih (n := n + 1) h
    | backprop k g => exact ⟨h.1, ih h.2⟩
    | finishUpdate => exact ih (n := 0) h

theorem call_predicted {s s' : Session A} {c : Call} (h : Session.call L N slot cfg root s c = .ok s') :
    ∃ new, s'.predicted = s.predicted ++ new ∧ new.length = (questions [c]).length := by
  cases c with
  | predict X => cases h; exact ⟨_, rfl, rfl⟩
  | beginUpdate X => cases h; exact ⟨[], by simp, rfl⟩
  | backprop k g =>
    obtain ⟨⟨Y, cb⟩, -, h⟩ := bind_ok (show Except.bind _ _ = _ from h)
    obtain ⟨D, -, h⟩ := bind_ok h
    obtain ⟨⟨dv, G⟩, -, h⟩ := bind_ok h
    cases h
    exact ⟨[], by simp, rfl⟩
  | finishUpdate =>
    obtain ⟨t, -, h⟩ := bind_ok (show Except.bind _ _ = _ from h)
    cases h
    exact ⟨[], by simp, rfl⟩

theorem run_predicted {calls : List Call} {s s' : Session A} (h : Session.run L N slot cfg root s calls = .ok s') :
    ∃ new, s'.predicted = s.predicted ++ new ∧ new.length = (questions calls).length := by
  induction calls generalizing s with
  | nil => cases h; exact ⟨[], by simp, rfl⟩
  | cons c cs ih =>
    simp only [Session.run, List.foldlM_cons] at h
    obtain ⟨s1, e1, h⟩ := bind_ok h
    obtain ⟨n1, h1, l1⟩ := call_predicted e1
    obtain ⟨n2, h2, l2⟩ := ih h
    refine ⟨n1 ++ n2, by rw [h2, h1, List.append_assoc], ?_⟩
    rw [List.length_append, l1, l2]
    cases c <;> simp [questions, Nat.add_comm]

/-- A prediction is the one of the model after the last update: forward passes that wait for their backward pass, and gradients that wait for
the update, do not show. -/
theorem C121_predictions (s : TrainState A) (pre post : List Call) (X : Val) (hf : Fresh 0 (pre ++ .predict X :: post)) {t : Session A}
    (h : Session.run L N slot cfg root ⟨s, [], []⟩ (pre ++ .predict X :: post) = .ok t) :
    ∃ s', trainLoop L N slot cfg root s (work [] [] pre).1 = .ok s' ∧
      t.predicted[(questions pre).length]? = some ((L false (readParams s'.nodes slot) X).map Prod.fst) := by
  simp only [Session.run, List.foldlM_append] at h
  obtain ⟨u, e1, h⟩ := bind_ok h
  rw [List.foldlM_cons] at h
  obtain ⟨v, e2, h⟩ := bind_ok h
  have h1 := run_from (L := L) (N := N) (slot := slot) (cfg := cfg) (root := root) pre s [] [] s.nodes [] rfl (fresh_prefix hf)
  have e1' : Session.run L N slot cfg root ⟨⟨s.nodes, s.opt⟩, [].map (L true (readParams s.nodes slot)), []⟩ pre = .ok u := e1
  rw [e1'] at h1
  have h1 : restOf L N slot cfg root s (work [] [] pre) = .ok u.train := h1.symm
  obtain ⟨s', e3, h1⟩ := bind_ok (show Except.bind _ _ = _ from h1)
  obtain ⟨nodes, e4, h1⟩ := bind_ok h1
  have hu : u.train = ⟨nodes, s'.opt⟩ := (Except.ok.inj h1).symm
  refine ⟨s', e3, ?_⟩
  obtain ⟨n1, p1, l1⟩ := run_predicted (calls := pre) e1
  obtain ⟨n2, p2, l2⟩ := run_predicted (calls := post) h
  cases e2
  have hr : readParams u.train.nodes slot = readParams s'.nodes slot := by
    rw [hu]
    exact readParams_only (onlyGrads_fold _ e4) slot
  rw [p2, p1, hr]
  simp only [List.nil_append, List.append_assoc, ← l1]
  rw [List.getElem?_append_right (Nat.le_refl _), Nat.sub_self]
  rfl

section
variable {sh : Fin N → ℕ × ℕ} {key : Fin N → Nat × String} {θ : Params sh}

/-- With SGD, the parameters after any sequence of calls are those of gradient descent: in every iteration one step along the gradient of the sum
of the losses of the callbacks that were called. -/
theorem C121_sgd (hra : cfg.useRadam = false) (hb2 : ∀ t k s, cfg.b2 t k s = 0) (hL2 : ∀ t k s, cfg.L2 t k s = 0) (s : TrainState A)
    (calls : List Call) (its : List (List (Batch sh))) (hw : WorksOn calls its) (H : Wired s.nodes root slot key θ 0)
    (htakes : TakesAll L (fun t p => cfg.learnRate t (key p) s.opt.lastScore) (fun t p => cfg.gradClip t (key p) s.opt.lastScore) s.opt.step θ its) :
    ∃ t, Session.run L N slot cfg root ⟨s, [], []⟩ calls = .ok t ∧ t.train.opt.step = s.opt.step + its.length ∧
      Wired t.train.nodes root slot key
        (descent (fun t p => cfg.learnRate t (key p) s.opt.lastScore) (fun t p => cfg.gradClip t (key p) s.opt.lastScore)
          s.opt.step θ (its.map fun bs => bs.map Batch.loss)) 0 := by
  obtain ⟨s', e, h1, h2⟩ := C77_sgd hra hb2 hL2 s its H htakes
  have h := C121_any_order (L := L) (N := N) (slot := slot) (cfg := cfg) (root := root) s [] calls hw.1 (by rw [hw.2])
  rw [hw.2] at h
  have h := h.trans e
  cases e3 : Session.run L N slot cfg root ⟨s, [], []⟩ calls with
  | error err => rw [e3] at h; cases h
  | ok t =>
    rw [e3] at h
    cases h
    exact ⟨t, rfl, h1, h2⟩

theorem takesAll_perm {lr clip : ℕ → Fin N → ℝ} {k : ℕ} {its its' : List (List (Batch sh))} (hp : List.Forall₂ List.Perm its its')
    (h : TakesAll L lr clip k θ its) : TakesAll L lr clip k θ its' ∧
      descent lr clip k θ (its.map fun bs => bs.map Batch.loss) = descent lr clip k θ (its'.map fun bs => bs.map Batch.loss) := by
  induction hp generalizing k θ with
  | nil => exact ⟨trivial, rfl⟩
  | @cons bs bs' its its' hb _ ih =>
    have hg : totalGradient (bs.map Batch.loss) θ = totalGradient (bs'.map Batch.loss) θ := ((hb.map Batch.loss).map _).sum_eq
    obtain ⟨h1, h2⟩ := ih h.2
    refine ⟨⟨fun b hb' => h.1 b (hb.mem_iff.2 hb'), by rw [← hg]; exact h1⟩, ?_⟩
    simp only [List.map_cons, descent, ← hg]
    exact h2

/-- Two sequences of calls that call the callbacks of the same batches in each iteration, in whatever order, train the same parameters. -/
theorem C121_same_batches (hra : cfg.useRadam = false) (hb2 : ∀ t k s, cfg.b2 t k s = 0) (hL2 : ∀ t k s, cfg.L2 t k s = 0) (s : TrainState A)
    (calls calls' : List Call) (its its' : List (List (Batch sh))) (hw : WorksOn calls its) (hw' : WorksOn calls' its')
    (hp : List.Forall₂ List.Perm its its') (H : Wired s.nodes root slot key θ 0)
    (htakes : TakesAll L (fun t p => cfg.learnRate t (key p) s.opt.lastScore) (fun t p => cfg.gradClip t (key p) s.opt.lastScore) s.opt.step θ its) :
    ∃ (t t' : Session A) (θ' : Params sh), Session.run L N slot cfg root ⟨s, [], []⟩ calls = .ok t ∧ Session.run L N slot cfg root ⟨s, [], []⟩ calls' = .ok t' ∧
      Wired t.train.nodes root slot key θ' 0 ∧ Wired t'.train.nodes root slot key θ' 0 := by
  obtain ⟨h1, h2⟩ := takesAll_perm hp htakes
  obtain ⟨t, e, -, w⟩ := C121_sgd hra hb2 hL2 s calls its hw H htakes
  obtain ⟨t', e', -, w'⟩ := C121_sgd hra hb2 hL2 s calls' its' hw' H h1
  exact ⟨t, t', _, e, e', w, h2 ▸ w'⟩

/-- With Adam. -/
theorem C121_adam (hra : cfg.useRadam = false) (hb : ∀ t k s, 0 < cfg.b2 t k s → 0 < cfg.b1 t k s) (hsh : ∀ p, 0 < (sh p).1)
    (s : TrainState A) {S : Vars sh} (calls : List Call) (its : List (List (Batch sh))) (hw : WorksOn calls its)
    (H : Wired s.nodes root slot key S.weights 0) (hu : DistinctIds s.nodes root) (hrem : ∀ p, Remembers s.opt (key p) (S p))
    (htakes : TakesEvery L (fun t p => cfg.hyper t (key p) s.opt.lastScore) cfg.L2IsWeightDecay s.opt.step S its) :
    ∃ t, Session.run L N slot cfg root ⟨s, [], []⟩ calls = .ok t ∧ t.train.opt.step = s.opt.step + its.length ∧
      Wired t.train.nodes root slot key (Vars.train (fun t p => cfg.hyper t (key p) s.opt.lastScore) cfg.L2IsWeightDecay s.opt.step S
        (its.map fun bs => bs.map Batch.loss)).weights 0 ∧
      ∀ p, Remembers t.train.opt (key p) (Vars.train (fun t p => cfg.hyper t (key p) s.opt.lastScore) cfg.L2IsWeightDecay s.opt.step S
        (its.map fun bs => bs.map Batch.loss) p) := by
  obtain ⟨s', e, h1, h2⟩ := C90_adam hra hb hsh s its H hu hrem htakes
  have h := C121_any_order (L := L) (N := N) (slot := slot) (cfg := cfg) (root := root) s [] calls hw.1 (by rw [hw.2])
  rw [hw.2] at h
  have h := h.trans e
  cases e3 : Session.run L N slot cfg root ⟨s, [], []⟩ calls with
  | error err => rw [e3] at h; cases h
  | ok t =>
    rw [e3] at h
    cases h
    exact ⟨t, rfl, h1, h2⟩

theorem takesEvery_perm {hyper : ℕ → Fin N → Hyper} {decay : Bool} {k : ℕ} {S : Vars sh} {its its' : List (List (Batch sh))}
    (hp : List.Forall₂ List.Perm its its') (h : TakesEvery L hyper decay k S its) : TakesEvery L hyper decay k S its' ∧
      Vars.train hyper decay k S (its.map fun bs => bs.map Batch.loss) = Vars.train hyper decay k S (its'.map fun bs => bs.map Batch.loss) := by
  induction hp generalizing k S with
  | nil => exact ⟨trivial, rfl⟩
  | @cons bs bs' its its' hb _ ih =>
    have hg : S.iterate (hyper k) decay (bs.map Batch.loss) = S.iterate (hyper k) decay (bs'.map Batch.loss) := by
      unfold Vars.iterate
      rw [show totalGradient (bs.map Batch.loss) S.weights = totalGradient (bs'.map Batch.loss) S.weights from ((hb.map Batch.loss).map _).sum_eq]
    obtain ⟨hne, ht, h⟩ := h
    obtain ⟨h1, h2⟩ := ih h
    refine ⟨⟨fun e => hne (List.Perm.eq_nil (e ▸ hb)), fun b hb' => ht b (hb.mem_iff.2 hb'), by rw [← hg]; exact h1⟩, ?_⟩
    simp only [List.map_cons, Vars.train, ← hg]
    exact h2

/-- The same with Adam; the optimizer remembers the same as well. -/
theorem C121_same_batches_adam (hra : cfg.useRadam = false) (hb : ∀ t k s, 0 < cfg.b2 t k s → 0 < cfg.b1 t k s) (hsh : ∀ p, 0 < (sh p).1)
    (s : TrainState A) {S : Vars sh} (calls calls' : List Call) (its its' : List (List (Batch sh))) (hw : WorksOn calls its) (hw' : WorksOn calls' its')
    (hp : List.Forall₂ List.Perm its its')
    (H : Wired s.nodes root slot key S.weights 0) (hu : DistinctIds s.nodes root) (hrem : ∀ p, Remembers s.opt (key p) (S p))
    (htakes : TakesEvery L (fun t p => cfg.hyper t (key p) s.opt.lastScore) cfg.L2IsWeightDecay s.opt.step S its) :
    ∃ (t t' : Session A) (S' : Vars sh), Session.run L N slot cfg root ⟨s, [], []⟩ calls = .ok t ∧ Session.run L N slot cfg root ⟨s, [], []⟩ calls' = .ok t' ∧
      Wired t.train.nodes root slot key S'.weights 0 ∧ Wired t'.train.nodes root slot key S'.weights 0 ∧
      ∀ p, Remembers t.train.opt (key p) (S' p) ∧ Remembers t'.train.opt (key p) (S' p) := by
  obtain ⟨h1, h2⟩ := takesEvery_perm hp htakes
  obtain ⟨t, e, -, w, r⟩ := C121_adam hra hb hsh s calls its hw H hu hrem htakes
  obtain ⟨t', e', -, w', r'⟩ := C121_adam hra hb hsh s calls' its' hw' H hu hrem h1
  exact ⟨t, t', _, e, e', w, h2 ▸ w', fun p => ⟨r p, h2 ▸ r' p⟩⟩

end

/-! ### Examples -/

/-- Two forward passes before the first backward pass, predictions in between, the second callback first; then a forward pass that comes to nothing, and
a callback that is called twice. -/
noncomputable def exCalls (x t x' t' : ℝ) : List Call :=
  [.beginUpdate (exLinearBatch x t).input, .predict (exLinearBatch x' t').input, .beginUpdate (exLinearBatch x' t').input,
    .backprop 1 (exLinearBatch x' t').lossGrad, .predict (exLinearBatch x t).input, .backprop 0 (exLinearBatch x t).lossGrad, .finishUpdate,
    .beginUpdate (exLinearBatch x t).input, .beginUpdate (exLinearBatch x' t').input, .backprop 1 (exLinearBatch x' t').lossGrad,
    .backprop 1 (exLinearBatch x' t').lossGrad, .finishUpdate, .predict (exLinearBatch x t).input]

/-- The same work in the usual order. -/
noncomputable def exUsualCalls (x t x' t' : ℝ) : List Call :=
  [.beginUpdate (exLinearBatch x t).input, .backprop 0 (exLinearBatch x t).lossGrad, .beginUpdate (exLinearBatch x' t').input,
    .backprop 1 (exLinearBatch x' t').lossGrad, .finishUpdate, .beginUpdate (exLinearBatch x' t').input, .backprop 0 (exLinearBatch x' t').lossGrad,
    .beginUpdate (exLinearBatch x' t').input, .backprop 1 (exLinearBatch x' t').lossGrad, .finishUpdate]

theorem exCalls_work (x t x' t' : ℝ) :
    WorksOn (exCalls x t x' t') [[exLinearBatch x' t', exLinearBatch x t], [exLinearBatch x' t', exLinearBatch x' t']] :=
  ⟨by simp [exCalls, Fresh], rfl⟩

theorem exUsualCalls_work (x t x' t' : ℝ) :
    WorksOn (exUsualCalls x t x' t') [[exLinearBatch x t, exLinearBatch x' t'], [exLinearBatch x' t', exLinearBatch x' t']] :=
  ⟨by simp [exUsualCalls, Fresh], rfl⟩

theorem exSession_takesAll (its : List (List (Batch fun _ : Fin 2 => (1, 1)))) (h : ∀ bs ∈ its, ∀ b ∈ bs, ∃ x t, b = exLinearBatch x t)
    (lr clip : ℕ → Fin 2 → ℝ) (k : ℕ) (θ : Params fun _ : Fin 2 => (1, 1)) : TakesAll (linear 0 1) lr clip k θ its := by
  induction its generalizing k θ with
  | nil => trivial
  | cons bs its ih =>
    refine ⟨fun b hb => ?_, ih (fun bs' h' => h bs' (by simp [h'])) _ _⟩
    obtain ⟨x, t, rfl⟩ := h bs (by simp) b hb
    exact exLinear_takes x t θ

/-- Non-vacuity of C121. -/
example (x t x' t' : ℝ) : ∃ (u u' : Session Unit) (θ' : Params fun _ : Fin 2 => (1, 1)),
    Session.run (linear 0 1) 2 exLinearSlots exTrainCfg 0 ⟨⟨exLinearHeap, OptState.init true⟩, [], []⟩ (exCalls x t x' t') = .ok u ∧
    Session.run (linear 0 1) 2 exLinearSlots exTrainCfg 0 ⟨⟨exLinearHeap, OptState.init true⟩, [], []⟩ (exUsualCalls x t x' t') = .ok u' ∧
    Wired u.train.nodes 0 exLinearSlots exLinearKey θ' 0 ∧ Wired u'.train.nodes 0 exLinearSlots exLinearKey θ' 0 :=
  C121_same_batches (cfg := exTrainCfg) rfl (fun _ _ _ => rfl) (fun _ _ _ => rfl) ⟨exLinearHeap, OptState.init true⟩ _ _ _ _
    (exCalls_work x t x' t') (exUsualCalls_work x t x' t') (.cons (List.Perm.swap _ _ _) (.cons (List.Perm.refl _) .nil)) exLinear_wired
    (exSession_takesAll _ (by simp) _ _ _ _)

end Thinc
