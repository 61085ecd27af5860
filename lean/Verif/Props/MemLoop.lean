import Verif.Props.MemSession
import Verif.Model.MemLoop
/-!
# C123: the training loop needs no care
-/
namespace Thinc
open Shared Spec.Shared
variable {A : Type} {o g : Bool} {M : MLayer} {L : Layer} {N : Nat} {slot : Slots} {cfg : OptCfg (Nat × String)} {root : Addr}

/-- Linked to a session on values whose model and optimizer are these. -/
def LinkedTo (o g : Bool) (slot : Slots) (s : MSession A) (t : TrainState A) : Prop := ∃ v : Session A, Linked o g slot s v ∧ v.train = t

theorem agree_foldlM {α β γ : Type} {R : α → β → Prop} {f : α → γ → Except PyErr α} {f' : β → γ → Except PyErr β}
    (hf : ∀ a b c, R a b → Spec.Shared.Agree R (f a c) (f' b c)) (l : List γ) :
    ∀ a b, R a b → Spec.Shared.Agree R (l.foldlM f a) (l.foldlM f' b) := by
  induction l with
  | nil => exact fun a b h => h
  | cons c cs ih =>
    intro a b h
    rw [List.foldlM_cons, List.foldlM_cons]
    exact agree_bind (hf a b c h) ih

theorem got_linked {s : MSession A} {v : Session A} (h : Linked o g slot s v) (D : Val) : Linked o g slot (s.got D) v := by
  obtain ⟨f1, f2, f3, f4⟩ := fresh_facts s.mem D
  exact ⟨h.train, f1.2.1.trans h.params, mine_in f1 h.mine f2, h.handed.imp fun _ _ hw => hw.grows f1 f4, h.predicted⟩

theorem batch_linked (cfg : OptCfg (Nat × String)) (root : Addr) (h : Faithful o g M L) (opt : OptState (Nat × String)) (s : MSession A) (nodes : Heap (Mat ℝ) A)
    (batch : Val × (Val → Except PyErr Val)) (hl : LinkedTo o g slot s ⟨nodes, opt⟩) :
    Spec.Shared.Agree (fun s' nodes' => LinkedTo o g slot s' ⟨nodes', opt⟩) (s.batch M N slot batch) (backpropBatch L N slot nodes batch) := by
  obtain ⟨v, hl, hv⟩ := hl
  obtain ⟨train, handed, predicted⟩ := v
  cases hv
  obtain ⟨f1, f2, f3, f4⟩ := fresh_facts s.mem batch.1
  have h0 := got_linked hl batch.1
  have h1 : Linked o g slot ((s.got batch.1).afterBegin (RVal.fresh s.mem batch.1).1 (M true (RVal.fresh s.mem batch.1).1 (s.got batch.1).mem))
      { train := ⟨nodes, opt⟩, predicted := predicted, handed := handed ++ [L true (readParams nodes slot) batch.1] } := by
    have := call_linked (N := N) (cfg := cfg) (root := root) h h0 (.beginUpdate (RVal.fresh s.mem batch.1).1) fun a ha => List.mem_append_right _ ha
    have e : RVal.read (s.got batch.1).mem (RVal.fresh s.mem batch.1).1 = batch.1 := f3
    have this : Linked o g slot ((s.got batch.1).afterBegin (RVal.fresh s.mem batch.1).1 (M true (RVal.fresh s.mem batch.1).1 (s.got batch.1).mem))
      { train := ⟨nodes, opt⟩, predicted := predicted, handed := handed ++ [L true (readParams nodes slot) (RVal.read (s.got batch.1).mem (RVal.fresh s.mem batch.1).1)] } := this
    rw [e] at this
    exact this
  have hlen : s.handed.length = handed.length := hl.handed.length_eq
  have h2 := call_linked (N := N) (cfg := cfg) (root := root) h h1 (.backpropLoss s.handed.length batch.2) (by
    intro p hp
    revert hp
    cases M true (RVal.fresh s.mem batch.1).1 (s.got batch.1).mem with
    | error e =>
      intro hp
      have hp : (s.handed ++ [Except.error e])[s.handed.length]? = some (Except.ok p) := hp
      rw [List.getElem?_concat_length] at hp
      cases hp
    | ok out =>
      obtain ⟨Y, c, m⟩ := out
      intro hp
      have hp : (s.handed ++ [Except.ok ⟨(RVal.fresh s.mem batch.1).1, Y, Y.read m, c⟩])[s.handed.length]? = some (Except.ok p) := hp
      rw [List.getElem?_concat_length] at hp
      cases hp
      rfl)
  have e2 : Session.run L N slot cfg root { train := ⟨nodes, opt⟩, predicted := predicted, handed := handed ++ [L true (readParams nodes slot) batch.1] }
      [.backprop s.handed.length batch.2] = (backpropBatch L N slot nodes batch).bind fun nodes' =>
        .ok { train := ⟨nodes', opt⟩, predicted := predicted, handed := handed ++ [L true (readParams nodes slot) batch.1] } := by
    show (Session.back N slot _ s.handed.length batch.2).bind pure = _
    unfold Session.back Session.callback backpropBatch
    simp only [hlen, List.getElem?_concat_length]
    cases L true (readParams nodes slot) batch.1 with
    | error e => rfl
    | ok r =>
      show Except.bind (Except.bind (batch.2 r.1) _) _ = Except.bind (Except.bind (batch.2 r.1) _) _
      cases batch.2 r.1 with
      | error e => rfl
      | ok D =>
        show Except.bind (Except.bind (r.2 D _) _) _ = Except.bind (Except.bind (r.2 D _) _) _
        cases r.2 D (readGrads nodes slot) <;> rfl
  have h2 : Spec.Shared.Agree (Linked o g slot) (s.batch M N slot batch) (Session.run L N slot cfg root
      { train := ⟨nodes, opt⟩, predicted := predicted, handed := handed ++ [L true (readParams nodes slot) batch.1] } [.backprop s.handed.length batch.2]) := h2
  rw [e2] at h2
  revert h2
  cases s.batch M N slot batch with
  | error e =>
    cases backpropBatch L N slot nodes batch with
    | error e' => exact fun h2 => h2
    | ok nodes' => exact fun h2 => h2.elim
  | ok s' =>
    cases backpropBatch L N slot nodes batch with
    | error e' => exact fun h2 => h2.elim
    | ok nodes' => exact fun h2 => ⟨_, h2, rfl⟩

theorem iteration_linked (h : Faithful o g M L) (s : MSession A) (t : TrainState A) (batches : List (Val × (Val → Except PyErr Val)))
    (hl : LinkedTo o g slot s t) :
    Spec.Shared.Agree (LinkedTo o g slot) (s.iteration M N slot cfg root batches) (trainIteration L N slot cfg root t batches) := by
  have e : trainIteration L N slot cfg root t batches = (batches.foldlM (backpropBatch L N slot) t.nodes).bind fun nodes =>
      trainIteration L N slot cfg root ⟨nodes, t.opt⟩ [] := rfl
  rw [e]
  refine agree_bind (agree_foldlM (R := fun s' nodes' => LinkedTo o g slot s' ⟨nodes', t.opt⟩)
    (fun s' nodes' b hl' => batch_linked cfg root h t.opt s' nodes' b hl') batches s t.nodes hl) ?_
  rintro s' nodes' ⟨v, hl', hv⟩
  have h1 := call_linked (N := N) (cfg := cfg) (root := root) h hl' .finishUpdate trivial
  have h1 : Spec.Shared.Agree (Linked o g slot) (s'.finish N slot cfg root) ((Session.finish L N slot cfg root v).bind pure) := h1
  unfold Session.finish at h1
  rw [hv] at h1
  revert h1
  cases s'.finish N slot cfg root with
  | error e =>
    cases trainIteration L N slot cfg root ⟨nodes', t.opt⟩ [] with
    | error e' => exact fun h1 => h1
    | ok t' => exact fun h1 => h1.elim
  | ok s2 =>
    cases trainIteration L N slot cfg root ⟨nodes', t.opt⟩ [] with
    | error e' => exact fun h1 => h1.elim
    | ok t' => exact fun h1 => ⟨_, h1, rfl⟩

/-- The training loop on arrays is the training loop on values, for any batches, losses and number of iterations, and at any time: it raises what
that raises, or leaves the model and the optimizer in the state that leaves.  The arrays that the layers share with each other, with the user's
inputs and with the outputs do not matter, and there is nothing the user has to take care of. -/
theorem C123_loop (h : Faithful o g M L) (s : MSession A) (hp : s.mem.params = readParams s.train.nodes slot) (hm : ∀ a ∈ s.mine, a < s.mem.next)
    (hh : s.handed = []) (iterations : List (List (Val × (Val → Except PyErr Val)))) :
    (s.loop M N slot cfg root iterations).map MSession.train = trainLoop L N slot cfg root s.train iterations := by
  have h1 := agree_foldlM (R := LinkedTo o g slot) (fun s' t' b hl => iteration_linked (N := N) (cfg := cfg) (root := root) h s' t' b hl) iterations s
    s.train ⟨_, linked_start hp hm hh, rfl⟩
  have h1 : Spec.Shared.Agree (LinkedTo o g slot) (s.loop M N slot cfg root iterations) (trainLoop L N slot cfg root s.train iterations) := h1
  revert h1
  cases s.loop M N slot cfg root iterations with
  | error e =>
    cases trainLoop L N slot cfg root s.train iterations with
    | error e' => exact fun h1 => congrArg Except.error (show e = e' from h1)
    | ok t => exact fun h1 => h1.elim
  | ok s' =>
    cases trainLoop L N slot cfg root s.train iterations with
    | error e' => exact fun h1 => h1.elim
    | ok t =>
      rintro ⟨v, hl, hv⟩
      exact congrArg Except.ok (hl.train.trans hv)

section
variable {sh : Fin N → ℕ × ℕ} {key : Fin N → Nat × String}

theorem loop_ok {s : MSession A} {its : List (List (Val × (Val → Except PyErr Val)))} {t t' : TrainState A}
    (h : (s.loop M N slot cfg root its).map MSession.train = trainLoop L N slot cfg root t its) (e : trainLoop L N slot cfg root t its = .ok t') :
    ∃ u, s.loop M N slot cfg root its = .ok u ∧ u.train = t' := by
  rw [e] at h
  cases e1 : s.loop M N slot cfg root its with
  | error err => rw [e1] at h; cases h
  | ok u => rw [e1] at h; exact ⟨u, rfl, Except.ok.inj h⟩

/-- With SGD, the training loop on arrays is gradient descent. -/
theorem C123_loop_sgd {θ : Spec.Params sh} (h : Faithful o g M L) (hra : cfg.useRadam = false) (hb2 : ∀ t k s, cfg.b2 t k s = 0)
    (hL2 : ∀ t k s, cfg.L2 t k s = 0) (s : MSession A) (hp : s.mem.params = readParams s.train.nodes slot) (hm : ∀ a ∈ s.mine, a < s.mem.next)
    (hh : s.handed = []) (its : List (List (Spec.Batch sh))) (H : Spec.Wired s.train.nodes root slot key θ 0)
    (htakes : Spec.TakesAll L (fun t p => cfg.learnRate t (key p) s.train.opt.lastScore) (fun t p => cfg.gradClip t (key p) s.train.opt.lastScore)
      s.train.opt.step θ its) :
    ∃ u, s.loop M N slot cfg root (its.map fun bs => bs.map fun b => (b.input, b.lossGrad)) = .ok u ∧
      u.train.opt.step = s.train.opt.step + its.length ∧
      Spec.Wired u.train.nodes root slot key (Spec.descent (fun t p => cfg.learnRate t (key p) s.train.opt.lastScore)
        (fun t p => cfg.gradClip t (key p) s.train.opt.lastScore) s.train.opt.step θ (its.map fun bs => bs.map Spec.Batch.loss)) 0 := by
  obtain ⟨t, e, h1, h2⟩ := C77_sgd hra hb2 hL2 s.train its H htakes
  obtain ⟨u, e1, rfl⟩ := loop_ok (C123_loop (N := N) (cfg := cfg) (root := root) h s hp hm hh _) e
  exact ⟨u, e1, h1, h2⟩

/-- With Adam, the parameters are those of `Verif.Spec.Adam`, and so are the moments that the optimizer remembers. -/
theorem C123_loop_adam {S : Spec.Vars sh} (h : Faithful o g M L) (hra : cfg.useRadam = false) (hb : ∀ t k s, 0 < cfg.b2 t k s → 0 < cfg.b1 t k s)
    (hsh : ∀ p, 0 < (sh p).1) (s : MSession A) (hp : s.mem.params = readParams s.train.nodes slot) (hm : ∀ a ∈ s.mine, a < s.mem.next)
    (hh : s.handed = []) (its : List (List (Spec.Batch sh))) (H : Spec.Wired s.train.nodes root slot key S.weights 0)
    (hu : Spec.DistinctIds s.train.nodes root) (hrem : ∀ p, Spec.Remembers s.train.opt (key p) (S p))
    (htakes : Spec.TakesEvery L (fun t p => cfg.hyper t (key p) s.train.opt.lastScore) cfg.L2IsWeightDecay s.train.opt.step S its) :
    ∃ u, s.loop M N slot cfg root (its.map fun bs => bs.map fun b => (b.input, b.lossGrad)) = .ok u ∧
      u.train.opt.step = s.train.opt.step + its.length ∧
      Spec.Wired u.train.nodes root slot key (Spec.Vars.train (fun t p => cfg.hyper t (key p) s.train.opt.lastScore) cfg.L2IsWeightDecay
        s.train.opt.step S (its.map fun bs => bs.map Spec.Batch.loss)).weights 0 ∧
      ∀ p, Spec.Remembers u.train.opt (key p) (Spec.Vars.train (fun t p => cfg.hyper t (key p) s.train.opt.lastScore) cfg.L2IsWeightDecay
        s.train.opt.step S (its.map fun bs => bs.map Spec.Batch.loss) p) := by
  obtain ⟨t, e, h1, h2, h3⟩ := C90_adam hra hb hsh s.train its H hu hrem htakes
  obtain ⟨u, e1, rfl⟩ := loop_ok (C123_loop (N := N) (cfg := cfg) (root := root) h s hp hm hh _) e
  exact ⟨u, e1, h1, h2, h3⟩
end

end Thinc
