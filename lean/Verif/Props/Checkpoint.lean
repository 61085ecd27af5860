import Verif.Lemmas.Checkpoint
/-!
# C125: checkpoints

The message of `to_dict` is what `to_bytes` and `to_disk` write (C124).
-/
namespace Thinc
open Spec
variable {A : Type} {N : ℕ} {sh : Fin N → ℕ × ℕ} {root : Addr} {slot : Slots} {key : Fin N → Nat × String}

/-- What is needed to load the message of the first model into the second (see `C09_round_trip_partial`): both are well-formed, references stay
inside of the subtree of their node, the second was built like the first, and it has no gradients. -/
structure Spec.LoadableInto {V A S B Sh : Type} (ops : SerOps V A S B Sh) (s s' : LoadState V A S) (root root' : Addr) (φ ψ : Addr → Addr) : Prop where
  source : Serializable ops s root
  target : Serializable ops s' root'
  refs : ∀ (a : Addr) n name r, Reachable s.nodes root a → s.nodes[a]? = some n → n.getRef name = .ok r → Reachable s.nodes a r
  iso : GraphIso s.nodes root s'.nodes root' φ
  comp : ∀ (a : Addr) n m, Reachable s.nodes root a → s.nodes[a]? = some n → s'.nodes[φ a]? = some m → Compatible ops ψ n m
  shims : ∀ (a b : Addr) n m t u, Reachable s.nodes root a → Reachable s.nodes root b → s.nodes[a]? = some n →
    s.nodes[b]? = some m → t ∈ n.shims → u ∈ m.shims → ψ t = ψ u → t = u
  bytes : ∀ x y b, ops.toBytes x = .ok b → ops.fromBytes y b = .ok x
  noGrads : ∀ (b : Addr) m k, Reachable s'.nodes root' b → s'.nodes[b]? = some m → m.hasGrad k = false

theorem Spec.LoadableInto.trained {V A S B Sh : Type} {ops : SerOps V A S B Sh} {h h' : Heap V A} {shims : List S} {s' : LoadState V A S}
    {root root' : Addr} {φ ψ : Addr → Addr} (l : LoadableInto ops ⟨h, shims⟩ s' root root' φ ψ) (T : OnlyTrained h h') :
    LoadableInto ops ⟨h', shims⟩ s' root root' φ ψ where
  source := T.serializable l.source
  target := l.target
  refs a n' name r ha hn hr := by
    obtain ⟨n, h1, q⟩ := T.back hn
    exact (T.reachable _ _).2 (l.refs a n name r ((T.reachable _ _).1 ha) h1 (by rw [q.rest] at hr; exact hr))
  iso := T.iso l.iso
  comp a n' m ha hn hm := by
    obtain ⟨n, h1, q⟩ := T.back hn
    exact q.compatible (l.comp a n m ((T.reachable _ _).1 ha) h1 hm)
  shims a b n' m' t u ha hb hn hm ht hu := by
    obtain ⟨n, h1, q1⟩ := T.back hn
    obtain ⟨m, h2, q2⟩ := T.back hm
    exact l.shims a b n m t u ((T.reachable _ _).1 ha) ((T.reachable _ _).1 hb) h1 h2 (by rw [q1.rest] at ht; exact ht)
      (by rw [q2.rest] at hu; exact hu)
  bytes := l.bytes
  noGrads := l.noGrads

/-- A loaded model holds the parameters that were saved. -/
theorem load_holds {S B Sh : Type} {ops : SerOps (Mat ℝ) A S B Sh} {h : Heap (Mat ℝ) A} {shims : List S} {s' : LoadState (Mat ℝ) A S}
    {root' : Addr} {φ ψ : Addr → Addr} {θ : Params sh} (l : LoadableInto ops ⟨h, shims⟩ s' root root' φ ψ) (H : Wired h root slot key θ 0)
    (hset : NoneUnset h root) :
    ∃ (msg : Msg (Mat ℝ) B) (s'' : LoadState (Mat ℝ) A S) (key' : Fin N → Nat × String),
      toDict ops ⟨h, shims⟩ root = .ok msg ∧ fromDict ops s' root' msg = (s'', .ok ()) ∧ Wired s''.nodes root' (moved φ slot) key' θ 0 := by
  obtain ⟨msg, s'', key', -, -, -, e1, e2, e3, -⟩ := C117_load ops ⟨h, shims⟩ s' root' φ ψ H hset l.source l.target l.refs l.iso l.comp l.shims
    l.bytes l.noGrads (cfg := ⟨fun _ _ _ => 0, fun _ _ _ => 0, fun _ _ _ => 0, fun _ _ _ => 0, fun _ _ _ => 0, fun _ _ _ => 0, false, false⟩)
    rfl (fun _ _ _ => rfl) (fun _ _ _ => rfl) (fun _ _ _ _ => ⟨rfl, rfl⟩) (L := fun _ _ _ => .error .valueError) (OptState.init false)
    (OptState.init false) rfl rfl [] trivial
  exact ⟨msg, s'', key', e1, e2, e3⟩

/-- C125 (stop and resume; partial: plain SGD).  A model is trained for some iterations and saved; the message is loaded into another model that
was built alike (or back into the same model), in another process or later; and that model is trained for the remaining iterations with a new optimizer.  If
the new optimizer is plain SGD as the old one, with the learning rates and clipping thresholds that the old one would have used from there on (constant
ones, for example), then the parameters at the end are the very ones of training without the interruption.
Missing: Adam, for which the claim is false, because the moments are not saved (`C125_adam_wrong`), and schedules that start again
(`C125_schedule_wrong`). -/
theorem C125_resume_partial {S B Sh : Type} (ops : SerOps (Mat ℝ) A S B Sh) (h : Heap (Mat ℝ) A) (shims : List S) (s' : LoadState (Mat ℝ) A S)
    (root' : Addr) (φ ψ : Addr → Addr) {θ : Params sh} (l : LoadableInto ops ⟨h, shims⟩ s' root root' φ ψ) (H : Wired h root slot key θ 0)
    (hset : NoneUnset h root) {cfg cfg' : OptCfg (Nat × String)} (hra : cfg.useRadam = false) (hb2 : ∀ t k s, cfg.b2 t k s = 0)
    (hL2 : ∀ t k s, cfg.L2 t k s = 0) (hra' : cfg'.useRadam = false) (hb2' : ∀ t k s, cfg'.b2 t k s = 0) (hL2' : ∀ t k s, cfg'.L2 t k s = 0)
    (o o' : OptState (Nat × String)) (L : Layer) (its₁ its₂ : List (List (Batch sh)))
    (hlr : ∀ t k k', cfg.learnRate (o.step + its₁.length + t) k o.lastScore = cfg'.learnRate (o'.step + t) k' o'.lastScore)
    (hclip : ∀ t k k', cfg.gradClip (o.step + its₁.length + t) k o.lastScore = cfg'.gradClip (o'.step + t) k' o'.lastScore)
    (htakes : TakesAll L (fun t p => cfg.learnRate t (key p) o.lastScore) (fun t p => cfg.gradClip t (key p) o.lastScore) o.step θ
      (its₁ ++ its₂)) :
    ∃ (t₁ t t' : TrainState A) (msg : Msg (Mat ℝ) B) (s'' : LoadState (Mat ℝ) A S) (key' : Fin N → Nat × String) (θ' : Params sh),
      trainLoop L N slot cfg root ⟨h, o⟩ (its₁.map fun bs => bs.map fun b => (b.input, b.lossGrad)) = .ok t₁ ∧
      toDict ops ⟨t₁.nodes, shims⟩ root = .ok msg ∧ fromDict ops s' root' msg = (s'', .ok ()) ∧
      trainLoop L N (moved φ slot) cfg' root' ⟨s''.nodes, o'⟩ (its₂.map fun bs => bs.map fun b => (b.input, b.lossGrad)) = .ok t' ∧
      trainLoop L N slot cfg root ⟨h, o⟩ ((its₁ ++ its₂).map fun bs => bs.map fun b => (b.input, b.lossGrad)) = .ok t ∧
      Wired t.nodes root slot key θ' 0 ∧ Wired t'.nodes root' (moved φ slot) key' θ' 0 := by
  obtain ⟨hT1, hT2⟩ := takesAll_append htakes
  obtain ⟨t₁, e1, -, w1⟩ := C77_sgd hra hb2 hL2 (L := L) ⟨h, o⟩ its₁ H hT1
  have T := trainLoop_trained _ e1
  obtain ⟨msg, s'', key', e2, e3, w2⟩ := load_holds (l.trained T) w1 (T.noneUnset hset)
  obtain ⟨t, e4, -, w3⟩ := C77_sgd hra hb2 hL2 (L := L) ⟨h, o⟩ (its₁ ++ its₂) H htakes
  obtain ⟨t', e5, -, w4⟩ := C77_sgd hra' hb2' hL2' (L := L) ⟨s''.nodes, o'⟩ its₂ w2
    (takesAll_congr (fun t p => hlr t _ _) (fun t p => hclip t _ _) hT2)
  refine ⟨t₁, t, t', msg, s'', key', _, e1, e2, e3, e5, e4, w3, ?_⟩
  rw [List.map_append, descent_append, List.length_map]
  rw [descent_congr (lr' := fun t p => cfg'.learnRate t (key' p) o'.lastScore) (clip' := fun t p => cfg'.gradClip t (key' p) o'.lastScore) (k' := o'.step)
    (fun t p => hlr t _ _) (fun t p => hclip t _ _)]
  exact w4

/-- C125 (saving the averages).  In the middle of training, with any of the optimizers that keep averages, the averaged parameters are saved in a block
`with model.use_params(optimizer.averages)`.  Then a model that is loaded from the message holds the averages.  The model itself holds what it held; and
if it is trained on, the parameters, moments and averages at the end are those of training without the save. -/
theorem C125_averages {S B Sh : Type} (ops : SerOps (Mat ℝ) A S B Sh) (h : Heap (Mat ℝ) A) (shims : List S) (s' : LoadState (Mat ℝ) A S)
    (root' : Addr) (φ ψ : Addr → Addr) {V : Vars sh} (l : LoadableInto ops ⟨h, shims⟩ s' root root' φ ψ) (H : Wired h root slot key V.weights 0)
    (hset : NoneUnset h root) (hu : DistinctIds h root) (hac : Acyclic h) (depth : Nat) (hdepth : h.length < depth)
    (o : OptState (Nat × String)) (avgs : PyDict (Nat × String) Vec) (params : PyDict (Nat × String) (Mat ℝ))
    (hrem : ∀ p, Remembers o (key p) (V p)) (havg : o.averages = some avgs)
    (hparams : ∀ p, ∃ v, avgs.get? (key p) = some v ∧ params.get? (key p) = some (Mat.ofVec (sh p).1 (sh p).2 v))
    (honly : ∀ k, (params.get? k).isSome = true → ∃ p, k = key p) :
    ∃ (msg : Msg (Mat ℝ) B) (h' : Heap (Mat ℝ) A) (s'' : LoadState (Mat ℝ) A S) (key' : Fin N → Nat × String),
      saveWith ops params depth shims root h = (h', .ok msg) ∧ fromDict ops s' root' msg = (s'', .ok ()) ∧
      Wired s''.nodes root' (moved φ slot) key' (fun p => (V p).avg) 0 ∧ Wired h' root slot key V.weights 0 ∧
      ∀ (cfg : OptCfg (Nat × String)) (L : Layer) (iterations : List (List (Batch sh))), cfg.useRadam = false →
        (∀ t k s, 0 < cfg.b2 t k s → 0 < cfg.b1 t k s) → (∀ p, 0 < (sh p).1) → (∀ t k k' s, cfg.hyper t k s = cfg.hyper t k' s) →
        TakesEvery L (fun t p => cfg.hyper t (key p) o.lastScore) cfg.L2IsWeightDecay o.step V iterations →
        ∃ (t t' : TrainState A) (V' : Vars sh),
          trainLoop L N slot cfg root ⟨h, o⟩ (iterations.map fun bs => bs.map fun b => (b.input, b.lossGrad)) = .ok t ∧
          trainLoop L N slot cfg root ⟨h', o⟩ (iterations.map fun bs => bs.map fun b => (b.input, b.lossGrad)) = .ok t' ∧
          Wired t.nodes root slot key V'.weights 0 ∧ Wired t'.nodes root slot key V'.weights 0 ∧
          ∀ p, Remembers t.opt (key p) (V' p) ∧ Remembers t'.opt (key p) (V' p) := by
  have hnode : ∀ p : Fin N, ∀ b n k, Reachable h root b → h[b]? = some n → (n.id, k) = key p → b = (slot p).1 ∧ k = (slot p).2 := by
    intro p b n k hb hn hk
    obtain ⟨h1, m, X, h2, h3, -⟩ := H.param p
    rw [h3] at hk
    exact ⟨hu b _ n m hb h1 hn h2 (Prod.ext_iff.1 hk).1, (Prod.ext_iff.1 hk).2⟩
  have hus : Usable params h root := by
    intro b hb
    obtain ⟨n, h1, h2, -⟩ := H.nodes b hb
    refine ⟨n, h1, h2, fun k _ hs => ?_⟩
    obtain ⟨p, hp⟩ := honly _ hs
    obtain ⟨rfl, rfl⟩ := hnode p b n k hb h1 hp
    obtain ⟨-, m, X, h4, -, -, h5, -⟩ := H.param p
    rw [h1] at h4
    cases h4
    exact ⟨X, h5⟩
  have hcov : ∀ b k, Covered params h root b k ↔ ∃ p : Fin N, slot p = (b, k) := by
    intro b k
    constructor
    · rintro ⟨h1, n, h2, -, h4⟩
      obtain ⟨p, hp⟩ := honly _ h4
      obtain ⟨e1, e2⟩ := hnode p b n k h1 h2 hp
      exact ⟨p, by rw [e1, e2]⟩
    · rintro ⟨p, hp⟩
      obtain ⟨h1, n, X, h2, h3, h4, -⟩ := H.param p
      rw [hp] at h1 h2 h3 h4
      refine ⟨h1, n, h2, h4, ?_⟩
      obtain ⟨v, -, h6⟩ := hparams p
      rw [h3] at h6
      rw [h6]; rfl
  obtain ⟨hin, sw, c⟩ := useParams_spec (R := Msg (Mat ℝ) B) params depth root h hus
    (fun k b p => Nat.lt_of_le_of_lt (acyclic_path_bound hac p) hdepth)
  have Tin : OnlyTrained h hin := by
    have h1 := useParams_trained (R := Msg (Mat ℝ) B) params (fun h => (h, .error .valueError)) (fun h => .refl h) depth root h
    have h2 : useParams params depth root (fun h => (h, .error .valueError)) h = (hin, (.error .valueError : Except PyErr (Msg (Mat ℝ) B))) :=
      (c (fun h => (h, .error .valueError)) hin (.error .valueError) rfl).1 _ rfl
    rw [h2] at h1
    exact h1
  have Hin : Wired hin root slot key (fun p => (V p).avg) 0 := by
    refine wired_values H Tin (fun a n n' hn hn' => ?_) (fun a n n' k X ha hn hn' hX => ?_) (fun p n n' hn hn' => ?_)
    · obtain ⟨m, h1, h2, -⟩ := sw.node a n hn
      rw [hn'] at h1
      cases h1
      rw [h2]
    · obtain ⟨m, h1, -, -, h4, h5⟩ := sw.node a n hn
      rw [hn'] at h1
      cases h1
      by_cases hk : Covered params h root a k
      · obtain ⟨-, v, -, hv⟩ := h4 k hk
        exact ⟨v, hv⟩
      · exact ⟨X, (h5 k hk).2.trans hX⟩
    · obtain ⟨m, h1, -, -, h4, -⟩ := sw.node _ n hn
      rw [hn'] at h1
      cases h1
      obtain ⟨-, v, hv, hv'⟩ := h4 _ ((hcov _ _).2 ⟨p, rfl⟩)
      obtain ⟨-, n0, X, q1, q2, -⟩ := H.param p
      rw [hn] at q1
      cases q1
      obtain ⟨u, q3, q4⟩ := hparams p
      rw [q2, hv] at q4
      refine ⟨v, hv', ?_⟩
      cases q4
      have := (hrem p).avg avgs havg
      rw [q3] at this
      exact ofVec_isMat this
  obtain ⟨msg, s'', key', e1, e2, e3⟩ := load_holds (l.trained Tin) Hin (Tin.noneUnset hset)
  obtain ⟨h', e4, r⟩ := (c (saveBody ops shims root) hin (.ok msg) (by simp only [saveBody, e1])).2 msg rfl fun b n hn => ⟨n, hn, rfl⟩
  have T' : OnlyTrained h h' := by
    have h1 := useParams_trained params (saveBody ops shims root) (fun h => .refl h) depth root h
    have h2 : useParams params depth root (saveBody ops shims root) h = (h', .ok msg) := e4
    rw [h2] at h1
    exact h1
  have H' : Wired h' root slot key V.weights 0 := by
    have hget : ∀ (a : Addr) n n' k, h[a]? = some n → h'[a]? = some n' → n'.getParam k = n.getParam k ∧ n'.grads = n.grads := by
      intro a n n' k hn hn'
      obtain ⟨m, h1, h2, -, -, h5⟩ := sw.node a n hn
      obtain ⟨n1, h6, h7, h8, h9⟩ := r.node a n m hn h1
      rw [hn'] at h6
      cases h6
      refine ⟨?_, by rw [h7, h2]⟩
      by_cases hk : Covered params h root a k
      · exact (h8 k hk).2
      · exact (h9 k hk).2.trans (h5 k hk).2
    refine wired_values H T' (fun a n n' hn hn' => (hget a n n' "" hn hn').2)
      (fun a n n' k X ha hn hn' hX => ⟨X, (hget a n n' k hn hn').1.trans hX⟩) (fun p n n' hn hn' => ?_)
    obtain ⟨-, n0, X, q1, -, -, q4, q5⟩ := H.param p
    rw [hn] at q1
    cases q1
    exact ⟨X, (hget _ n n' _ hn hn').1.trans q4, q5⟩
  refine ⟨msg, h', s'', key', e4, e2, e3, H', fun cfg L iterations hra hb hsh hkey htakes => ?_⟩
  exact C117_adam hra hb hsh hkey (L := L) (S := V) ⟨h, o⟩ ⟨h', o⟩ rfl rfl iterations H hu hrem H' (T'.distinctIds hu) hrem htakes

end Thinc
