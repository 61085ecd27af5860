import Verif.Lemmas.Adam
import Verif.Lemmas.Initialize
/-!
# C90: training with Adam, regularisation, clipping and averages
-/
namespace Thinc
open Spec Spec.Tensor

section
variable {N : ℕ} {sh : Fin N → ℕ × ℕ} {A O : Type}
variable {h : Heap (Mat ℝ) A} {root : Addr} {slot : Slots} {key : Fin N → Nat × String} {θ g : Params sh}

/-- `finish_update` with any optimizer, if every parameter has a gradient. -/
theorem finishUpdate_wired (opt : OptFn O (Mat ℝ)) (H : Wired h root slot key θ g)
    (hfull : ∀ (p : Fin N) n, h[(slot p).1]? = some n → n.hasGrad (slot p).2 = true) (o : O) :
    ∃ (calls : List (OptCall (Mat ℝ))) (s : FUState O (Mat ℝ) A), Owed h root calls ∧
      finishUpdate opt (fun s _ => (s, .ok ())) h o () root = ((s, ()), .ok ()) ∧
      s.opt = (runCalls opt o calls).1 ∧ (∀ a b, Reachable s.nodes a b ↔ Reachable h a b) ∧
      (∀ (b : Addr) n', s.nodes[b]? = some n' → ∃ n, h[b]? = some n ∧ n'.id = n.id) ∧
      (∀ p : Fin N, ∃ (i : ℕ) (X D : Mat ℝ), calls[i]? = some ⟨(slot p).1, (key p).1, (key p).2, X, D⟩ ∧ (key p).2 = (slot p).2 ∧
        IsMat X (θ p) ∧ IsMat D (g p)) ∧
      ∀ θ' g' : Params sh, (∀ (p : Fin N) (i : ℕ) c r, calls[i]? = some c → (c.node, c.name) = slot p →
        (runCalls opt o calls).2[i]? = some r → IsMat r.1 (θ' p) ∧ IsMat r.2 (g' p)) → Wired s.nodes root slot key θ' g' := by
  have hshim : ∀ (as : List Addr) (q : O × Unit), (∀ a ∈ as, ∃ n, h[a]? = some n) →
      loopE (updateShims (fun s _ => (s, .ok ())) h) as q = (q, .ok ()) := by
    intro as q has
    induction as with
    | nil => rfl
    | cons a as ih =>
      obtain ⟨n, hn⟩ := has a (by simp)
      have h1 : ∀ xs : List Addr, loopE (fun (s : O × Unit) (_ : Addr) => (s, Except.ok (ε := PyErr) ())) xs q = (q, .ok ()) := by
        intro xs
        induction xs with
        | nil => rfl
        | cons x xs ih => simp only [loopE, ih]
      simp only [loopE, updateShims, hn, h1]
      exact ih fun b hb => has b (by simp [hb])
  obtain ⟨calls, s, ho, he, hs, hcalled, hnode, hnone⟩ := C15_finish_update opt (fun s _ => (s, .ok ())) h o o () () root
    H.nodes (hshim _ _ fun a ha => by
      obtain ⟨n, hn, -⟩ := H.nodes a ((mem_walkBfs h root a).1 ha)
      exact ⟨n, hn⟩)
  have hreach : ∀ a b, Reachable s.nodes a b ↔ Reachable h a b := by
    have : Child s.nodes = Child h := by
      funext x y
      apply propext
      unfold Child
      cases e : h[x]? with
      | none => simp [hnone x e]
      | some n =>
        obtain ⟨n', e1, e2, -⟩ := hnode x n e
        have : n'.layers = n.layers := by rw [e2]
        simp [e1, this]
    intro a b
    unfold Reachable
    rw [this]
  have hslot : ∀ p : Fin N, ∃ (i : ℕ) (X D : Mat ℝ), calls[i]? = some ⟨(slot p).1, (key p).1, (key p).2, X, D⟩ ∧ (key p).2 = (slot p).2 ∧
        IsMat X (θ p) ∧ IsMat D (g p) := by
    intro p
    obtain ⟨hr, n, X, e1, hk, hnm, e2, hX⟩ := H.param p
    rcases H.grad p n e1 with ⟨h1, h2⟩ | ⟨D, h1, h2⟩
    · rw [hfull p n e1] at h1
      cases h1
    · have hc : (⟨(slot p).1, n.id, (slot p).2, X, D⟩ : OptCall (Mat ℝ)) ∈ calls :=
        (ho.exact _).2 ⟨hr, n, e1, rfl, hnm, e2, h1⟩
      obtain ⟨i, hi⟩ := List.mem_iff_getElem?.1 hc
      exact ⟨i, X, D, by rw [hk]; exact hi, by rw [hk], hX, h2⟩
  have hres : ∀ (i : ℕ) c, calls[i]? = some c → ∃ r, (runCalls opt o calls).2[i]? = some r := by
    intro i c hi
    have : i < (runCalls opt o calls).2.length := by
      rw [runCalls_length]
      exact (List.getElem?_eq_some_iff.1 hi).1
    exact ⟨_, List.getElem?_eq_getElem this⟩
  refine ⟨calls, s, ho, he, hs, hreach, ?_, hslot, ?_⟩
  · intro b n' hb
    cases e : h[b]? with
    | none => rw [hnone b e] at hb; cases hb
    | some n =>
      obtain ⟨m, e1, e2, -⟩ := hnode b n e
      rw [hb] at e1
      cases e1
      exact ⟨n, rfl, by rw [e2]⟩
  intro θ' g' hnew
  refine ⟨H.distinct, ?_, ?_, ?_⟩
  · intro a ha
    obtain ⟨n, e1, h2, h3⟩ := H.nodes a ((hreach _ _).1 ha)
    obtain ⟨n', e2, e3, e4, e5⟩ := hnode a n e1
    refine ⟨n', e2, by rw [e4]; exact h2, ?_⟩
    intro k hk hgk
    by_cases hc : ∃ c ∈ calls, c.node = a ∧ c.name = k
    · obtain ⟨c, hc1, rfl, rfl⟩ := hc
      obtain ⟨i, hi⟩ := List.mem_iff_getElem?.1 hc1
      obtain ⟨r, hr⟩ := hres i c hi
      obtain ⟨m, f1, -, f3, -⟩ := hcalled i c _ hi hr
      rw [e2] at f1
      cases f1
      exact ⟨_, f3⟩
    · obtain ⟨g1, -, g3⟩ := e5 k fun c hc1 hc2 => hc ⟨c, hc1, hc2⟩
      rw [g1]
      refine h3 k (e4 ▸ hk) ?_
      rw [hasGrad_iff] at hgk ⊢
      rwa [g3] at hgk
  · intro p
    obtain ⟨hr, n, X, e1, hk, hnm, e2, hX⟩ := H.param p
    refine ⟨(hreach _ _).2 hr, ?_⟩
    obtain ⟨n', f1, f2, f3, f4⟩ := hnode _ n e1
    have hid : n'.id = n.id := by rw [f2]
    obtain ⟨i, X', D', hi, hk2, -, -⟩ := hslot p
    obtain ⟨r, hr⟩ := hres i _ hi
    obtain ⟨m, q1, -, q3, -⟩ := hcalled i _ _ hi hr
    rw [f1] at q1
    cases q1
    rw [hk2] at q3
    exact ⟨n', _, f1, by rw [hid]; exact hk, by rw [f3]; exact hnm, q3, (hnew p i _ r hi (by rw [hk2]) hr).1⟩
  · intro p n' f1'
    obtain ⟨i, X', D', hi, hk2, -, -⟩ := hslot p
    obtain ⟨r, hr⟩ := hres i _ hi
    obtain ⟨m, q1, -, -, q4⟩ := hcalled i _ _ hi hr
    rw [f1'] at q1
    cases q1
    rw [hk2] at q4
    exact Or.inr ⟨_, q4, (hnew p i _ r hi (by rw [hk2]) hr).2⟩

/-- Different calls have different keys. -/
theorem calls_nodup {calls : List (OptCall (Mat ℝ))} (ho : Owed h root calls) (hu : DistinctIds h root) :
    (calls.map fun c => (c.id, c.name)).Nodup := by
  have h1 := ho.once
  have h2 : ∀ c ∈ calls, ∀ d ∈ calls, (c.id, c.name) = (d.id, d.name) → (c.node, c.name) = (d.node, d.name) := by
    intro c hc d hd e
    obtain ⟨r1, n, e1, i1, -⟩ := (ho.exact c).1 hc
    obtain ⟨r2, m, e2, i2, -⟩ := (ho.exact d).1 hd
    have e3 := congrArg Prod.fst e
    have e4 := congrArg Prod.snd e
    simp only at e3 e4
    rw [hu _ _ n m r1 r2 e1 e2 (by rw [← i1, ← i2, e3]), e4]
  rw [List.nodup_map_iff_inj_on]
  · intro c hc d hd e
    have := List.inj_on_of_nodup_map h1 hc hd (h2 c hc d hd e)
    exact this
  · exact List.Nodup.of_map _ h1

theorem finishUpdate_step {cfg : OptCfg (Nat × String)} (hra : cfg.useRadam = false)
    (hb : ∀ t k s, 0 < cfg.b2 t k s → 0 < cfg.b1 t k s) (hsh : ∀ p, 0 < (sh p).1) {S : Vars sh}
    (H : Wired h root slot key S.weights g) (hu : DistinctIds h root)
    (hfull : ∀ (p : Fin N) n, h[(slot p).1]? = some n → n.hasGrad (slot p).2 = true) (st : OptState (Nat × String))
    (hrem : ∀ p, Remembers st (key p) (S p)) {S' : Vars sh}
    (hS' : S' = fun p => (S p).step (cfg.hyper st.step (key p) st.lastScore) cfg.L2IsWeightDecay (g p)) :
    ∃ s : FUState (OptState (Nat × String)) (Mat ℝ) A,
      finishUpdate (optimizerFn cfg) (fun s _ => (s, .ok ())) h st () root = ((s, ()), .ok ()) ∧
      s.opt.step = st.step ∧ s.opt.lastScore = st.lastScore ∧ DistinctIds s.nodes root ∧
      Wired s.nodes root slot key S'.weights 0 ∧ ∀ p, Remembers s.opt (key p) (S' p) := by
  obtain ⟨calls, s, ho, he, hs, hreach, hids, hslot, hwired⟩ := finishUpdate_wired (optimizerFn cfg) H hfull st
  have hnd := calls_nodup ho hu
  obtain ⟨hno, hyes⟩ := runCalls_keys (cfg := cfg) st calls hnd
  obtain ⟨k0, hk0⟩ := Infinite.exists_notMem_finset (calls.map fun c => (c.id, c.name)).toFinset
  have ha := hno k0 fun hm => hk0 (List.mem_toFinset.2 hm)
  have hcall : ∀ p : Fin N, ∃ (i : ℕ) (X D : Mat ℝ) (st' : OptState (Nat × String)),
      calls[i]? = some ⟨(slot p).1, (key p).1, (key p).2, X, D⟩ ∧ (key p).2 = (slot p).2 ∧
      (runCalls (optimizerFn cfg) st calls).2[i]? = some (optimizerFn cfg st' (key p) X D).2 ∧
      IsMat (optimizerFn cfg st' (key p) X D).2.1 (S' p).w ∧ IsMat (optimizerFn cfg st' (key p) X D).2.2 (0 : Fin (sh p).1 → Fin (sh p).2 → ℝ) ∧
      Remembers s.opt (key p) (S' p) := by
    intro p
    obtain ⟨i, X, D, hi, hk2, hX, hD⟩ := hslot p
    obtain ⟨st', a1, r1, a2⟩ := hyes i _ hi
    obtain ⟨c1, c2, c3⟩ := optimizerFn_step hra (hsh p) (hb _ _ _) ((hrem p).congr a1) hX hD
    rw [a1.step, a1.score] at c1 c2
    rw [hs, hS']
    exact ⟨i, X, D, st', hi, hk2, r1, c2, c3, c1.congr a2⟩
  refine ⟨s, he, by rw [hs]; exact ha.step, by rw [hs]; exact ha.score, ?_, ?_, fun p => ?_⟩
  · intro a b n m r1 r2 e1 e2 hid
    obtain ⟨n', f1, i1⟩ := hids a n e1
    obtain ⟨m', f2, i2⟩ := hids b m e2
    exact hu a b n' m' ((hreach _ _).1 r1) ((hreach _ _).1 r2) f1 f2 (by rw [← i1, ← i2, hid])
  · apply hwired
    intro p i c r hi hc hr
    obtain ⟨i', X, D, st', hi', hk2, hr', hw, hg, -⟩ := hcall p
    have hii : i = i' := by
      have l1 := (List.getElem?_eq_some_iff.1 hi).1
      have l2 := (List.getElem?_eq_some_iff.1 hi').1
      have e1 : (calls.map fun c => (c.node, c.name))[i]? = some (slot p) := by rw [List.getElem?_map, hi, Option.map_some, hc]
      have e2 : (calls.map fun c => (c.node, c.name))[i']? = some (slot p) := by
        rw [List.getElem?_map, hi', Option.map_some, hk2]
      exact (List.getElem?_inj (by simpa using l1) ho.once).1 (e1.trans e2.symm)
    subst hii
    rw [hr'] at hr
    cases hr
    exact ⟨hw, hg⟩
  · obtain ⟨-, -, -, -, -, -, -, -, -, hrm⟩ := hcall p
    exact hrm

theorem DistinctIds_onlyGrads {h h' : Heap (Mat ℝ) A} (ho : OnlyGrads h h') (hu : DistinctIds h root) : DistinctIds h' root := by
  have hn : ∀ (a : Addr) n, h'[a]? = some n → ∃ n', h[a]? = some n' ∧ n.id = n'.id := by
    intro a n e
    rcases ho a with ⟨e1, e2⟩ | ⟨n', gs, e1, e2⟩
    · rw [e] at e2; cases e2
    · rw [e] at e2
      cases e2
      exact ⟨n', e1, rfl⟩
  intro a b n m r1 r2 e1 e2 hid
  obtain ⟨n', f1, i1⟩ := hn a n e1
  obtain ⟨m', f2, i2⟩ := hn b m e2
  exact hu a b n' m' ((ho.reachable _ _).1 r1) ((ho.reachable _ _).1 r2) f1 f2 (by rw [← i1, ← i2, hid])

/-- One batch adds its gradient, and leaves one for every parameter. -/
theorem backpropBatch_full {L : Layer} {b : Batch sh} (H : Wired h root slot key θ g) (hu : DistinctIds h root) (hb : TakesFully L θ b) :
    ∃ h', backpropBatch L N slot h (b.input, b.lossGrad) = .ok h' ∧ Wired h' root slot key θ (g + gradient b.loss θ) ∧
      DistinctIds h' root ∧ ∀ (p : Fin N) n, h'[(slot p).1]? = some n → n.hasGrad (slot p).2 = true := by
  obtain ⟨Y, cb, D, back, e1, e2, hv, hc⟩ := hb _ H.isParams
  obtain ⟨dv, G, e3, hG, hfull⟩ := hc _ g H.isGrads
  obtain ⟨i1, i2, i3⟩ := writeGrads_spec slot G h N fun p hp q hq e =>
    congrArg Fin.val (H.distinct ⟨p, hp⟩ ⟨q, hq⟩ e)
  refine ⟨Thinc.writeGrads N slot G h, ?_, ?_, DistinctIds_onlyGrads i1 hu, ?_⟩
  · simp only [backpropBatch, e1, e2, e3, bind, Except.bind, pure, Except.pure]
  · rw [← gradient_of_IsVJP hv]
    exact H.writeGrads hG
  · intro p n e
    obtain ⟨-, n0, X, e0, -⟩ := H.param p
    have h4 := i2 p p.2 (by rw [e0]; simp)
    rw [gradAt_some e] at h4
    cases hGp : G p with
    | none => exact absurd hGp (hfull p)
    | some D =>
      rw [hGp] at h4
      exact (hasGrad_iff _ _).2 ⟨D, getGrad_ok_iff.2 h4⟩

theorem backpropBatches_full {L : Layer} (bs : List (Batch sh)) (hne : bs ≠ []) (H : Wired h root slot key θ g) (hu : DistinctIds h root)
    (hb : ∀ b ∈ bs, TakesFully L θ b) :
    ∃ h', (bs.map fun b => (b.input, b.lossGrad)).foldlM (backpropBatch L N slot) h = .ok h' ∧
      Wired h' root slot key θ (g + totalGradient (bs.map Batch.loss) θ) ∧
      DistinctIds h' root ∧ ∀ (p : Fin N) n, h'[(slot p).1]? = some n → n.hasGrad (slot p).2 = true := by
  induction bs generalizing h g with
  | nil => exact absurd rfl hne
  | cons b bs ih =>
    obtain ⟨h1, e1, H1, u1, f1⟩ := backpropBatch_full H hu (hb b (by simp))
    cases bs with
    | nil =>
      refine ⟨h1, ?_, ?_, u1, f1⟩
      · simp only [List.map_cons, List.map_nil, List.foldlM_cons, e1]
        rfl
      · simpa [totalGradient] using H1
    | cons c cs =>
      obtain ⟨h2, e2, H2, u2, f2⟩ := ih (by simp) H1 u1 fun c hc => hb c (by simp [hc])
      refine ⟨h2, ?_, ?_, u2, f2⟩
      · rw [List.map_cons, List.foldlM_cons, e1]
        exact e2
      · rw [add_assoc] at H2
        exact H2

/-- Training with an optimizer is Adam.  Let a model hold parameters, no (or zero) gradients and nodes with different ids, and
let it be trained for any number of iterations, each on any positive number of batches, with any schedules of learning rate,
betas, eps, L2 and gradient clipping, the L2 penalty as weight decay or as part of the gradient.  Then training does not raise,
and afterwards the model holds exactly the parameters that Adam (gradient descent, if the betas are zero) gives on the summed
losses of each iteration; the optimizer holds the moments, the step count and, if it keeps them, the running averages of each
parameter; and the gradients are zero again. -/
theorem C90_adam {cfg : OptCfg (Nat × String)} (hra : cfg.useRadam = false)
    (hb : ∀ t k s, 0 < cfg.b2 t k s → 0 < cfg.b1 t k s) (hsh : ∀ p, 0 < (sh p).1) {L : Layer} (s : TrainState A) {S : Vars sh}
    (iterations : List (List (Batch sh))) (H : Wired s.nodes root slot key S.weights 0) (hu : DistinctIds s.nodes root)
    (hrem : ∀ p, Remembers s.opt (key p) (S p))
    (htakes : TakesEvery L (fun t p => cfg.hyper t (key p) s.opt.lastScore) cfg.L2IsWeightDecay s.opt.step S iterations) :
    ∃ s', trainLoop L N slot cfg root s (iterations.map fun bs => bs.map fun b => (b.input, b.lossGrad)) = .ok s' ∧
      s'.opt.step = s.opt.step + iterations.length ∧
      Wired s'.nodes root slot key (Vars.train (fun t p => cfg.hyper t (key p) s.opt.lastScore) cfg.L2IsWeightDecay s.opt.step S
        (iterations.map fun bs => bs.map Batch.loss)).weights 0 ∧
      ∀ p, Remembers s'.opt (key p) (Vars.train (fun t p => cfg.hyper t (key p) s.opt.lastScore) cfg.L2IsWeightDecay s.opt.step S
        (iterations.map fun bs => bs.map Batch.loss) p) := by
  induction iterations generalizing s S with
  | nil => exact ⟨s, rfl, rfl, H, hrem⟩
  | cons bs its ih =>
    obtain ⟨hne, hbs, hrest⟩ := htakes
    obtain ⟨h1, e1, H1, u1, f1⟩ := backpropBatches_full bs hne H hu hbs
    rw [zero_add] at H1
    obtain ⟨fu, e2, s2, s3, u2, H2, r2⟩ := finishUpdate_step hra hb hsh H1 u1 f1 s.opt hrem
      (S' := S.iterate (fun p => cfg.hyper s.opt.step (key p) s.opt.lastScore) cfg.L2IsWeightDecay (bs.map Batch.loss)) rfl
    have e3 : trainIteration L N slot cfg root s (bs.map fun b => (b.input, b.lossGrad)) =
        .ok ⟨fu.nodes, { fu.opt with step := fu.opt.step + 1 }⟩ := by
      simp only [trainIteration, e1, bind, Except.bind, e2]
      rfl
    obtain ⟨s', e4, q1, q2, q3⟩ := ih ⟨fu.nodes, { fu.opt with step := fu.opt.step + 1 }⟩ H2 u2
      (fun p => ⟨(r2 p).count, (r2 p).m1, (r2 p).m2, (r2 p).avg⟩) (by simpa only [s2, s3] using hrest)
    refine ⟨s', ?_, ?_, ?_, ?_⟩
    · simp only [trainLoop, List.map_cons, List.foldlM_cons, e3, bind, Except.bind]
      exact e4
    · rw [q1, s2]
      simp only [List.length_cons]
      omega
    · simp only [s2, s3] at q2
      exact q2
    · simp only [s2, s3] at q3
      exact q3

/-- A new optimizer remembers nothing. -/
theorem C90_fresh (useAverages : Bool) (key : Fin N → Nat × String) (θ : Params sh) (p : Fin N) :
    Remembers (OptState.init useAverages) (key p) (Var.fresh (θ p)) := by
  refine ⟨rfl, isFlat_replicate, isFlat_replicate, fun avgs h => ?_⟩
  cases useAverages with
  | false => simp [OptState.init] at h
  | true =>
    simp [OptState.init] at h
    subst h
    exact isFlat_replicate

/-- Batches of a layer that fills the gradients of all parameters. -/
theorem C90_takes {L : Layer} {b : Batch sh} (hb : Takes L θ b) {ps : List ℕ} (hL : Fills L ps) (hps : ∀ p : Fin N, (p : ℕ) ∈ ps) :
    TakesFully L θ b := by
  intro P hP
  obtain ⟨Y, cb, D, back, e1, e2, hv, hc⟩ := hb P hP
  refine ⟨Y, cb, D, back, e1, e2, hv, fun G g hG => ?_⟩
  obtain ⟨dv, G', e3, hG'⟩ := hc G g hG
  exact ⟨dv, G', e3, hG', fun p => (hL _ _ _ _ _ e1 _ _ _ _ e3).2 p (hps p)⟩
end

/-! ### Layers that fill the gradients of their parameters -/

theorem incGrad_fills {G G' : GradStore} {p : ℕ} {v : Mat ℝ} (h : incGrad G p v = .ok G') :
    (∀ q, G q ≠ none → G' q ≠ none) ∧ G' p ≠ none := by
  unfold incGrad at h
  cases e : G p with
  | none =>
    rw [e] at h
    cases h
    refine ⟨fun q hq => ?_, by simp⟩
    by_cases hqp : q = p
    · simp [hqp]
    · simpa [hqp] using hq
  | some g =>
    rw [e] at h
    obtain ⟨g', -, h⟩ := bind_ok h
    cases h
    refine ⟨fun q hq => ?_, by simp⟩
    by_cases hqp : q = p
    · simp [hqp]
    · simpa [hqp] using hq

theorem incGrad_two {G G1 G2 : GradStore} {p q : ℕ} {v w : Mat ℝ} (h1 : incGrad G p v = .ok G1) (h2 : incGrad G1 q w = .ok G2) :
    (∀ r, G r ≠ none → G2 r ≠ none) ∧ G2 p ≠ none ∧ G2 q ≠ none := by
  obtain ⟨a1, a2⟩ := incGrad_fills h1
  obtain ⟨b1, b2⟩ := incGrad_fills h2
  exact ⟨fun r hr => b1 r (a1 r hr), b1 p a2, b2⟩

theorem denseBackprop_fills {W b : ℕ} {bFirst : Bool} {P : ParamVals} {X dY : Mat ℝ} {G G' : GradStore} {dv : Val}
    (h : denseBackprop W b bFirst P X dY G = .ok (dv, G')) : (∀ q, G q ≠ none → G' q ≠ none) ∧ ∀ q ∈ [W, b], G' q ≠ none := by
  have two : ∀ {G'' : GradStore}, (∀ r, G r ≠ none → G'' r ≠ none) ∧ G'' b ≠ none ∧ G'' W ≠ none →
      (∀ q, G q ≠ none → G'' q ≠ none) ∧ ∀ q ∈ [W, b], G'' q ≠ none := by
    rintro G'' ⟨h1, h2, h3⟩
    refine ⟨h1, fun q hq => ?_⟩
    simp only [List.mem_cons, List.not_mem_nil, or_false] at hq
    rcases hq with rfl | rfl
    · exact h3
    · exact h2
  cases bFirst with
  | true =>
    obtain ⟨G1, e1, h⟩ := bind_ok h
    simp only [if_true] at e1 h
    obtain ⟨d, -, h⟩ := bind_ok h
    obtain ⟨G2, e2, h⟩ := bind_ok h
    obtain ⟨dx, -, h⟩ := bind_ok h
    cases h
    exact two (incGrad_two e1 e2)
  | false =>
    obtain ⟨d, -, h⟩ := bind_ok h
    obtain ⟨G1, e1, h⟩ := bind_ok h
    simp only [Bool.false_eq_true, if_false] at e1 h
    obtain ⟨G2, e2, h⟩ := bind_ok h
    obtain ⟨dx, -, h⟩ := bind_ok h
    cases h
    obtain ⟨a1, a2, a3⟩ := incGrad_two e1 e2
    exact two ⟨a1, a3, a2⟩

/-- Linear fills both gradients. -/
theorem C90_linear_fills (W b : ℕ) : Fills (linear W b) [W, b] := by
  intro train P v Y cb h D G dv G' hc
  obtain ⟨X, -, h⟩ := bind_ok h
  obtain ⟨Y1, -, h⟩ := bind_ok h
  obtain ⟨Y2, -, h⟩ := bind_ok h
  cases h
  obtain ⟨dY, -, hc⟩ := bind_ok hc
  obtain ⟨G1, e1, hc⟩ := bind_ok hc
  obtain ⟨d, -, hc⟩ := bind_ok hc
  obtain ⟨G2, e2, hc⟩ := bind_ok hc
  obtain ⟨dx, -, hc⟩ := bind_ok hc
  cases hc
  obtain ⟨a1, a2, a3⟩ := incGrad_two e1 e2
  refine ⟨a1, fun q hq => ?_⟩
  simp only [List.mem_cons, List.not_mem_nil, or_false] at hq
  rcases hq with rfl | rfl
  · exact a3
  · exact a2

/-- So do the layers with an activation: Relu, Sigmoid, Swish, Gelu, Mish, and so on. -/
theorem C90_dense_fills (W b : ℕ) (bFirst : Bool) (act : (ℕ → ℝ) → ℕ → ℝ) (back : Mat ℝ → Mat ℝ → Mat ℝ → Mat ℝ → Except PyErr (Mat ℝ)) :
    Fills (dense W b bFirst act back) [W, b] := by
  intro train P v Y cb h D G dv G' hc
  obtain ⟨X, -, h⟩ := bind_ok h
  obtain ⟨Y1, -, h⟩ := bind_ok h
  cases h
  obtain ⟨dY, -, hc⟩ := bind_ok hc
  obtain ⟨dY2, -, hc⟩ := bind_ok hc
  exact denseBackprop_fills hc

/-- And Softmax. -/
theorem C90_softmax_fills (W b : ℕ) (normalize : Bool) (T : ℝ) : Fills (softmaxLayer W b normalize T) [W, b] := by
  intro train P v Y cb h D G dv G' hc
  obtain ⟨X, -, h⟩ := bind_ok h
  by_cases hT : T ≤ 0
  · rw [if_pos hT] at h
    cases h
  rw [if_neg hT] at h
  obtain ⟨Y1, -, h⟩ := bind_ok h
  by_cases hn : (normalize || train) = true
  · rw [if_pos hn] at h
    obtain ⟨Y2, -, h⟩ := bind_ok h
    cases h
    obtain ⟨dY, -, hc⟩ := bind_ok hc
    obtain ⟨-, -, hc⟩ := bind_ok hc
    exact denseBackprop_fills hc
  · rw [if_neg hn] at h
    cases h
    cases hc

theorem forM_fills {cbs : List Callback} {pss : List (List ℕ)} (hcs : List.Forall₂ (fun (cb : Callback) ps => ∀ D G dv G', cb D G = .ok (dv, G') →
      (∀ q, G q ≠ none → G' q ≠ none) ∧ ∀ q ∈ ps, G' q ≠ none) cbs pss) {D dv : Val} {G G' : GradStore}
    (h : forM' cbs (D, G) (fun (dY, G) callback => callback dY G) = .ok (dv, G')) :
    (∀ q, G q ≠ none → G' q ≠ none) ∧ ∀ q ∈ pss.flatten, G' q ≠ none := by
  induction hcs generalizing D G with
  | nil => cases h; exact ⟨fun _ h => h, by simp⟩
  | @cons cb ps cbs pss hc _ ih =>
    unfold forM' at h
    simp only at h
    cases e : cb D G with
    | error e' => rw [e] at h; cases h
    | ok s =>
      obtain ⟨D1, G1⟩ := s
      rw [e] at h
      obtain ⟨a1, a2⟩ := hc _ _ _ _ e
      obtain ⟨b1, b2⟩ := ih h
      refine ⟨fun q hq => b1 q (a1 q hq), fun q hq => ?_⟩
      rw [List.flatten_cons, List.mem_append] at hq
      rcases hq with hq | hq
      · exact b1 q (a2 q hq)
      · exact b2 q hq

theorem chainLoop_fills {train : Bool} {P : ParamVals} {Ls : List Layer} {pss : List (List ℕ)} (hL : List.Forall₂ Fills Ls pss)
    {X Y : Val} {cbs0 cbs : List Callback} (h : chainLoop train P Ls X cbs0 = .ok (Y, cbs)) :
    ∃ cbs1, cbs = cbs0 ++ cbs1 ∧ List.Forall₂ (fun (cb : Callback) ps => ∀ D G dv G', cb D G = .ok (dv, G') →
      (∀ q, G q ≠ none → G' q ≠ none) ∧ ∀ q ∈ ps, G' q ≠ none) cbs1 pss := by
  induction hL generalizing X cbs0 with
  | nil => cases h; exact ⟨[], by simp, .nil⟩
  | @cons L ps Ls pss hc _ ih =>
    obtain ⟨⟨Y1, cb⟩, e, h⟩ := bind_ok h
    obtain ⟨cbs1, e1, h1⟩ := ih h
    exact ⟨cb :: cbs1, by rw [e1]; simp, .cons (hc _ _ _ _ _ e) h1⟩

/-- A chain fills what its layers fill. -/
theorem C90_chain_fills {Ls : List Layer} {pss : List (List ℕ)} (hL : List.Forall₂ Fills Ls pss) : Fills (chain Ls) pss.flatten := by
  intro train P v Y cb h D G dv G' hc
  unfold chain at h
  by_cases hne : Ls.isEmpty = true
  · rw [if_pos hne] at h
    cases h
  rw [if_neg hne] at h
  obtain ⟨⟨Y1, cbs⟩, e, h⟩ := bind_ok h
  cases h
  obtain ⟨cbs1, e1, h1⟩ := chainLoop_fills hL e
  rw [List.nil_append] at e1
  subst e1
  have h2 : List.Forall₂ (fun (cb : Callback) ps => ∀ D G dv G', cb D G = .ok (dv, G') →
      (∀ q, G q ≠ none → G' q ≠ none) ∧ ∀ q ∈ ps, G' q ≠ none) cbs.reverse pss.reverse := List.rel_reverse h1
  obtain ⟨a1, a2⟩ := forM_fills h2 hc
  refine ⟨a1, fun q hq => a2 q ?_⟩
  rw [List.mem_flatten] at hq ⊢
  obtain ⟨l, hl, hq⟩ := hq
  exact ⟨l, List.mem_reverse.2 hl, hq⟩

/-! ### An example: linear regression with Adam -/

/-- Adam with learning rate `1 / (t + 2)` at step `t`, weight decay, and gradients clipped to 1. -/
noncomputable def exAdamTrain : OptCfg (Nat × String) :=
  ⟨fun t _ _ => 1 / (t + 2), fun _ _ _ => 0.9, fun _ _ _ => 0.999, fun _ _ _ => 0.001, fun _ _ _ => 0.01, fun _ _ _ => 1, false, true⟩

/-- Non-vacuity of C90: linear regression with L2Distance, for any data, with running averages. -/
example (iterations : List (List (ℝ × ℝ))) (hne : ∀ bs ∈ iterations, bs ≠ []) :
    ∃ s', trainLoop (linear 0 1) 2 exLinearSlots exAdamTrain 0 ⟨exLinearHeap, OptState.init true⟩
        ((iterations.map fun bs => bs.map fun b => exLinearBatch b.1 b.2).map fun bs => bs.map fun b => (b.input, b.lossGrad)) = .ok s' ∧
      s'.opt.step = 0 + (iterations.map fun bs => bs.map fun b => exLinearBatch b.1 b.2).length ∧
      Wired s'.nodes 0 exLinearSlots exLinearKey
        (Vars.train (fun t p => exAdamTrain.hyper t (exLinearKey p) none) true 0 (fun _ => Var.fresh 0)
          ((iterations.map fun bs => bs.map fun b => exLinearBatch b.1 b.2).map fun bs => bs.map Batch.loss)).weights 0 ∧
      ∀ p, Remembers s'.opt (exLinearKey p)
        (Vars.train (fun t p => exAdamTrain.hyper t (exLinearKey p) none) true 0 (fun _ => Var.fresh 0)
          ((iterations.map fun bs => bs.map fun b => exLinearBatch b.1 b.2).map fun bs => bs.map Batch.loss) p) := by
  have hu : DistinctIds exLinearHeap 0 := by
    intro a b n m _ _ e1 e2 _
    have h1 : ∀ (a : Nat) n, exLinearHeap[a]? = some n → a = 0 := by
      intro a n e
      have := (List.getElem?_eq_some_iff.1 e).1
      simp only [exLinearHeap, List.length_cons, List.length_nil] at this
      omega
    exact (h1 a n e1).trans (h1 b m e2).symm
  refine C90_adam (cfg := exAdamTrain) rfl (fun _ _ _ _ => by norm_num [exAdamTrain]) (fun _ => Nat.one_pos) (L := linear 0 1)
    ⟨exLinearHeap, OptState.init true⟩ (S := fun _ => Var.fresh 0) _ exLinear_wired hu (fun p => C90_fresh (sh := fun _ : Fin 2 => (1, 1)) true exLinearKey (fun _ => 0) p) ?_
  have : ∀ (k : ℕ) (S : Vars fun _ : Fin 2 => (1, 1)), TakesEvery (linear 0 1) (fun t p => exAdamTrain.hyper t (exLinearKey p) none)
      true k S (iterations.map fun bs => bs.map fun b => exLinearBatch b.1 b.2) := by
    induction iterations with
    | nil => intro k S; trivial
    | cons bs its ih =>
      intro k S
      refine ⟨?_, ?_, ih (fun b hb => hne b (by simp [hb])) _ _⟩
      · simpa using hne bs (by simp)
      · intro b hb
        obtain ⟨c, -, rfl⟩ := List.mem_map.1 hb
        exact C90_takes (exLinear_takes c.1 c.2 _) (C90_linear_fills 0 1) (by decide)
  exact this _ _

end Thinc
