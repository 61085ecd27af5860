import Verif.Props.FinishUpdate
import Verif.Props.Optimizer
import Verif.Props.Training
import Verif.Props.MaxoutLayer
import Verif.Spec.Sgd
/-!
# C77: training with SGD is gradient descent
-/
namespace Thinc
open Spec Spec.Tensor

section
variable {N : ℕ} {sh : Fin N → ℕ × ℕ} {A : Type}

/-! ### The gradient -/

theorem dot_single {ι : Type} [Fintype ι] [DecidableEq ι] {E : ι → Type} [∀ i, NormedAddCommGroup (E i)] [∀ i, NormedSpace ℝ (E i)]
    [∀ i, Tensor (E i)] (u : (i : ι) → E i) (i : ι) (v : E i) : dot u (Pi.single i v) = dot (u i) v := by
  show ∑ k, dot (u k) (Pi.single i v k) = _
  rw [Finset.sum_eq_single i]
  · rw [Pi.single_eq_same]
  · intro k _ hk
    rw [Pi.single_eq_of_ne hk, dot_comm, dot_zero_left]
  · exact fun h => absurd (Finset.mem_univ i) h

/-- The direction of one entry. -/
noncomputable def entryDir (p : Fin N) (i : Fin (sh p).1) (j : Fin (sh p).2) : Params sh :=
  Pi.single p (Pi.single i (Pi.single j 1))

theorem setEntry_eq (θ : Params sh) (p : Fin N) (i : Fin (sh p).1) (j : Fin (sh p).2) (t : ℝ) :
    setEntry θ p i j t = θ + (t - θ p i j) • entryDir p i j := by
  funext q a b
  unfold setEntry entryDir
  by_cases hq : q = p
  · subst hq
    rw [Function.update_self]
    by_cases ha : a = i
    · subst ha
      rw [Function.update_self]
      by_cases hb : b = j
      · subst hb
        simp
      · simp [hb]
    · simp [ha]
  · simp [hq]

theorem gradient_of_IsVJP {loss : Params sh → ℝ} {θ : Params sh} {back : ℝ → Params sh} (h : IsVJP loss θ back) :
    back 1 = gradient loss θ := by
  obtain ⟨f', hf, hb⟩ := h
  funext p i j
  have h1 : HasDerivAt (fun t : ℝ => setEntry θ p i j t) (entryDir p i j) (θ p i j) := by
    have h2 : HasDerivAt (fun t : ℝ => θ + (t - θ p i j) • entryDir p i j) ((1 : ℝ) • entryDir p i j) (θ p i j) :=
      (((hasDerivAt_id _).sub_const _).smul_const _).const_add _
    rw [one_smul] at h2
    exact h2.congr_of_eventuallyEq (Filter.Eventually.of_forall fun t => setEntry_eq θ p i j t)
  have h3 : setEntry θ p i j (θ p i j) = θ := by rw [setEntry_eq]; simp
  have hf' : HasFDerivAt loss f' (setEntry θ p i j (θ p i j)) := by rw [h3]; exact hf
  have h4 := (hf'.comp_hasDerivAt _ h1).deriv
  have h5 := hb 1 (entryDir p i j)
  unfold entryDir at h5
  rw [dot_single, dot_single, dot_single] at h5
  have h6 : back 1 p i j * 1 = 1 * f' (entryDir p i j) := h5
  rw [mul_one, one_mul] at h6
  rw [h6]
  exact h4.symm

/-! ### Gradients in the nodes -/

theorem get?_filter_ne {κ α : Type} [DecidableEq κ] (d : PyDict κ α) (k k' : κ) :
    PyDict.get? (d.filter fun e => e.1 ≠ k) k' = if k = k' then none else d.get? k' := by
  induction d with
  | nil => simp [PyDict.get?]
  | cons e d ih =>
    obtain ⟨a, v⟩ := e
    by_cases h : a = k
    · subst h
      rw [List.filter_cons_of_neg (by simp), ih]
      by_cases h2 : a = k'
      · simp [h2]
      · simp [h2, PyDict.get?]
    · rw [List.filter_cons_of_pos (by simp [h])]
      by_cases h2 : a = k'
      · subst h2
        simp [PyDict.get?, Ne.symm h]
      · simp only [PyDict.get?, h2, if_false, ih]

theorem putGrad_get (n : Node (Mat ℝ) A) (k k' : String) (g : Option (Mat ℝ)) :
    (n.putGrad k g).grads.get? (n.id, k') = if k = k' then g else n.grads.get? (n.id, k') := by
  cases g with
  | none =>
    simp only [Node.putGrad, get?_filter_ne, Prod.mk.injEq, true_and]
  | some g =>
    simp only [Node.putGrad, Node.setGrad, PyDict.get?_set, Prod.mk.injEq, true_and]

theorem putGrad_eq (n : Node (Mat ℝ) A) (k : String) (g : Option (Mat ℝ)) :
    n.putGrad k g = { n with grads := (n.putGrad k g).grads } := by
  cases g <;> rfl

/-- `h'` differs from `h` only in gradients. -/
def OnlyGrads (h h' : Heap (Mat ℝ) A) : Prop :=
  ∀ b : Addr, (h[b]? = none ∧ h'[b]? = none) ∨ ∃ n gs, h[b]? = some n ∧ h'[b]? = some { n with grads := gs }

theorem OnlyGrads.refl (h : Heap (Mat ℝ) A) : OnlyGrads h h := fun b => by
  cases e : h[b]? with
  | none => exact Or.inl ⟨rfl, rfl⟩
  | some n => exact Or.inr ⟨n, n.grads, rfl, rfl⟩

theorem OnlyGrads.trans {h h' h'' : Heap (Mat ℝ) A} (h1 : OnlyGrads h h') (h2 : OnlyGrads h' h'') : OnlyGrads h h'' := fun b => by
  rcases h1 b with ⟨e1, e2⟩ | ⟨n, gs, e1, e2⟩
  · rcases h2 b with ⟨e3, e4⟩ | ⟨n, gs, e3, e4⟩
    · exact Or.inl ⟨e1, e4⟩
    · rw [e2] at e3; cases e3
  · rcases h2 b with ⟨e3, e4⟩ | ⟨m, gs', e3, e4⟩
    · rw [e2] at e3; cases e3
    · rw [e2] at e3
      cases e3
      exact Or.inr ⟨n, gs', e1, e4⟩

theorem OnlyGrads.reachable {h h' : Heap (Mat ℝ) A} (h1 : OnlyGrads h h') (a b : Addr) : Reachable h' a b ↔ Reachable h a b := by
  have : Child h' = Child h := by
    funext x y
    apply propext
    unfold Child
    rcases h1 x with ⟨e1, e2⟩ | ⟨n, gs, e1, e2⟩
    · simp [e1, e2]
    · simp [e1, e2]
  unfold Reachable
  rw [this]

theorem writeGrad_only (slot : Slots) (G : GradStore) (h : Heap (Mat ℝ) A) (p : ℕ) : OnlyGrads h (writeGrad slot G h p) := fun b => by
  unfold writeGrad
  rw [Heap.get_modify]
  cases e : h[b]? with
  | none => simp
  | some n =>
    by_cases hb : (slot p).1 = b
    · rw [if_pos hb]
      exact Or.inr ⟨n, _, rfl, by rw [Option.map_some]; exact congrArg some (putGrad_eq n _ _)⟩
    · rw [if_neg hb]
      exact Or.inr ⟨n, n.grads, rfl, rfl⟩

/-- The stored gradient of a node. -/
def gradAt (h : Heap (Mat ℝ) A) (b : Addr) (k : String) : Option (Mat ℝ) :=
  match h[b]? with
  | some n => n.grads.get? (n.id, k)
  | none => none

theorem writeGrad_at (slot : Slots) (G : GradStore) (h : Heap (Mat ℝ) A) (p : ℕ) (b : Addr) (k : String) (hb : h[b]? ≠ none) :
    gradAt (writeGrad slot G h p) b k = if slot p = (b, k) then G p else gradAt h b k := by
  unfold gradAt writeGrad
  rw [Heap.get_modify]
  cases e : h[b]? with
  | none => exact absurd e hb
  | some n =>
    by_cases h1 : (slot p).1 = b
    · rw [if_pos h1, Option.map_some]
      have hid : (n.putGrad (slot p).2 (G p)).id = n.id := by rw [putGrad_eq]
      simp only [hid]
      rw [putGrad_get]
      by_cases h2 : (slot p).2 = k
      · rw [if_pos h2, if_pos (Prod.ext h1 h2)]
      · rw [if_neg h2, if_neg fun h3 => h2 (congrArg Prod.snd h3)]
    · rw [if_neg h1, if_neg fun h3 => h1 (congrArg Prod.fst h3)]

theorem writeGrads_spec (slot : Slots) (G : GradStore) (h : Heap (Mat ℝ) A) (M : ℕ) (hinj : ∀ p < M, ∀ q < M, slot p = slot q → p = q) :
    OnlyGrads h (writeGrads M slot G h) ∧
    (∀ p < M, h[(slot p).1]? ≠ none → gradAt (writeGrads M slot G h) (slot p).1 (slot p).2 = G p) ∧
    ∀ b k, (∀ p < M, slot p ≠ (b, k)) → h[b]? ≠ none → gradAt (writeGrads M slot G h) b k = gradAt h b k := by
  induction M with
  | zero => exact ⟨OnlyGrads.refl h, fun p hp => absurd hp (by omega), fun b k _ _ => rfl⟩
  | succ M ih =>
    obtain ⟨i1, i2, i3⟩ := ih fun p hp q hq => hinj p (by omega) q (by omega)
    have e : writeGrads (M + 1) slot G h = writeGrad slot G (writeGrads M slot G h) M := by
      simp only [writeGrads, List.range_succ, List.foldl_append, List.foldl_cons, List.foldl_nil]
    have hne : ∀ b : Addr, h[b]? ≠ none → (writeGrads M slot G h)[b]? ≠ none := by
      intro b hb
      rcases i1 b with ⟨e1, -⟩ | ⟨n, gs, -, e2⟩
      · exact absurd e1 hb
      · rw [e2]; simp
    rw [e]
    refine ⟨i1.trans (writeGrad_only slot G _ M), ?_, ?_⟩
    · intro p hp hpn
      rw [writeGrad_at _ _ _ _ _ _ (hne _ hpn)]
      by_cases hM : p = M
      · subst hM
        rw [if_pos rfl]
      · rw [if_neg fun h3 => hM (hinj M (by omega) p hp h3).symm]
        exact i2 p (by omega) hpn
    · intro b k hbk hb
      rw [writeGrad_at _ _ _ _ _ _ (hne _ hb), if_neg (hbk M (by omega))]
      exact i3 b k (fun p hp => hbk p (by omega)) hb

theorem gradAt_some {h : Heap (Mat ℝ) A} {b : Addr} {n : Node (Mat ℝ) A} (e : h[b]? = some n) (k : String) :
    gradAt h b k = n.grads.get? (n.id, k) := by
  unfold gradAt
  rw [e]

theorem hasGrad_false {n : Node (Mat ℝ) A} {k : String} : n.hasGrad k = false ↔ n.grads.get? (n.id, k) = none := by
  unfold Node.hasGrad PyDict.contains
  cases n.grads.get? (n.id, k) <;> simp

theorem getGrad_ok_iff {n : Node (Mat ℝ) A} {k : String} {D : Mat ℝ} : n.getGrad k = .ok D ↔ n.grads.get? (n.id, k) = some D := by
  unfold Node.getGrad
  cases n.grads.get? (n.id, k) <;> simp

variable {h : Heap (Mat ℝ) A} {root : Addr} {slot : Slots} {key : Fin N → Nat × String} {θ g : Params sh}

theorem Spec.Wired.isParams (H : Wired h root slot key θ g) : IsParams (readParams h slot) θ := fun p => by
  obtain ⟨-, n, X, e1, -, -, e2, hX⟩ := H.param p
  unfold readParams
  rw [e1]
  simp only [e2]
  exact hX

theorem Spec.Wired.isGrads (H : Wired h root slot key θ g) : IsGrads (readGrads h slot) g := fun p => by
  obtain ⟨-, n, X, e1, -, -, -, -⟩ := H.param p
  have e : readGrads h slot p = n.grads.get? (n.id, (slot p).2) := by
    unfold readGrads
    rw [e1]
  rw [e]
  rcases H.grad p n e1 with ⟨h1, h2⟩ | ⟨D, h1, h2⟩
  · rw [hasGrad_false.1 h1]
    exact h2
  · rw [getGrad_ok_iff.1 h1]
    exact h2

theorem Spec.Wired.writeGrads (H : Wired h root slot key θ g) {G : GradStore} {g' : Params sh} (hG : IsGrads G g') :
    Wired (writeGrads N slot G h) root slot key θ g' := by
  obtain ⟨i1, i2, i3⟩ := writeGrads_spec slot G h N fun p hp q hq e =>
    congrArg Fin.val (H.distinct ⟨p, hp⟩ ⟨q, hq⟩ e)
  refine ⟨H.distinct, ?_, ?_, ?_⟩
  · intro a ha
    obtain ⟨n, e1, h2, h3⟩ := H.nodes a ((i1.reachable root a).1 ha)
    rcases i1 a with ⟨e2, -⟩ | ⟨n', gs, e2, e3⟩
    · rw [e1] at e2; cases e2
    · rw [e1] at e2
      cases e2
      refine ⟨_, e3, h2, fun k hk hgk => ?_⟩
      show ∃ X, n.getParam k = .ok X
      by_cases hs : ∃ p : Fin N, slot p = (a, k)
      · obtain ⟨p, hp⟩ := hs
        obtain ⟨-, m, X, e4, -, -, e5, -⟩ := H.param p
        rw [hp] at e4 e5
        rw [show m = n from by rw [e1] at e4; exact (Option.some.inj e4).symm] at e5
        exact ⟨X, e5⟩
      · apply h3 k hk
        have h4 := i3 a k (fun p hp e => hs ⟨⟨p, hp⟩, e⟩) (by rw [e1]; simp)
        rw [gradAt_some e3, gradAt_some e1] at h4
        rw [hasGrad_iff] at hgk ⊢
        obtain ⟨D, hD⟩ := hgk
        exact ⟨D, getGrad_ok_iff.2 (h4 ▸ getGrad_ok_iff.1 hD)⟩
  · intro p
    obtain ⟨hr, n, X, e1, h2, h3, h4, h5⟩ := H.param p
    refine ⟨(i1.reachable _ _).2 hr, ?_⟩
    rcases i1 (slot p).1 with ⟨e2, -⟩ | ⟨n', gs, e2, e3⟩
    · rw [e1] at e2; cases e2
    · rw [e1] at e2
      cases e2
      exact ⟨_, X, e3, h2, h3, h4, h5⟩
  · intro p n' e3
    obtain ⟨-, n, X, e1, -, -, -, -⟩ := H.param p
    have h4 := i2 p p.2 (by rw [e1]; simp)
    rw [gradAt_some e3] at h4
    have h5 := hG p
    cases hGp : G p with
    | none =>
      rw [hGp] at h4 h5
      exact Or.inl ⟨hasGrad_false.2 h4, h5⟩
    | some D =>
      rw [hGp] at h4 h5
      exact Or.inr ⟨D, getGrad_ok_iff.2 h4, h5⟩

/-- One batch adds its gradient. -/
theorem backpropBatch_run {L : Layer} {b : Batch sh} (H : Wired h root slot key θ g) (hb : Takes L θ b) :
    ∃ h', backpropBatch L N slot h (b.input, b.lossGrad) = .ok h' ∧ Wired h' root slot key θ (g + gradient b.loss θ) := by
  obtain ⟨Y, cb, D, back, e1, e2, hv, hc⟩ := hb _ H.isParams
  obtain ⟨dv, G, e3, hG⟩ := hc _ g H.isGrads
  refine ⟨Thinc.writeGrads N slot G h, ?_, ?_⟩
  · simp only [backpropBatch, e1, e2, e3, bind, Except.bind, pure, Except.pure]
  · rw [← gradient_of_IsVJP hv]
    exact H.writeGrads hG

theorem backpropBatches_run {L : Layer} (bs : List (Batch sh)) (H : Wired h root slot key θ g) (hb : ∀ b ∈ bs, Takes L θ b) :
    ∃ h', (bs.map fun b => (b.input, b.lossGrad)).foldlM (backpropBatch L N slot) h = .ok h' ∧
      Wired h' root slot key θ (g + totalGradient (bs.map Batch.loss) θ) := by
  induction bs generalizing h g with
  | nil => exact ⟨h, rfl, by simpa [totalGradient] using H⟩
  | cons b bs ih =>
    obtain ⟨h1, e1, H1⟩ := backpropBatch_run H (hb b (by simp))
    obtain ⟨h2, e2, H2⟩ := ih H1 fun c hc => hb c (by simp [hc])
    refine ⟨h2, ?_, ?_⟩
    · simp only [List.map_cons, List.foldlM_cons, e1]
      exact e2
    · rw [add_assoc] at H2
      exact H2

/-! ### The optimizer -/

section
variable {n m : ℕ}

theorem ravel_length (X : Mat ℝ) : X.ravel.length = X.rows * X.cols := by simp [Mat.ravel]

theorem ravel_get {X : Mat ℝ} {x : Fin n → Fin m → ℝ} (hX : IsMat X x) (i : Fin n) (j : Fin m) :
    X.ravel[(i : ℕ) * m + j]? = some (x i j) := by
  have hlt : (i : ℕ) * m + j < X.rows * X.cols := by
    rw [hX.1, hX.2.1]
    calc (i : ℕ) * m + j < (i : ℕ) * m + m := by omega
      _ = ((i : ℕ) + 1) * m := by ring
      _ ≤ n * m := Nat.mul_le_mul_right _ i.2
  unfold Mat.ravel
  rw [List.getElem?_ofFn, dif_pos hlt, ← hX.val_eq i j]

theorem isMat_ofVec {v : Vec} {x : Fin n → Fin m → ℝ} (h : ∀ (i : Fin n) (j : Fin m), v[(i : ℕ) * m + j]? = some (x i j)) :
    IsMat (Mat.ofVec n m v) x :=
  ⟨rfl, rfl, fun i j => by
    show v.getD ((i : ℕ) * m + j) 0 = x i j
    rw [List.getD_eq_getElem?_getD, h i j]
    rfl⟩

theorem ravel_norm {X : Mat ℝ} {x : Fin n → Fin m → ℝ} (hX : IsMat X x) : X.ravel.norm = entryNorm x := by
  unfold Vec.norm entryNorm Mat.ravel
  congr 1
  rw [List.map_ofFn, List.sum_ofFn]
  obtain ⟨r, c, v⟩ := X
  obtain ⟨rfl, rfl, h⟩ := hX
  rw [sum_pieceRow]
  refine Finset.sum_congr rfl fun i _ => Finset.sum_congr rfl fun j _ => ?_
  rw [← h i j]
  show v _ ^ 2 = v _ ^ 2
  rw [pieceRow_val]

theorem optimizerFn_state {cfg : OptCfg (Nat × String)} (hra : cfg.useRadam = false) (hb2 : ∀ t k s, cfg.b2 t k s = 0)
    (st : OptState (Nat × String)) (k : Nat × String) (W D : Mat ℝ) :
    (optimizerFn cfg st k W D).1.step = st.step ∧ (optimizerFn cfg st k W D).1.lastScore = st.lastScore := by
  simp only [optimizerFn, OptState.call, callBody, hra, hb2, Bool.false_eq_true, lt_irrefl, gt_iff_lt, and_false, if_false, finishCall]
  split
  · exact ⟨rfl, rfl⟩
  · cases st.averages <;> exact ⟨rfl, rfl⟩

/-- One SGD call. -/
theorem optimizerFn_sgd {cfg : OptCfg (Nat × String)} (hra : cfg.useRadam = false) (hb2 : ∀ t k s, cfg.b2 t k s = 0)
    (hL2 : ∀ t k s, cfg.L2 t k s = 0) (st : OptState (Nat × String)) (k : Nat × String) {W D : Mat ℝ} {w d : Fin n → Fin m → ℝ}
    (hW : IsMat W w) (hD : IsMat D d) :
    (optimizerFn cfg st k W D).1.step = st.step ∧ (optimizerFn cfg st k W D).1.lastScore = st.lastScore ∧
    IsMat (optimizerFn cfg st k W D).2.1
      (w - cfg.learnRate st.step k st.lastScore • clipTo (cfg.gradClip st.step k st.lastScore) d) ∧
    IsMat (optimizerFn cfg st k W D).2.2 (0 : Fin n → Fin m → ℝ) := by
  by_cases h0 : D.rows < 1
  · have hn : n = 0 := by rw [← hD.1]; omega
    subst hn
    simp only [optimizerFn, OptState.call, h0, if_true]
    exact ⟨trivial, trivial, ⟨hW.1, hW.2.1, fun i => i.elim0⟩, hD.1, hD.2.1, fun i => i.elim0⟩
  · have hreg : ∀ s : OptState (Nat × String), s.step = st.step → s.lastScore = st.lastScore →
        ∀ (i : Fin n) (j : Fin m), (regularised cfg s k W.ravel D.ravel)[(i : ℕ) * m + j]? =
          some (clipTo (cfg.gradClip st.step k st.lastScore) d i j) := by
      intro s h1 h2 i j
      simp only [regularised, h1, h2, hL2, ne_eq, not_true_eq_false, false_and, if_false]
      unfold clipTo clipGradient
      rw [ravel_norm hD]
      by_cases hc : cfg.gradClip st.step k st.lastScore = 0
      · simp only [hc, ne_eq, not_true_eq_false, false_and, if_false]
        exact ravel_get hD i j
      · by_cases hc2 : cfg.gradClip st.step k st.lastScore ≤ entryNorm d
        · simp only [hc, ne_eq, not_false_eq_true, hc2, ge_iff_le, if_true, and_self]
          rw [List.getElem?_map, ravel_get hD i j, Option.map_some, Pi.smul_apply, Pi.smul_apply, smul_eq_mul, mul_comm]
        · simp only [hc, ne_eq, not_false_eq_true, hc2, ge_iff_le, if_true, if_false, and_false]
          exact ravel_get hD i j
    obtain ⟨st1, hst1⟩ : ∃ s : OptState (Nat × String), s = { st with nrUpdate := st.nrUpdate.set k ((st.nrUpdate.get? k).getD 0 + 1) } := ⟨_, rfl⟩
    have hs1 : st1.step = st.step := by rw [hst1]
    have hs2 : st1.lastScore = st.lastScore := by rw [hst1]
    have hcall : (OptState.call cfg st k D.rows W.ravel D.ravel 1) =
        finishCall cfg st1 k (List.zipWith (fun x y => x - 1 * cfg.learnRate st.step k st.lastScore * y) W.ravel
          (regularised cfg st1 k W.ravel D.ravel)) (regularised cfg st1 k W.ravel D.ravel) 1 ((st.nrUpdate.get? k).getD 0 + 1) := by
      simp only [OptState.call, h0, if_false, callBody, hra, Bool.false_eq_true, hb2, lt_irrefl, gt_iff_lt, and_false, ← hst1, hs1, hs2]
    have hfin : ∀ (w' g' : Vec), (finishCall cfg st1 k w' g' 1 ((st.nrUpdate.get? k).getD 0 + 1)).1.step = st.step ∧
        (finishCall cfg st1 k w' g' 1 ((st.nrUpdate.get? k).getD 0 + 1)).1.lastScore = st.lastScore ∧
        (finishCall cfg st1 k w' g' 1 ((st.nrUpdate.get? k).getD 0 + 1)).2.weights = w' ∧
        (finishCall cfg st1 k w' g' 1 ((st.nrUpdate.get? k).getD 0 + 1)).2.gradient = g'.map (fun x => x * 0) := by
      intro w' g'
      simp only [finishCall, hL2, ne_eq, not_true_eq_false, false_and, if_false]
      cases st1.averages <;> exact ⟨hs1, hs2, rfl, rfl⟩
    obtain ⟨f1, f2, f3, f4⟩ := hfin (List.zipWith (fun x y => x - 1 * cfg.learnRate st.step k st.lastScore * y) W.ravel
          (regularised cfg st1 k W.ravel D.ravel)) (regularised cfg st1 k W.ravel D.ravel)
    simp only [optimizerFn, hcall]
    refine ⟨f1, f2, ?_, ?_⟩
    · rw [f3, hW.1, hW.2.1]
      refine isMat_ofVec fun i j => ?_
      rw [List.getElem?_zipWith, ravel_get hW i j, hreg st1 hs1 hs2 i j]
      simp
    · rw [f4, hD.1, hD.2.1]
      refine isMat_ofVec fun i j => ?_
      rw [List.getElem?_map, hreg st1 hs1 hs2 i j]
      simp
end

theorem runCalls_sgd {cfg : OptCfg (Nat × String)} (hra : cfg.useRadam = false) (hb2 : ∀ t k s, cfg.b2 t k s = 0)
    (st : OptState (Nat × String)) (calls : List (OptCall (Mat ℝ))) :
    (runCalls (optimizerFn cfg) st calls).1.step = st.step ∧ (runCalls (optimizerFn cfg) st calls).1.lastScore = st.lastScore ∧
    ∀ (i : ℕ) c, calls[i]? = some c → ∃ st' : OptState (Nat × String), st'.step = st.step ∧ st'.lastScore = st.lastScore ∧
      (runCalls (optimizerFn cfg) st calls).2[i]? = some (optimizerFn cfg st' (c.id, c.name) c.param c.grad).2 := by
  induction calls generalizing st with
  | nil => exact ⟨rfl, rfl, fun i c h => by simp at h⟩
  | cons c cs ih =>
    obtain ⟨s1, s2⟩ := optimizerFn_state hra hb2 st (c.id, c.name) c.param c.grad
    obtain ⟨r1, r2, r3⟩ := ih (optimizerFn cfg st (c.id, c.name) c.param c.grad).1
    refine ⟨r1.trans s1, r2.trans s2, ?_⟩
    intro i d hd
    cases i with
    | zero =>
      simp at hd
      subst hd
      exact ⟨st, rfl, rfl, rfl⟩
    | succ i =>
      obtain ⟨st', e1, e2, e3⟩ := r3 i d (by simpa using hd)
      exact ⟨st', e1.trans s1, e2.trans s2, by simpa [runCalls] using e3⟩

section
variable {h : Heap (Mat ℝ) A} {root : Addr} {slot : Slots} {key : Fin N → Nat × String} {θ g : Params sh}

theorem clipTo_zero {n m : ℕ} (c : ℝ) : clipTo c (0 : Fin n → Fin m → ℝ) = 0 := by
  unfold clipTo
  split <;> simp

/-- `finish_update` with SGD. -/
theorem finishUpdate_sgd {cfg : OptCfg (Nat × String)} (hra : cfg.useRadam = false) (hb2 : ∀ t k s, cfg.b2 t k s = 0)
    (hL2 : ∀ t k s, cfg.L2 t k s = 0) (H : Wired h root slot key θ g) (st : OptState (Nat × String)) :
    ∃ s : FUState (OptState (Nat × String)) (Mat ℝ) A,
      finishUpdate (optimizerFn cfg) (fun s _ => (s, .ok ())) h st () root = ((s, ()), .ok ()) ∧
      s.opt.step = st.step ∧ s.opt.lastScore = st.lastScore ∧
      Wired s.nodes root slot key (descend (fun p => cfg.learnRate st.step (key p) st.lastScore)
        (fun p => cfg.gradClip st.step (key p) st.lastScore) θ g) 0 := by
  have hshim : ∀ (as : List Addr) (q : OptState (Nat × String) × Unit), (∀ a ∈ as, ∃ n, h[a]? = some n) →
      loopE (updateShims (fun s _ => (s, .ok ())) h) as q = (q, .ok ()) := by
    intro as q has
    induction as with
    | nil => rfl
    | cons a as ih =>
      obtain ⟨n, hn⟩ := has a (by simp)
      have h1 : ∀ xs : List Addr, loopE (fun (s : OptState (Nat × String) × Unit) (_ : Addr) => (s, Except.ok (ε := PyErr) ())) xs q = (q, .ok ()) := by
        intro xs
        induction xs with
        | nil => rfl
        | cons x xs ih => simp only [loopE, ih]
      simp only [loopE, updateShims, hn, h1]
      exact ih fun b hb => has b (by simp [hb])
  obtain ⟨calls, s, ho, he, hs, hcalled, hnode, hnone⟩ := C15_finish_update (optimizerFn cfg) (fun s _ => (s, .ok ())) h st st () () root
    H.nodes (hshim _ _ fun a ha => by
      obtain ⟨n, hn, -⟩ := H.nodes a ((mem_walkBfs h root a).1 ha)
      exact ⟨n, hn⟩)
  obtain ⟨r1, r2, r3⟩ := runCalls_sgd hra hb2 st calls
  have hreach : ∀ a b, Reachable s.nodes a b ↔ Reachable h a b := by
    have : Child s.nodes = Child h := by
      funext x y
      apply propext
      unfold Child
      cases e : h[x]? with
      | none => simp [hnone x e]
      | some n =>
        obtain ⟨n', e1, e2, -⟩ := hnode x n e
        have : n'.layers = n.layers := by rw [e2]
        simp [e1, this]
    intro a b
    unfold Reachable
    rw [this]
  refine ⟨s, he, by rw [hs, r1], by rw [hs, r2], H.distinct, ?_, ?_, ?_⟩
  · intro a ha
    obtain ⟨n, e1, h2, h3⟩ := H.nodes a ((hreach _ _).1 ha)
    obtain ⟨n', e2, e3, e4, e5⟩ := hnode a n e1
    refine ⟨n', e2, by rw [e4]; exact h2, ?_⟩
    intro k hk hgk
    by_cases hc : ∃ c ∈ calls, c.node = a ∧ c.name = k
    · obtain ⟨c, hc1, rfl, rfl⟩ := hc
      obtain ⟨i, hi⟩ := List.mem_iff_getElem?.1 hc1
      obtain ⟨st', -, -, hr⟩ := r3 i c hi
      obtain ⟨m, f1, -, f3, -⟩ := hcalled i c _ hi hr
      rw [e2] at f1
      cases f1
      exact ⟨_, f3⟩
    · obtain ⟨g1, -, g3⟩ := e5 k fun c hc1 hc2 => hc ⟨c, hc1, hc2⟩
      rw [g1]
      refine h3 k (e4 ▸ hk) ?_
      rw [hasGrad_iff] at hgk ⊢
      rwa [g3] at hgk
  · intro p
    obtain ⟨hr, n, X, e1, hk, hnm, e2, hX⟩ := H.param p
    refine ⟨(hreach _ _).2 hr, ?_⟩
    obtain ⟨n', f1, f2, f3, f4⟩ := hnode _ n e1
    have hid : n'.id = n.id := by rw [f2]
    rcases H.grad p n e1 with ⟨h1, h2⟩ | ⟨D, h1, h2⟩
    · obtain ⟨g1, -, -⟩ := f4 (slot p).2 fun c hc hc2 => by
        obtain ⟨-, m, q1, -, -, -, q5⟩ := (ho.exact c).1 hc
        rw [hc2.1, e1] at q1
        cases q1
        rw [hc2.2, getGrad_ok_iff, hasGrad_false.1 h1] at q5
        cases q5
      refine ⟨n', X, f1, by rw [hid]; exact hk, by rw [f3]; exact hnm, g1.trans e2, ?_⟩
      unfold descend
      rw [h2, clipTo_zero, smul_zero, sub_zero]
      exact hX
    · have hc : (⟨(slot p).1, n.id, (slot p).2, X, D⟩ : OptCall (Mat ℝ)) ∈ calls :=
        (ho.exact _).2 ⟨hr, n, e1, rfl, hnm, e2, h1⟩
      obtain ⟨i, hi⟩ := List.mem_iff_getElem?.1 hc
      obtain ⟨st', s1, s2, hri⟩ := r3 i _ hi
      obtain ⟨m, q1, -, q3, -⟩ := hcalled i _ _ hi hri
      rw [f1] at q1
      cases q1
      refine ⟨n', _, f1, by rw [hid]; exact hk, by rw [f3]; exact hnm, q3, ?_⟩
      obtain ⟨-, -, u, -⟩ := optimizerFn_sgd hra hb2 hL2 st' (n.id, (slot p).2) hX h2
      rw [s1, s2] at u
      show IsMat (optimizerFn cfg st' (n.id, (slot p).2) X D).2.1 (θ p - cfg.learnRate st.step (key p) st.lastScore •
        clipTo (cfg.gradClip st.step (key p) st.lastScore) (g p))
      rw [hk]
      exact u
  · intro p n' f1'
    obtain ⟨hr, n, X, e1, hk, hnm, e2, hX⟩ := H.param p
    obtain ⟨n'', f1, f2, f3, f4⟩ := hnode _ n e1
    rw [f1] at f1'
    cases f1'
    rcases H.grad p n e1 with ⟨h1, h2⟩ | ⟨D, h1, h2⟩
    · obtain ⟨-, -, g1⟩ := f4 (slot p).2 fun c hc hc2 => by
        obtain ⟨-, m, q1, -, -, -, q5⟩ := (ho.exact c).1 hc
        rw [hc2.1, e1] at q1
        cases q1
        rw [hc2.2, getGrad_ok_iff, hasGrad_false.1 h1] at q5
        cases q5
      refine Or.inl ⟨?_, rfl⟩
      rw [Bool.eq_false_iff, ne_eq, hasGrad_iff, g1, ← hasGrad_iff, h1]
      simp
    · have hc : (⟨(slot p).1, n.id, (slot p).2, X, D⟩ : OptCall (Mat ℝ)) ∈ calls :=
        (ho.exact _).2 ⟨hr, n, e1, rfl, hnm, e2, h1⟩
      obtain ⟨i, hi⟩ := List.mem_iff_getElem?.1 hc
      obtain ⟨st', s1, s2, hri⟩ := r3 i _ hi
      obtain ⟨m, q1, -, -, q4⟩ := hcalled i _ _ hi hri
      rw [f1] at q1
      cases q1
      exact Or.inr ⟨_, q4, (optimizerFn_sgd hra hb2 hL2 st' (n.id, (slot p).2) hX h2).2.2.2⟩

/-- Training with SGD is gradient descent.  Let a model hold the parameters `θ` and no (or zero) gradients, and let it be
trained for any number of iterations, each on any number of batches, with any schedules of learning rate and gradient
clipping.  Then training does not raise, and afterwards the model holds exactly the parameters of gradient descent on the
summed losses of each iteration: every parameter has been moved against its clipped gradient, once per iteration, with the
learning rate of that iteration; and the gradients are zero again, so that nothing is left over from one iteration to the
next. -/
theorem C77_sgd {cfg : OptCfg (Nat × String)} (hra : cfg.useRadam = false) (hb2 : ∀ t k s, cfg.b2 t k s = 0)
    (hL2 : ∀ t k s, cfg.L2 t k s = 0) {L : Layer} (s : TrainState A) (iterations : List (List (Batch sh)))
    (H : Wired s.nodes root slot key θ 0)
    (htakes : TakesAll L (fun t p => cfg.learnRate t (key p) s.opt.lastScore) (fun t p => cfg.gradClip t (key p) s.opt.lastScore)
      s.opt.step θ iterations) :
    ∃ s', trainLoop L N slot cfg root s (iterations.map fun bs => bs.map fun b => (b.input, b.lossGrad)) = .ok s' ∧
      s'.opt.step = s.opt.step + iterations.length ∧
      Wired s'.nodes root slot key
        (descent (fun t p => cfg.learnRate t (key p) s.opt.lastScore) (fun t p => cfg.gradClip t (key p) s.opt.lastScore)
          s.opt.step θ (iterations.map fun bs => bs.map Batch.loss)) 0 := by
  induction iterations generalizing s θ with
  | nil => exact ⟨s, rfl, rfl, H⟩
  | cons bs its ih =>
    obtain ⟨hbs, hrest⟩ := htakes
    obtain ⟨h1, e1, H1⟩ := backpropBatches_run bs H hbs
    obtain ⟨fu, e2, s2, s3, H2⟩ := finishUpdate_sgd hra hb2 hL2 H1 s.opt
    rw [zero_add] at H2
    have e3 : trainIteration L N slot cfg root s (bs.map fun b => (b.input, b.lossGrad)) =
        .ok ⟨fu.nodes, { fu.opt with step := fu.opt.step + 1 }⟩ := by
      simp only [trainIteration, e1, bind, Except.bind, e2]
      rfl
    obtain ⟨s', e4, q1, q2⟩ := ih ⟨fu.nodes, { fu.opt with step := fu.opt.step + 1 }⟩ H2 (by simpa only [s2, s3] using hrest)
    refine ⟨s', ?_, ?_, ?_⟩
    · simp only [trainLoop, List.map_cons, List.foldlM_cons, e3, bind, Except.bind]
      exact e4
    · rw [q1, s2]
      simp only [List.length_cons]
      omega
    · simp only [s2, s3] at q2
      exact q2

/-- A model that is trained in the sense of C73 takes its batches. -/
theorem C77_trains {E : Type} [NormedAddCommGroup E] [NormedSpace ℝ E] [Tensor E] {L : Layer} {K : Kind E}
    {lossGrad : Val → Except PyErr Val} {loss : Params sh × E → ℝ} {x : E} (hL : Trains L true K lossGrad loss θ x)
    {v : Val} (hv : K.val v x) : Takes L θ ⟨v, lossGrad, fun θ => loss (θ, x)⟩ := by
  intro P hP
  obtain ⟨Y, cb, D, back, e1, e2, hb, hc⟩ := hL P v hP hv
  have hpair : IsVJP (fun θ : Params sh => (θ, x)) θ (fun d => d.1) := by
    refine IsVJP_congr₂ (IsVJP_prod (IsVJP_id θ) (IsVJP_const x θ)) (fun _ => rfl) fun d => ?_
    simp
  refine ⟨Y, cb, D, fun d => (back d).1, e1, e2, IsVJP_comp (f := fun θ : Params sh => (θ, x)) hb hpair, ?_⟩
  intro G g hG
  obtain ⟨dv, G', e3, -, hG'⟩ := hc G g hG
  exact ⟨dv, G', e3, hG'⟩
end

end

/-! ### An example: linear regression -/

/-- A linear model with one input and one output, both parameters zero. -/
noncomputable def exLinearHeap : Heap (Mat ℝ) Unit :=
  [{ name := "linear", id := 7, layers := [], hasParams := [("W", some ()), ("b", some ())],
     params := [((7, "W"), Mat.zeros 1 1), ((7, "b"), Mat.zeros 1 1)] }]

def exLinearSlots : Slots := fun p => (0, if p = 0 then "W" else "b")

def exLinearKey : Fin 2 → Nat × String := fun p => (7, if p = 0 then "W" else "b")

theorem exLinear_wired : Wired (sh := fun _ : Fin 2 => (1, 1)) exLinearHeap 0 exLinearSlots exLinearKey 0 0 := by
  have hz : IsMat (Mat.zeros 1 1) (0 : Fin 1 → Fin 1 → ℝ) := ⟨rfl, rfl, fun _ _ => rfl⟩
  have hr : ∀ a, Reachable exLinearHeap 0 a → a = 0 := by
    intro a ha
    induction ha with
    | refl => rfl
    | tail _ hc ih =>
      subst ih
      obtain ⟨n, e, hn⟩ := hc
      simp [exLinearHeap] at e
      subst e
      simp at hn
  refine ⟨by decide, ?_, ?_, ?_⟩
  · intro a ha
    rw [hr a ha]
    exact ⟨_, rfl, by simp [Node.paramNames, PyDict.keys], fun k _ hk => by simp [Node.hasGrad, PyDict.contains, PyDict.get?] at hk⟩
  · intro p
    refine ⟨Relation.ReflTransGen.refl, ?_⟩
    fin_cases p
    · exact ⟨_, Mat.zeros 1 1, rfl, rfl, by simp [Node.paramNames, PyDict.keys, exLinearSlots],
        by simp [Node.getParam, PyDict.contains, PyDict.get?, exLinearSlots], hz⟩
    · exact ⟨_, Mat.zeros 1 1, rfl, rfl, by simp [Node.paramNames, PyDict.keys, exLinearSlots],
        by simp [Node.getParam, PyDict.contains, PyDict.get?, exLinearSlots], hz⟩
  · intro p n e
    have e' : exLinearHeap[0]? = some n := e
    simp [exLinearHeap] at e'
    subst e'
    exact Or.inl ⟨rfl, rfl⟩

/-- The batch with one row `x` and the truth `t`, and half the squared error. -/
noncomputable def exLinearBatch (x t : ℝ) : Batch (fun _ : Fin 2 => (1, 1)) :=
  ⟨.arr (Mat.ofFn 1 1 fun _ _ => x), l2GradVal false (Mat.ofFn 1 1 fun _ _ => t), fun θ =>
    (∑ i : Fin 1, ∑ k : Fin 1, (affine (fun (_ : Fin 1) (_ : Fin 1) => x) (θ.get 0 rfl) (θ.vec 1 rfl) i k - t) ^ 2) / (2 * if false then ((1 : ℕ) : ℝ) else 1)⟩

theorem exLinear_takes (x t : ℝ) (θ : Params fun _ : Fin 2 => (1, 1)) : Takes (linear 0 1) θ (exLinearBatch x t) :=
  C77_trains (C73_l2 (C56_linear 0 1 rfl rfl true θ fun (_ : Fin 1) (_ : Fin 1) => x) false (A := Mat.ofFn 1 1 fun _ _ => t)
    (t := fun _ _ => t) (isMat_ofFn' _ _ fun _ _ => rfl)) ⟨_, rfl, isMat_ofFn' _ _ fun _ _ => rfl⟩

/-- SGD with learning rate `1 / (t + 2)` at step `t` and gradients clipped to 1. -/
noncomputable def exTrainCfg : OptCfg (Nat × String) :=
  ⟨fun t _ _ => 1 / (t + 2), fun _ _ _ => 0, fun _ _ _ => 0, fun _ _ _ => 1, fun _ _ _ => 0, fun _ _ _ => 1, false, true⟩

/-- Non-vacuity of C77: linear regression with L2Distance, for any data. -/
example (iterations : List (List (ℝ × ℝ))) :
    ∃ s', trainLoop (linear 0 1) 2 exLinearSlots exTrainCfg 0 ⟨exLinearHeap, OptState.init true⟩
        ((iterations.map fun bs => bs.map fun b => exLinearBatch b.1 b.2).map fun bs => bs.map fun b => (b.input, b.lossGrad)) = .ok s' ∧
      s'.opt.step = 0 + (iterations.map fun bs => bs.map fun b => exLinearBatch b.1 b.2).length ∧
      Wired s'.nodes 0 exLinearSlots exLinearKey
        (descent (fun t _ => 1 / ((t : ℝ) + 2)) (fun _ _ => 1) 0 0
          ((iterations.map fun bs => bs.map fun b => exLinearBatch b.1 b.2).map fun bs => bs.map Batch.loss)) 0 := by
  refine C77_sgd (cfg := exTrainCfg) rfl (fun _ _ _ => rfl) (fun _ _ _ => rfl) (L := linear 0 1) ⟨exLinearHeap, OptState.init true⟩ _ exLinear_wired ?_
  have : ∀ (k : ℕ) (θ : Params fun _ : Fin 2 => (1, 1)), TakesAll (linear 0 1) (fun t p => exTrainCfg.learnRate t (exLinearKey p) none)
      (fun t p => exTrainCfg.gradClip t (exLinearKey p) none) k θ (iterations.map fun bs => bs.map fun b => exLinearBatch b.1 b.2) := by
    induction iterations with
    | nil => intro k θ; trivial
    | cons bs its ih =>
      intro k θ
      refine ⟨?_, ih _ _⟩
      intro b hb
      obtain ⟨c, -, rfl⟩ := List.mem_map.1 hb
      exact exLinear_takes c.1 c.2 θ
  exact this _ _

end Thinc
