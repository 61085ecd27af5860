import Verif.Props.Descent
import Verif.Props.LayerNorm
import Verif.Props.MaxoutLayer
import Verif.Props.SoftmaxLayer
import Verif.Props.Combinators
import Verif.Props.Tagger
/-!
# C116: rows, batches and accumulated gradients
-/
namespace Thinc
open Spec Spec.Tensor

section
variable {N : ℕ} {sh : Fin N → ℕ × ℕ}

/-! ### Predictions -/

/-- The layer maps every row of a non-empty array with `φ θ`, whatever the other rows are. -/
def Spec.MapsRows (L : Layer) (train : Bool) (θ : Params sh) {i o : ℕ} (φ : Params sh → (Fin i → ℝ) → Fin o → ℝ) : Prop :=
  ∀ (n : ℕ) (x : Fin n → Fin i → ℝ) (P : ParamVals) (X : Mat ℝ), 0 < n → IsParams P θ → IsMat X x →
    ∃ Y callback, L train P (.arr X) = .ok (.arr Y, callback) ∧ IsMat Y (fun r => φ θ (x r))

/-- The layer maps every row with `φ`, and its gradients are exact, at least on batches whose rows are in `D`. -/
def Spec.ExactRows (L : Layer) (train : Bool) (θ : Params sh) {i o : ℕ} (φ : Params sh → (Fin i → ℝ) → Fin o → ℝ)
    (D : (Fin i → ℝ) → Prop) : Prop :=
  ∀ (n : ℕ) (x : Fin n → Fin i → ℝ), 0 < n → (∀ r, D (x r)) →
    Exact L train (Kind.arr n i) (Kind.arr n o) (fun p r => φ p.1 (p.2 r)) θ x

/-- What a layer that maps rows predicts for a row depends on that row alone: not on the other rows of the batch, on their number
or on its position. -/
theorem C116_predictions {L : Layer} {train : Bool} {θ : Params sh} {i o : ℕ} {φ : Params sh → (Fin i → ℝ) → Fin o → ℝ}
    (hL : MapsRows L train θ φ) {P P' : ParamVals} (hP : IsParams P θ) (hP' : IsParams P' θ) {n n' : ℕ} {X X' : Mat ℝ}
    {x : Fin n → Fin i → ℝ} {x' : Fin n' → Fin i → ℝ} (hX : IsMat X x) (hX' : IsMat X' x') (r : Fin n) (r' : Fin n') (hr : x r = x' r') :
    ∃ Y Y' callback callback', L train P (.arr X) = .ok (.arr Y, callback) ∧ L train P' (.arr X') = .ok (.arr Y', callback') ∧
      Y.rows = n ∧ Y'.rows = n' ∧ Y.cols = o ∧ Y'.cols = o ∧ ∀ j < o, Y.at r j = Y'.at r' j := by
  obtain ⟨Y, cb, e, hY⟩ := hL n x P X r.pos hP hX
  obtain ⟨Y', cb', e', hY'⟩ := hL n' x' P' X' r'.pos hP' hX'
  refine ⟨Y, Y', cb, cb', e, e', hY.1, hY'.1, hY.2.1, hY'.2.1, fun j hj => ?_⟩
  have h1 := hY.2.2 r ⟨j, hj⟩
  have h2 := hY'.2.2 r' ⟨j, hj⟩
  simp only at h1 h2
  rw [h1, h2, hr]

theorem C116_exact_rows {L : Layer} {train : Bool} {θ : Params sh} {i o : ℕ} {φ : Params sh → (Fin i → ℝ) → Fin o → ℝ}
    (hL : ExactRows L train θ φ fun _ => True) : MapsRows L train θ φ := by
  intro n x P X hn hP hX
  obtain ⟨_, cb, -, e, ⟨Y, rfl, hY⟩, -⟩ := hL n x hn (fun _ => trivial) P (.arr X) hP ⟨X, rfl, hX⟩
  exact ⟨Y, cb, e, hY⟩

/-- Linear maps rows, with exact gradients. -/
theorem C116_linear {i o : ℕ} (W b : Fin N) (hW : sh W = (o, i)) (hb : sh b = (1, o)) (train : Bool) (θ : Params sh) :
    ExactRows (linear W b) train θ (fun θ x => affine (fun _ : Fin 1 => x) (θ.get W hW) (θ.vec b hb) 0) fun _ => True :=
  fun _ x _ _ => C56_linear W b hW hb train θ x

/-- LayerNorm as well. -/
theorem C116_layer_norm {m : ℕ} (hm : 0 < m) (Gp b : Fin N) (hG : sh Gp = (1, m)) (hb : sh b = (1, m)) (train : Bool) (θ : Params sh) :
    ExactRows (layerNorm Gp b) train θ (fun θ x j => normalized x j * θ.vec Gp hG j + θ.vec b hb j) fun _ => True :=
  fun _ x _ _ => C57_layer_norm hm Gp b hG hb train θ x

/-- Every layer `activation(W x + b)` with an activation of single numbers maps rows, also where the activation has no derivative. -/
theorem C116_dense {i o : ℕ} (W b : Fin N) (hW : sh W = (o, i)) (hb : sh b = (1, o)) {bFirst : Bool} {act : (ℕ → ℝ) → ℕ → ℝ} {a : ℝ → ℝ}
    (hact : ∀ v k, act v k = a (v k)) (back : Mat ℝ → Mat ℝ → Mat ℝ → Mat ℝ → Except PyErr (Mat ℝ)) (train : Bool) (θ : Params sh) :
    MapsRows (dense W b bFirst act back) train θ
      (fun θ x j => a (affine (fun _ : Fin 1 => x) (θ.get W hW) (θ.vec b hb) 0 j)) := by
  intro n x P X _ hP hX
  obtain ⟨Z, eZ, hZ⟩ := affine_run hP W b hW hb hX
  refine ⟨Z.lift act, ?cb, ?h, hZ.lift hact⟩
  case h =>
    simp only [dense, Val.asArr, bind, Except.bind, eZ, pure, Except.pure]
    rfl

/-- Such as Relu. -/
theorem C116_relu {i o : ℕ} (W b : Fin N) (hW : sh W = (o, i)) (hb : sh b = (1, o)) (train : Bool) (θ : Params sh) :
    MapsRows (reluLayer W b) train θ (fun θ x j => max (affine (fun _ : Fin 1 => x) (θ.get W hW) (θ.vec b hb) 0 j) 0) := by
  refine C116_dense W b hW hb (a := fun y => max y 0) (fun v k => ?_) _ train θ
  simp only [cpuRelu]
  split
  · rw [max_eq_right (by assumption)]
  · rw [max_eq_left (by linarith)]

/-- The gradients of Relu are exact for rows with which no value before the activation is zero. -/
theorem C116_relu_exact {i o : ℕ} (W b : Fin N) (hW : sh W = (o, i)) (hb : sh b = (1, o)) (train : Bool) (θ : Params sh) :
    ExactRows (reluLayer W b) train θ (fun θ x j => max (affine (fun _ : Fin 1 => x) (θ.get W hW) (θ.vec b hb) 0 j) 0)
      fun x => ∀ j, affine (fun _ : Fin 1 => x) (θ.get W hW) (θ.vec b hb) 0 j ≠ 0 :=
  fun _ x _ h => C72_relu W b hW hb train θ x fun r j => h r j

/-- Maxout maps rows, also where two pieces are equal. -/
theorem C116_maxout {i o k : ℕ} (junk : ℕ → ℝ) (junkW : ℕ → ℤ) (W b : Fin N) (hW : sh W = (o * k, i)) (hb : sh b = (o, k)) (ho : 0 < o)
    (hk : 0 < k) (train : Bool) (θ : Params sh) :
    MapsRows (maxoutLayer junk junkW W b o k i) train θ (fun θ x => maxoutOf (fun _ : Fin 1 => x) (θ.get W hW) (θ.get b hb) 0) :=
  fun _ x P X _ hP hX => C74_forward junk junkW W b hW hb ho hk train θ x P hP X hX

/-- The gradients of Maxout are exact for rows with which the largest piece is unique. -/
theorem C116_maxout_exact {i o k : ℕ} (junk : ℕ → ℝ) (junkW : ℕ → ℤ) (W b : Fin N) (hW : sh W = (o * k, i)) (hb : sh b = (o, k)) (ho : 0 < o)
    (train : Bool) (θ : Params sh) :
    ExactRows (maxoutLayer junk junkW W b o k i) train θ (fun θ x => maxoutOf (fun _ : Fin 1 => x) (θ.get W hW) (θ.get b hb) 0)
      fun x => ∀ j, ∃ w, ∀ p, p ≠ w → pieceOut (fun _ : Fin 1 => x) (θ.get W hW) (θ.get b hb) 0 j p <
        pieceOut (fun _ : Fin 1 => x) (θ.get W hW) (θ.get b hb) 0 j w :=
  fun _ x hn h => C74_maxout_partial junk junkW W b hW hb hn ho train θ x fun r j => h r j

/-- Softmax maps rows: to probabilities if it normalizes. -/
theorem C116_softmax {i o : ℕ} (W b : Fin N) (hW : sh W = (o, i)) (hb : sh b = (1, o)) (ho : 0 < o) {normalize train : Bool} {T : ℝ}
    (hT : 0 < T) (hnt : (normalize || train) = true) (θ : Params sh) :
    MapsRows (softmaxLayer W b normalize T) train θ
      (fun θ x => Spec.softmax fun k => affine (fun _ : Fin 1 => x) (θ.get W hW) (θ.vec b hb) 0 k / T) := by
  intro n x P X _ hP hX
  obtain ⟨Y, cb, y, e, hY, hy, -⟩ := C73_forward W b hW hb ho hT hnt hP hX
  have : y = _ := funext hy
  subst this
  exact ⟨Y, cb, e, hY⟩

/-- A chain of layers that map rows maps rows. -/
inductive Spec.MapsRowsAll (train : Bool) (θ : Params sh) : List Layer → {i o : ℕ} → (Params sh → (Fin i → ℝ) → Fin o → ℝ) → Prop
  | one {L : Layer} {i o : ℕ} {φ : Params sh → (Fin i → ℝ) → Fin o → ℝ} : MapsRows L train θ φ → MapsRowsAll train θ [L] φ
  | cons {L : Layer} {Ls : List Layer} {i m o : ℕ} {φ : Params sh → (Fin i → ℝ) → Fin m → ℝ} {ψ : Params sh → (Fin m → ℝ) → Fin o → ℝ} :
      MapsRows L train θ φ → MapsRowsAll train θ Ls ψ → MapsRowsAll train θ (L :: Ls) (fun θ x => ψ θ (φ θ x))

theorem C116_chain {train : Bool} {θ : Params sh} {Ls : List Layer} {i o : ℕ} {φ : Params sh → (Fin i → ℝ) → Fin o → ℝ}
    (h : MapsRowsAll train θ Ls φ) : MapsRows (chain Ls) train θ φ := by
  induction h with
  | one h => rw [C51_one]; exact h
  | @cons L Ls i m o φ ψ h1 h2 ih =>
    intro n x P X hn hP hX
    obtain ⟨Y, cb, e, hY⟩ := h1 n x P X hn hP hX
    obtain ⟨Z, cb', e', hZ⟩ := ih n _ P Y hn hP hY
    have hne : Ls ≠ [] := by cases h2 <;> simp
    refine ⟨Z, ?cb, ?h, hZ⟩
    case h =>
      rw [C51_composes L Ls hne]
      simp only [e, e', bind, Except.bind, pure, Except.pure]
      rfl

/-- So does a residual connection around one. -/
theorem C116_residual {L : Layer} {train : Bool} {θ : Params sh} {m : ℕ} {φ : Params sh → (Fin m → ℝ) → Fin m → ℝ}
    (h : MapsRows L train θ φ) : MapsRows (residual L) train θ (fun θ x => x + φ θ x) := by
  intro n x P X hn hP hX
  obtain ⟨Y, cb, e, hY⟩ := h n x P X hn hP hX
  obtain ⟨Z, eZ, hZ⟩ := hX.npBinary hY (· + ·)
  refine ⟨Z, ?cb, ?h, hZ⟩
  case h =>
    simp only [residual, e, bind, Except.bind, pure, Except.pure, Val.add, eZ]
    rfl

/-- A chain of layers with exact gradients on rows; the rows of the batch must stay in the regions of the layers. -/
inductive Spec.ExactRowsAll (train : Bool) (θ : Params sh) : List Layer → {i o : ℕ} → (Params sh → (Fin i → ℝ) → Fin o → ℝ) →
    ((Fin i → ℝ) → Prop) → Prop
  | one {L : Layer} {i o : ℕ} {φ : Params sh → (Fin i → ℝ) → Fin o → ℝ} {D : (Fin i → ℝ) → Prop} :
      ExactRows L train θ φ D → ExactRowsAll train θ [L] φ D
  | cons {L : Layer} {Ls : List Layer} {i m o : ℕ} {φ : Params sh → (Fin i → ℝ) → Fin m → ℝ} {ψ : Params sh → (Fin m → ℝ) → Fin o → ℝ}
      {D : (Fin i → ℝ) → Prop} {D' : (Fin m → ℝ) → Prop} :
      ExactRows L train θ φ D → ExactRowsAll train θ Ls ψ D' →
      ExactRowsAll train θ (L :: Ls) (fun θ x => ψ θ (φ θ x)) (fun x => D x ∧ D' (φ θ x))

theorem exactRows_chain {train : Bool} {θ : Params sh} {Ls : List Layer} {i o : ℕ} {φ : Params sh → (Fin i → ℝ) → Fin o → ℝ}
    {D : (Fin i → ℝ) → Prop} (h : ExactRowsAll train θ Ls φ D) {n : ℕ} (hn : 0 < n) (x : Fin n → Fin i → ℝ) (hx : ∀ r, D (x r)) :
    ExactChain train θ Ls (Kind.arr n i) (Kind.arr n o) (fun p r => φ p.1 (p.2 r)) x := by
  induction h with
  | one h => exact ExactChain.one (h n x hn hx)
  | cons h1 h2 ih =>
    exact ExactChain.cons (h1 n x hn fun r => (hx r).1) (ih _ fun r => (hx r).2)

theorem C116_chain_exact {train : Bool} {θ : Params sh} {Ls : List Layer} {i o : ℕ} {φ : Params sh → (Fin i → ℝ) → Fin o → ℝ}
    {D : (Fin i → ℝ) → Prop} (h : ExactRowsAll train θ Ls φ D) : ExactRows (chain Ls) train θ φ D :=
  fun _ x hn hx => C51_chain (exactRows_chain h hn x hx)

theorem C116_residual_exact {L : Layer} {train : Bool} {θ : Params sh} {m : ℕ} {φ : Params sh → (Fin m → ℝ) → Fin m → ℝ}
    {D : (Fin m → ℝ) → Prop} (h : ExactRows L train θ φ D) : ExactRows (residual L) train θ (fun θ x => x + φ θ x) D :=
  fun n x hn hx => C54_residual_arrays (h n x hn hx)

end

/-! ### Training on the same rows in other batches -/

section
variable {N : ℕ} {sh : Fin N → ℕ × ℕ} {A : Type} {root : Addr} {slot : Slots} {key : Fin N → Nat × String} {θ : Params sh}

/-- A batch made of some examples of a data set, with a loss that is the sum of the losses `ℓ` of its examples. -/
structure Spec.Part (sh : Fin N → ℕ × ℕ) {Example : Type} (ℓ : Params sh → Example → ℝ) where
  batch : Batch sh
  examples : List Example
  loss_eq : ∀ θ, batch.loss θ = (examples.map (ℓ θ)).sum

/-- The same examples, in another order and cut into other batches. -/
def Spec.SameExamples {Example : Type} {ℓ : Params sh → Example → ℝ} (ps qs : List (Part sh ℓ)) : Prop :=
  (ps.flatMap Part.examples).Perm (qs.flatMap Part.examples)

theorem totalLoss_parts {Example : Type} {ℓ : Params sh → Example → ℝ} (ps : List (Part sh ℓ)) (θ : Params sh) :
    totalLoss ((ps.map Part.batch).map Batch.loss) θ = ((ps.flatMap Part.examples).map (ℓ θ)).sum := by
  induction ps with
  | nil => rfl
  | cons p ps ih =>
    simp only [totalLoss, List.map_cons, List.sum_cons, List.flatMap_cons, List.map_append, List.sum_append, p.loss_eq] at ih ⊢
    rw [← ih]

theorem totalLoss_same {Example : Type} {ℓ : Params sh → Example → ℝ} {ps qs : List (Part sh ℓ)} (h : SameExamples ps qs) :
    totalLoss ((ps.map Part.batch).map Batch.loss) = totalLoss ((qs.map Part.batch).map Batch.loss) := by
  funext θ
  rw [totalLoss_parts, totalLoss_parts]
  exact (h.map _).sum_eq

theorem totalGradient_same {L : Layer} {bs cs : List (Batch sh)} (hb : ∀ b ∈ bs, Takes L θ b) (hc : ∀ b ∈ cs, Takes L θ b)
    (h : totalLoss (bs.map Batch.loss) = totalLoss (cs.map Batch.loss)) :
    totalGradient (bs.map Batch.loss) θ = totalGradient (cs.map Batch.loss) θ := by
  obtain ⟨P, hP⟩ := exists_isParams θ
  obtain ⟨k1, v1, e1⟩ := IsVJP_totalLoss hP bs hb
  obtain ⟨k2, v2, e2⟩ := IsVJP_totalLoss hP cs hc
  rw [← e1, ← e2, gradient_of_IsVJP v1, gradient_of_IsVJP v2, h]

theorem descent_same {L : Layer} {lr clip : ℕ → Fin N → ℝ} {its its' : List (List (Batch sh))}
    (h : List.Forall₂ (fun bs cs => totalLoss (bs.map Batch.loss) = totalLoss (cs.map Batch.loss)) its its') {k : ℕ} {θ : Params sh}
    (h1 : TakesAll L lr clip k θ its) (h2 : TakesAll L lr clip k θ its') :
    descent lr clip k θ (its.map fun bs => bs.map Batch.loss) = descent lr clip k θ (its'.map fun bs => bs.map Batch.loss) := by
  induction h generalizing k θ with
  | nil => rfl
  | cons h hs ih =>
    obtain ⟨a1, a2⟩ := h1
    obtain ⟨b1, b2⟩ := h2
    have e := totalGradient_same a1 b1 h
    simp only [List.map_cons, descent]
    rw [← e] at b2 ⊢
    exact ih a2 b2

theorem takesAll_of_all {L : Layer} {lr clip : ℕ → Fin N → ℝ} {its : List (List (Batch sh))} (h : ∀ bs ∈ its, ∀ b ∈ bs, ∀ θ, Takes L θ b)
    {k : ℕ} {θ : Params sh} : TakesAll L lr clip k θ its := by
  induction its generalizing k θ with
  | nil => trivial
  | cons bs its ih => exact ⟨fun b hb => h bs (by simp) b hb θ, ih fun bs' h' => h bs' (by simp [h'])⟩

theorem Spec.TakesFully.takes {L : Layer} {b : Batch sh} (h : TakesFully L θ b) : Takes L θ b := by
  intro P hP
  obtain ⟨Y, cb, D, back, e1, e2, hv, hc⟩ := h P hP
  refine ⟨Y, cb, D, back, e1, e2, hv, fun G g hG => ?_⟩
  obtain ⟨dv, G', e3, hG', -⟩ := hc G g hG
  exact ⟨dv, G', e3, hG'⟩

/-- Gradients accumulate.  Let a model be trained with SGD for any number of iterations, once with the batches `it.1` and once with
the batches `it.2` before each `finish_update`.  If in every iteration both are made of the same examples, however these are ordered
and cut into batches, then both trainings end with the same parameters. -/
theorem C116_sgd {Example : Type} {ℓ : Params sh → Example → ℝ} {cfg : OptCfg (Nat × String)} (hra : cfg.useRadam = false)
    (hb2 : ∀ t k s, cfg.b2 t k s = 0) (hL2 : ∀ t k s, cfg.L2 t k s = 0) {L : Layer} (s : TrainState A)
    (its : List (List (Part sh ℓ) × List (Part sh ℓ))) (hsame : ∀ it ∈ its, SameExamples it.1 it.2)
    (H : Wired s.nodes root slot key θ 0)
    (h1 : TakesAll L (fun t p => cfg.learnRate t (key p) s.opt.lastScore) (fun t p => cfg.gradClip t (key p) s.opt.lastScore)
      s.opt.step θ (its.map fun it => it.1.map Part.batch))
    (h2 : TakesAll L (fun t p => cfg.learnRate t (key p) s.opt.lastScore) (fun t p => cfg.gradClip t (key p) s.opt.lastScore)
      s.opt.step θ (its.map fun it => it.2.map Part.batch)) :
    ∃ (s₁ s₂ : TrainState A) (θ' : Params sh), trainLoop L N slot cfg root s (its.map fun it => it.1.map fun p => (p.batch.input, p.batch.lossGrad)) = .ok s₁ ∧
      trainLoop L N slot cfg root s (its.map fun it => it.2.map fun p => (p.batch.input, p.batch.lossGrad)) = .ok s₂ ∧
      Wired s₁.nodes root slot key θ' 0 ∧ Wired s₂.nodes root slot key θ' 0 := by
  obtain ⟨s₁, e1, -, w1⟩ := C77_sgd hra hb2 hL2 (L := L) s _ H h1
  obtain ⟨s₂, e2, -, w2⟩ := C77_sgd hra hb2 hL2 (L := L) s _ H h2
  refine ⟨s₁, s₂, _, ?_, ?_, w1, ?_⟩
  · rw [← e1]; simp only [List.map_map, Function.comp_def]
  · rw [← e2]; simp only [List.map_map, Function.comp_def]
  · rw [descent_same ?_ h1 h2]
    · exact w2
    · rw [List.forall₂_map_left_iff, List.forall₂_map_right_iff, List.forall₂_same]
      exact fun it hit => totalLoss_same (hsame it hit)

theorem train_same {L : Layer} {hyper : ℕ → Fin N → Hyper} {decay : Bool} {its its' : List (List (Batch sh))}
    (h : List.Forall₂ (fun bs cs => totalLoss (bs.map Batch.loss) = totalLoss (cs.map Batch.loss)) its its') {k : ℕ} {S : Vars sh}
    (h1 : TakesEvery L hyper decay k S its) (h2 : TakesEvery L hyper decay k S its') :
    Vars.train hyper decay k S (its.map fun bs => bs.map Batch.loss) = Vars.train hyper decay k S (its'.map fun bs => bs.map Batch.loss) := by
  induction h generalizing k S with
  | nil => rfl
  | cons h hs ih =>
    obtain ⟨-, a1, a2⟩ := h1
    obtain ⟨-, b1, b2⟩ := h2
    have e := totalGradient_same (fun b hb => (a1 b hb).takes) (fun b hb => (b1 b hb).takes) h
    simp only [List.map_cons, Vars.train]
    unfold Vars.iterate at a2 b2 ⊢
    rw [← e] at b2 ⊢
    exact ih a2 b2

/-- The same with Adam (and with L2 regularisation, weight decay and averages): the parameters, and what the optimizer remembers of
them, are the same. -/
theorem C116_adam {Example : Type} {ℓ : Params sh → Example → ℝ} {cfg : OptCfg (Nat × String)} (hra : cfg.useRadam = false)
    (hb : ∀ t k s, 0 < cfg.b2 t k s → 0 < cfg.b1 t k s) (hsh : ∀ p, 0 < (sh p).1) {L : Layer} (s : TrainState A) {S : Vars sh}
    (its : List (List (Part sh ℓ) × List (Part sh ℓ))) (hsame : ∀ it ∈ its, SameExamples it.1 it.2)
    (H : Wired s.nodes root slot key S.weights 0) (hu : DistinctIds s.nodes root) (hrem : ∀ p, Remembers s.opt (key p) (S p))
    (h1 : TakesEvery L (fun t p => cfg.hyper t (key p) s.opt.lastScore) cfg.L2IsWeightDecay s.opt.step S
      (its.map fun it => it.1.map Part.batch))
    (h2 : TakesEvery L (fun t p => cfg.hyper t (key p) s.opt.lastScore) cfg.L2IsWeightDecay s.opt.step S
      (its.map fun it => it.2.map Part.batch)) :
    ∃ (s₁ s₂ : TrainState A) (S' : Vars sh), trainLoop L N slot cfg root s (its.map fun it => it.1.map fun p => (p.batch.input, p.batch.lossGrad)) = .ok s₁ ∧
      trainLoop L N slot cfg root s (its.map fun it => it.2.map fun p => (p.batch.input, p.batch.lossGrad)) = .ok s₂ ∧
      Wired s₁.nodes root slot key S'.weights 0 ∧ Wired s₂.nodes root slot key S'.weights 0 ∧
      ∀ p, Remembers s₁.opt (key p) (S' p) ∧ Remembers s₂.opt (key p) (S' p) := by
  obtain ⟨s₁, e1, -, w1, r1⟩ := C90_adam hra hb hsh (L := L) s _ H hu hrem h1
  obtain ⟨s₂, e2, -, w2, r2⟩ := C90_adam hra hb hsh (L := L) s _ H hu hrem h2
  have e := train_same (List.forall₂_map_left_iff.2 (List.forall₂_map_right_iff.2 (List.forall₂_same.2 fun it hit =>
    totalLoss_same (hsame it hit)))) h1 h2
  refine ⟨s₁, s₂, _, ?_, ?_, w1, ?_, fun p => ⟨r1 p, ?_⟩⟩
  · rw [← e1]; simp only [List.map_map, Function.comp_def]
  · rw [← e2]; simp only [List.map_map, Function.comp_def]
  · rw [e]; exact w2
  · rw [e]; exact r2 p

/-! ### Models that map rows -/

/-- A batch with some rows of a data set with inputs `x`, as an array. -/
structure Spec.Rows {n i : ℕ} (x : Fin n → Fin i → ℝ) where
  size : ℕ
  pos : 0 < size
  rows : Fin size → Fin n
  X : Mat ℝ
  hX : IsMat X fun r => x (rows r)

/-- The same with the rows of the targets `t`. -/
structure Spec.Targets {n i o : ℕ} (x : Fin n → Fin i → ℝ) (t : Fin n → Fin o → ℝ) extends Rows x where
  T : Mat ℝ
  hT : IsMat T fun r => t (rows r)

/-- Two ways to cut the same rows into batches. -/
def Spec.SameRows {n i : ℕ} {x : Fin n → Fin i → ℝ} (ps qs : List (Rows x)) : Prop :=
  (ps.flatMap fun p => List.ofFn p.rows).Perm (qs.flatMap fun p => List.ofFn p.rows)

/-- The batch with the loss `L2Distance(normalize=False)`. -/
noncomputable def l2Part {n i o : ℕ} {x : Fin n → Fin i → ℝ} {t : Fin n → Fin o → ℝ} (φ : Params sh → (Fin i → ℝ) → Fin o → ℝ)
    (c : Targets x t) : Part sh (fun θ (r : Fin n) => (∑ k, (φ θ (x r) k - t r k) ^ 2) / (2 * 1)) where
  batch := ⟨.arr c.X, l2GradVal false c.T, fun θ => (∑ r, ∑ k, (φ θ (x (c.rows r)) k - t (c.rows r) k) ^ 2) /
    (2 * if false then (c.size : ℝ) else 1)⟩
  examples := List.ofFn c.rows
  loss_eq θ := by
    simp only [Bool.false_eq_true, if_false, List.map_ofFn, List.sum_ofFn, Function.comp_apply, Finset.sum_div]

theorem l2Part_takes {n i o : ℕ} {x : Fin n → Fin i → ℝ} {t : Fin n → Fin o → ℝ} {φ : Params sh → (Fin i → ℝ) → Fin o → ℝ} {L : Layer}
    {D : (Fin i → ℝ) → Prop} (hL : ExactRows L true θ φ D) (hD : ∀ r, D (x r)) (c : Targets x t) : Takes L θ (l2Part φ c).batch :=
  C77_trains (C73_l2 (hL c.size (fun r => x (c.rows r)) c.pos fun r => hD _) false (A := c.T) (t := fun r => t (c.rows r)) c.hT)
    ⟨c.X, rfl, c.hX⟩

/-- Training any model that maps rows, with `L2Distance(normalize=False)` and SGD: in every iteration the rows may be cut into other
batches (one large batch, or many small ones before each `finish_update`), and the parameters after the training are the same. -/
theorem C116_l2 {n i o : ℕ} {x : Fin n → Fin i → ℝ} {t : Fin n → Fin o → ℝ} {φ : Params sh → (Fin i → ℝ) → Fin o → ℝ} {L : Layer}
    (hL : ∀ θ, ExactRows L true θ φ fun _ => True) {cfg : OptCfg (Nat × String)} (hra : cfg.useRadam = false)
    (hb2 : ∀ t k s, cfg.b2 t k s = 0) (hL2 : ∀ t k s, cfg.L2 t k s = 0) (s : TrainState A)
    (its : List (List (Targets x t) × List (Targets x t)))
    (hsame : ∀ it ∈ its, SameRows (it.1.map Targets.toRows) (it.2.map Targets.toRows)) (H : Wired s.nodes root slot key θ 0) :
    ∃ (s₁ s₂ : TrainState A) (θ' : Params sh),
      trainLoop L N slot cfg root s (its.map fun it => it.1.map fun c => (.arr c.X, l2GradVal false c.T)) = .ok s₁ ∧
      trainLoop L N slot cfg root s (its.map fun it => it.2.map fun c => (.arr c.X, l2GradVal false c.T)) = .ok s₂ ∧
      Wired s₁.nodes root slot key θ' 0 ∧ Wired s₂.nodes root slot key θ' 0 := by
  have hS : ∀ it ∈ its.map fun it => (it.1.map (l2Part φ), it.2.map (l2Part φ)), SameExamples it.1 it.2 := by
    intro it hit
    obtain ⟨it', hit', rfl⟩ := List.mem_map.1 hit
    have := hsame it' hit'
    unfold SameRows at this
    unfold SameExamples
    simp only [List.flatMap_map] at this ⊢
    exact this
  have hT1 : ∀ bs ∈ (its.map fun it => (it.1.map (l2Part φ), it.2.map (l2Part φ))).map fun it => it.1.map Part.batch,
      ∀ b ∈ bs, ∀ θ, Takes L θ b := by
    intro bs hbs b hb θ
    simp only [List.map_map, List.mem_map, Function.comp_apply] at hbs
    obtain ⟨it, -, rfl⟩ := hbs
    simp only [List.mem_map, Function.comp_apply] at hb
    obtain ⟨c, -, rfl⟩ := hb
    exact l2Part_takes (hL θ) (fun _ => trivial) c
  have hT2 : ∀ bs ∈ (its.map fun it => (it.1.map (l2Part φ), it.2.map (l2Part φ))).map fun it => it.2.map Part.batch,
      ∀ b ∈ bs, ∀ θ, Takes L θ b := by
    intro bs hbs b hb θ
    simp only [List.map_map, List.mem_map, Function.comp_apply] at hbs
    obtain ⟨it, -, rfl⟩ := hbs
    simp only [List.mem_map, Function.comp_apply] at hb
    obtain ⟨c, -, rfl⟩ := hb
    exact l2Part_takes (hL θ) (fun _ => trivial) c
  obtain ⟨s₁, s₂, θ', e1, e2, w⟩ := C116_sgd hra hb2 hL2 (L := L) s _ hS H (takesAll_of_all hT1) (takesAll_of_all hT2)
  refine ⟨s₁, s₂, θ', ?_, ?_, w⟩
  · rw [← e1]; simp only [List.map_map, Function.comp_def]; rfl
  · rw [← e2]; simp only [List.map_map, Function.comp_def]; rfl

/-- A batch with some rows of a data set and their labels. -/
structure Spec.Labels {n i : ℕ} (x : Fin n → Fin i → ℝ) (y : Fin n → ℤ) extends Rows x where
  truths : Truths
  labels : truths = .intList (List.ofFn fun r => y (rows r)) ∨ truths = .intArray (List.ofFn fun r => y (rows r))

/-- The batch with the loss `CategoricalCrossentropy(normalize=False)` of a model that ends with Softmax. -/
noncomputable def cceLabelsPart {n i m o : ℕ} {x : Fin n → Fin i → ℝ} {y : Fin n → ℤ} (φ : Params sh → (Fin i → ℝ) → Fin m → ℝ)
    {W b : Fin N} (hW : sh W = (o, m)) (hb : sh b = (1, o)) (T : ℝ) (c : CCE) (hc : c.normalize = false) (d : Labels x y) :
    Part sh (fun θ (r : Fin n) => rowLoss (tagTarget o c.missing c.smoothing (y r))
      (Spec.softmax fun k => affine (fun _ : Fin 1 => φ θ (x r)) (θ.get W hW) (θ.vec b hb) 0 k / T)) where
  batch := ⟨.arr d.X, cceGrad c d.truths, fun θ => batchXent c (fun r => tagTarget o c.missing c.smoothing (y (d.rows r)))
    fun r k => affine (fun r => φ θ (x (d.rows r))) (θ.get W hW) (θ.vec b hb) r k / T⟩
  examples := List.ofFn d.rows
  loss_eq θ := by
    simp only [List.map_ofFn, List.sum_ofFn, Function.comp_apply, batchXent, CCE.divisor, hc, Bool.false_eq_true, if_false, div_one]
    rfl

theorem cceLabelsPart_takes {n i m o : ℕ} {x : Fin n → Fin i → ℝ} {y : Fin n → ℤ} {φ : Params sh → (Fin i → ℝ) → Fin m → ℝ}
    {W b : Fin N} (hW : sh W = (o, m)) (hb : sh b = (1, o)) (ho : 0 < o) {T : ℝ} (hT : 0 < T) (normalizeOutputs : Bool) (c : CCE)
    (hc : c.normalize = false) (hs : validSmoothing o c.smoothing) (hnames : c.namesFit o)
    (hy : ∀ r, (0 ≤ y r ∧ y r < o) ∨ (c.missing = .int (y r) ∧ -(o : Int) ≤ y r ∧ y r < o)) {Ls : List Layer}
    {D : (Fin i → ℝ) → Prop} (hL : ExactRowsAll true θ Ls φ D) (hD : ∀ r, D (x r)) (d : Labels x y) :
    Takes (chain (Ls ++ [softmaxLayer W b normalizeOutputs T])) θ (cceLabelsPart φ hW hb T c hc d).batch := by
  refine C77_trains (E := Fin d.size → Fin i → ℝ) (K := Kind.arr d.size i) (x := fun r => x (d.rows r))
    (loss := fun p => batchXent c (fun r => tagTarget o c.missing c.smoothing (y (d.rows r)))
      fun r k => affine (fun r => φ p.1 (p.2 r)) (p.1.get W hW) (p.1.vec b hb) r k / T) ?_ ⟨d.X, rfl, d.hX⟩
  refine C73_chain (M := Kind.arr d.size m) (ℓ := fun p => batchXent c (fun r => tagTarget o c.missing c.smoothing (y (d.rows r)))
      fun r k => affine p.2 (p.1.get W hW) (p.1.vec b hb) r k / T)
      (exactRows_chain hL d.pos (fun r => x (d.rows r)) fun r => hD _) ?_
  refine C73_labels W b hW hb ho hT (by simp) θ _ c hs hnames (List.ofFn fun r => y (d.rows r)) (by simp) ?_ d.truths d.labels _ ?_ ?_
  · intro z hz
    obtain ⟨r, rfl⟩ := (List.mem_ofFn' _ _).1 hz
    exact hy _
  · intro r h
    simp only [List.get_ofFn] at h
    exact tagTarget_missing h
  · intro r h
    simp only [List.get_ofFn] at h ⊢
    exact tagTarget_label h

/-- The same for classifiers: layers that map rows, then Softmax, trained with `CategoricalCrossentropy(normalize=False)` on labels,
some of which may be missing. -/
theorem C116_labels {n i m o : ℕ} {x : Fin n → Fin i → ℝ} {y : Fin n → ℤ} {φ : Params sh → (Fin i → ℝ) → Fin m → ℝ}
    {W b : Fin N} (hW : sh W = (o, m)) (hb : sh b = (1, o)) (ho : 0 < o) {T : ℝ} (hT : 0 < T) (normalizeOutputs : Bool) (κ : CCE)
    (hc : κ.normalize = false) (hs : validSmoothing o κ.smoothing) (hnames : κ.namesFit o)
    (hy : ∀ r, (0 ≤ y r ∧ y r < o) ∨ (κ.missing = .int (y r) ∧ -(o : Int) ≤ y r ∧ y r < o)) {Ls : List Layer}
    (hL : ∀ θ, ∃ D : (Fin i → ℝ) → Prop, ExactRowsAll true θ Ls φ D ∧ ∀ r, D (x r)) {cfg : OptCfg (Nat × String)}
    (hra : cfg.useRadam = false)
    (hb2 : ∀ t k s, cfg.b2 t k s = 0) (hL2 : ∀ t k s, cfg.L2 t k s = 0) (s : TrainState A)
    (its : List (List (Labels x y) × List (Labels x y)))
    (hsame : ∀ it ∈ its, SameRows (it.1.map Labels.toRows) (it.2.map Labels.toRows)) (H : Wired s.nodes root slot key θ 0) :
    ∃ (s₁ s₂ : TrainState A) (θ' : Params sh),
      trainLoop (chain (Ls ++ [softmaxLayer W b normalizeOutputs T])) N slot cfg root s
        (its.map fun it => it.1.map fun d => (.arr d.X, cceGrad κ d.truths)) = .ok s₁ ∧
      trainLoop (chain (Ls ++ [softmaxLayer W b normalizeOutputs T])) N slot cfg root s
        (its.map fun it => it.2.map fun d => (.arr d.X, cceGrad κ d.truths)) = .ok s₂ ∧
      Wired s₁.nodes root slot key θ' 0 ∧ Wired s₂.nodes root slot key θ' 0 := by
  have hS : ∀ it ∈ its.map fun it => (it.1.map (cceLabelsPart φ hW hb T κ hc), it.2.map (cceLabelsPart φ hW hb T κ hc)), SameExamples it.1 it.2 := by
    intro it hit
    obtain ⟨it', hit', rfl⟩ := List.mem_map.1 hit
    have := hsame it' hit'
    unfold SameRows at this
    unfold SameExamples
    simp only [List.flatMap_map] at this ⊢
    exact this
  have hT1 : ∀ bs ∈ (its.map fun it => (it.1.map (cceLabelsPart φ hW hb T κ hc), it.2.map (cceLabelsPart φ hW hb T κ hc))).map fun it => it.1.map Part.batch,
      ∀ β ∈ bs, ∀ θ, Takes (chain (Ls ++ [softmaxLayer W b normalizeOutputs T])) θ β := by
    intro bs hbs β hβ θ
    simp only [List.map_map, List.mem_map, Function.comp_apply] at hbs
    obtain ⟨it, -, rfl⟩ := hbs
    simp only [List.mem_map, Function.comp_apply] at hβ
    obtain ⟨c, -, rfl⟩ := hβ
    exact cceLabelsPart_takes hW _ ho hT normalizeOutputs κ hc hs hnames hy (hL θ).choose_spec.1 (hL θ).choose_spec.2 c
  have hT2 : ∀ bs ∈ (its.map fun it => (it.1.map (cceLabelsPart φ hW hb T κ hc), it.2.map (cceLabelsPart φ hW hb T κ hc))).map fun it => it.2.map Part.batch,
      ∀ β ∈ bs, ∀ θ, Takes (chain (Ls ++ [softmaxLayer W b normalizeOutputs T])) θ β := by
    intro bs hbs β hβ θ
    simp only [List.map_map, List.mem_map, Function.comp_apply] at hbs
    obtain ⟨it, -, rfl⟩ := hbs
    simp only [List.mem_map, Function.comp_apply] at hβ
    obtain ⟨c, -, rfl⟩ := hβ
    exact cceLabelsPart_takes hW _ ho hT normalizeOutputs κ hc hs hnames hy (hL θ).choose_spec.1 (hL θ).choose_spec.2 c
  obtain ⟨s₁, s₂, θ', e1, e2, w⟩ := C116_sgd hra hb2 hL2 (L := (chain (Ls ++ [softmaxLayer W b normalizeOutputs T]))) s _ hS H (takesAll_of_all hT1) (takesAll_of_all hT2)
  refine ⟨s₁, s₂, θ', ?_, ?_, w⟩
  · rw [← e1]; simp only [List.map_map, Function.comp_def]; rfl
  · rw [← e2]; simp only [List.map_map, Function.comp_def]; rfl

end

/-! ### With normalized losses the batches matter -/

/-- The batch with two equal rows, input 1 and target 1, and the loss `L2Distance(normalize=True)`. -/
noncomputable def exTwoRows : Batch (fun _ : Fin 2 => (1, 1)) :=
  ⟨.arr (Mat.ofFn 2 1 fun _ _ => 1), l2GradVal true (Mat.ofFn 2 1 fun _ _ => 1), fun θ =>
    (∑ i : Fin 2, ∑ k : Fin 1, (affine (fun (_ : Fin 2) (_ : Fin 1) => 1) (θ.get 0 rfl) (θ.vec 1 rfl) i k - 1) ^ 2) /
      (2 * if true then ((2 : ℕ) : ℝ) else 1)⟩

/-- The batch with one of them. -/
noncomputable def exOneRow : Batch (fun _ : Fin 2 => (1, 1)) :=
  ⟨.arr (Mat.ofFn 1 1 fun _ _ => 1), l2GradVal true (Mat.ofFn 1 1 fun _ _ => 1), fun θ =>
    (∑ i : Fin 1, ∑ k : Fin 1, (affine (fun (_ : Fin 1) (_ : Fin 1) => 1) (θ.get 0 rfl) (θ.vec 1 rfl) i k - 1) ^ 2) /
      (2 * if true then ((1 : ℕ) : ℝ) else 1)⟩

theorem exTwoRows_takes (θ : Params fun _ : Fin 2 => (1, 1)) : Takes (linear 0 1) θ exTwoRows :=
  C77_trains (C73_l2 (C56_linear 0 1 rfl rfl true θ fun (_ : Fin 2) (_ : Fin 1) => 1) true (A := Mat.ofFn 2 1 fun _ _ => 1)
    (t := fun _ _ => 1) (isMat_ofFn' _ _ fun _ _ => rfl)) ⟨_, rfl, isMat_ofFn' _ _ fun _ _ => rfl⟩

theorem exOneRow_takes (θ : Params fun _ : Fin 2 => (1, 1)) : Takes (linear 0 1) θ exOneRow :=
  C77_trains (C73_l2 (C56_linear 0 1 rfl rfl true θ fun (_ : Fin 1) (_ : Fin 1) => 1) true (A := Mat.ofFn 1 1 fun _ _ => 1)
    (t := fun _ _ => 1) (isMat_ofFn' _ _ fun _ _ => rfl)) ⟨_, rfl, isMat_ofFn' _ _ fun _ _ => rfl⟩

theorem exTwoRows_loss : exTwoRows.loss = (exLinearBatch 1 1).loss := by
  funext θ
  rw [exLinear_loss]
  simp only [exTwoRows, affine, Params.get, Params.vec, Finset.univ_unique, Finset.sum_singleton, if_true, Fin.sum_univ_two]
  show ((1 * θ 0 0 0 + θ 1 0 0 - 1) ^ 2 + (1 * θ 0 0 0 + θ 1 0 0 - 1) ^ 2) / (2 * ((2 : ℕ) : ℝ)) = _
  push_cast
  ring

theorem exOneRow_loss : exOneRow.loss = (exLinearBatch 1 1).loss := by
  funext θ
  rw [exLinear_loss]
  simp only [exOneRow, affine, Params.get, Params.vec, Finset.univ_unique, Finset.sum_singleton, if_true]
  show (1 * θ 0 0 0 + θ 1 0 0 - 1) ^ 2 / (2 * ((1 : ℕ) : ℝ)) = _
  push_cast
  ring

/-- With `L2Distance(normalize=True)`, the default, it does matter how the rows are cut into batches: two batches with one row before
`finish_update` change the bias twice as much as one batch with both rows. -/
theorem C116_normalized_violated :
    ∃ (s₁ s₂ : TrainState Unit) (θ₁ θ₂ : Params fun _ : Fin 2 => (1, 1)),
      trainLoop (linear 0 1) 2 exLinearSlots exQuarter 0 ⟨exLinearHeap, OptState.init true⟩
        [[(exTwoRows.input, exTwoRows.lossGrad)]] = .ok s₁ ∧
      trainLoop (linear 0 1) 2 exLinearSlots exQuarter 0 ⟨exLinearHeap, OptState.init true⟩
        [[(exOneRow.input, exOneRow.lossGrad), (exOneRow.input, exOneRow.lossGrad)]] = .ok s₂ ∧
      Wired s₁.nodes 0 exLinearSlots exLinearKey θ₁ 0 ∧ Wired s₂.nodes 0 exLinearSlots exLinearKey θ₂ 0 ∧
      θ₁ 1 0 0 = 1 / 4 ∧ θ₂ 1 0 0 = 1 / 2 := by
  obtain ⟨s₁, e1, -, w1⟩ := C77_sgd (cfg := exQuarter) rfl (fun _ _ _ => rfl) (fun _ _ _ => rfl) (L := linear 0 1)
    ⟨exLinearHeap, OptState.init true⟩ [[exTwoRows]] exLinear_wired ⟨fun b hb => by
      rw [List.mem_singleton] at hb; subst hb; exact exTwoRows_takes _, trivial⟩
  obtain ⟨s₂, e2, -, w2⟩ := C77_sgd (cfg := exQuarter) rfl (fun _ _ _ => rfl) (fun _ _ _ => rfl) (L := linear 0 1)
    ⟨exLinearHeap, OptState.init true⟩ [[exOneRow, exOneRow]] exLinear_wired ⟨fun b hb => by
      simp only [List.mem_cons, List.not_mem_nil, or_false, or_self] at hb; subst hb; exact exOneRow_takes _, trivial⟩
  refine ⟨s₁, s₂, _, _, e1, e2, w1, w2, ?_, ?_⟩
  · show descend (fun _ => (1 / 4 : ℝ)) (fun _ => 0) 0 (totalGradient [exTwoRows.loss] 0) 1 0 0 = _
    rw [descend_plain, exTwoRows_loss]
    simp only [totalGradient, List.map_cons, List.map_nil, List.sum_cons, List.sum_nil, add_zero, Pi.sub_apply, Pi.smul_apply,
      exLinear_gradient, Pi.zero_apply, smul_eq_mul]
    norm_num
  · show descend (fun _ => (1 / 4 : ℝ)) (fun _ => 0) 0 (totalGradient [exOneRow.loss, exOneRow.loss] 0) 1 0 0 = _
    rw [descend_plain, exOneRow_loss]
    simp only [totalGradient, List.map_cons, List.map_nil, List.sum_cons, List.sum_nil, add_zero, Pi.sub_apply, Pi.add_apply, Pi.smul_apply,
      exLinear_gradient, Pi.zero_apply, smul_eq_mul]
    norm_num

/-! ### Examples -/

/-- Non-vacuity of `C116_predictions`: a network with Relu, a residual connection around Maxout, LayerNorm and Softmax. -/
example (junk : ℕ → ℝ) (junkW : ℕ → ℤ) (θ : Params (fun p : Fin 8 => if p = 0 then (3, 2) else if p = 1 then (1, 3) else
    if p = 2 then (3 * 2, 3) else if p = 3 then (3, 2) else if p = 4 then (1, 3) else if p = 5 then (1, 3) else if p = 6 then (4, 3) else
    (1, 4))) :
    ∃ φ : Params _ → (Fin 2 → ℝ) → Fin 4 → ℝ, MapsRows (chain [reluLayer 0 1, residual (maxoutLayer junk junkW 2 3 3 2 3), layerNorm 4 5,
      softmaxLayer 6 7 true 1]) false θ φ :=
  ⟨_, C116_chain (.cons (C116_relu 0 1 rfl rfl false θ) (.cons (C116_residual (C116_maxout junk junkW 2 3 rfl rfl (by decide) (by decide) false θ))
    (.cons (C116_exact_rows (C116_layer_norm (by decide) 4 5 rfl rfl false θ))
      (.one (C116_softmax 6 7 rfl rfl (by decide) one_pos (by decide) θ)))))⟩

/-- Non-vacuity of `C116_l2`: three rows in one batch, or two batches in another order, in each of two iterations. -/
example (x t : Fin 3 → Fin 1 → ℝ) :
    ∃ (s₁ s₂ : TrainState Unit) (θ' : Params fun _ : Fin 2 => (1, 1)),
      trainLoop (linear 0 1) 2 exLinearSlots exQuarter 0 ⟨exLinearHeap, OptState.init true⟩
        (List.replicate 2 [(.arr (Mat.ofFn 3 1 fun r _ => x (Fin.ofNat 3 r) 0), l2GradVal false (Mat.ofFn 3 1 fun r _ => t (Fin.ofNat 3 r) 0))]) = .ok s₁ ∧
      trainLoop (linear 0 1) 2 exLinearSlots exQuarter 0 ⟨exLinearHeap, OptState.init true⟩
        (List.replicate 2 [(.arr (Mat.ofFn 1 1 fun _ _ => x 2 0), l2GradVal false (Mat.ofFn 1 1 fun _ _ => t 2 0)),
          (.arr (Mat.ofFn 2 1 fun r _ => x (Fin.ofNat 3 r) 0), l2GradVal false (Mat.ofFn 2 1 fun r _ => t (Fin.ofNat 3 r) 0))]) = .ok s₂ ∧
      Wired s₁.nodes 0 exLinearSlots exLinearKey θ' 0 ∧ Wired s₂.nodes 0 exLinearSlots exLinearKey θ' 0 := by
  let all : Targets x t := { size := 3, pos := by decide, rows := id, X := Mat.ofFn 3 1 fun r _ => x (Fin.ofNat 3 r) 0
                             hX := isMat_ofFn' _ _ fun r k => by fin_cases r <;> fin_cases k <;> rfl
                             T := Mat.ofFn 3 1 fun r _ => t (Fin.ofNat 3 r) 0
                             hT := isMat_ofFn' _ _ fun r k => by fin_cases r <;> fin_cases k <;> rfl }
  let last : Targets x t := { size := 1, pos := by decide, rows := fun _ => 2, X := Mat.ofFn 1 1 fun _ _ => x 2 0
                              hX := isMat_ofFn' _ _ fun r k => by fin_cases k; rfl
                              T := Mat.ofFn 1 1 fun _ _ => t 2 0
                              hT := isMat_ofFn' _ _ fun r k => by fin_cases k; rfl }
  let front : Targets x t := { size := 2, pos := by decide, rows := Fin.castSucc, X := Mat.ofFn 2 1 fun r _ => x (Fin.ofNat 3 r) 0
                               hX := isMat_ofFn' _ _ fun r k => by fin_cases r <;> fin_cases k <;> rfl
                               T := Mat.ofFn 2 1 fun r _ => t (Fin.ofNat 3 r) 0
                               hT := isMat_ofFn' _ _ fun r k => by fin_cases r <;> fin_cases k <;> rfl }
  refine C116_l2 (L := linear 0 1) (fun θ => C116_linear 0 1 rfl rfl true θ) (cfg := exQuarter) rfl (fun _ _ _ => rfl) (fun _ _ _ => rfl)
    ⟨exLinearHeap, OptState.init true⟩ (List.replicate 2 ([all], [last, front])) ?_ exLinear_wired
  intro it hit
  obtain rfl := List.eq_of_mem_replicate hit
  show List.Perm [0, 1, 2] [2, 0, 1]
  decide

end Thinc
