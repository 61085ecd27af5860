import Verif.Props.Checkpoint
import Verif.Props.DiskWrong
import Verif.Props.Instances.MemLoop
import Mathlib.Tactic.FinCases
/-!
# C125: checkpoints that do not keep what they should, and instances of the theorems
-/
namespace Thinc
open Spec BigOperators

/-- The hypotheses on the model and the new model hold of linear regression, before training (and so, by `LoadableInto.trained`, at any time). -/
theorem exLinear_loadable : LoadableInto exUnitOps ⟨exLinearHeap, []⟩ exBlank 0 0 (fun a => a) (fun a => a) :=
  ⟨⟨by decide, fun a n h => (by obtain ⟨-, rfl⟩ := exLinear_node a n h; simp [exLinearNode, PyDict.get?]),
      fun a b n m h1 h2 _ => (exLinear_node a n h1).1.trans (exLinear_node b m h2).1.symm, exLinear_wf,
      fun a n h k hk => (exLinear_set h k).2 hk, fun v e h => (by cases h), fun x => ⟨(), rfl⟩⟩,
    ⟨by decide, fun a n h => (by obtain ⟨-, rfl⟩ := exBlank_node a n h; simp [PyDict.get?]),
      fun a b n m h1 h2 _ => (exBlank_node a n h1).1.trans (exBlank_node b m h2).1.symm,
      fun a n h => (by
        obtain ⟨-, rfl⟩ := exBlank_node a n h
        constructor <;> unfold PyDict.WF <;> simp [PyDict.keys]),
      fun a n h k hk => (by
        obtain ⟨-, rfl⟩ := exBlank_node a n h
        by_cases h1 : "W" = k
        · simp [Node.hasParam, PyDict.get?, h1] at hk
        · by_cases h2 : "b" = k <;> simp [Node.hasParam, PyDict.get?, h1, h2] at hk),
      fun v e h => (by cases h), fun x => ⟨(), rfl⟩⟩,
    (fun a n name r _ h hr => (by obtain ⟨-, rfl⟩ := exLinear_node a n h; simp [exLinearNode, Node.getRef, PyDict.get?] at hr)),
    ⟨rfl, fun _ _ _ _ h => h, fun a n _ h => by
      obtain ⟨rfl, rfl⟩ := exLinear_node a n h
      exact ⟨_, rfl, rfl⟩⟩,
    (fun a n m _ h h' => by
      obtain ⟨rfl, rfl⟩ := exLinear_node a n h
      obtain ⟨-, rfl⟩ := exBlank_node _ m h'
      exact ⟨fun k => (by simp [exLinearNode, Node.dimNames, Node.hasDim, PyDict.get?, PyDict.keys]),
        fun k => (by simp [exLinearNode, Node.refNames, PyDict.keys]), fun k => (by simp [exLinearNode, Node.paramNames, PyDict.keys]),
        fun k => (by simp [exLinearNode, PyDict.keys]), fun k v hv => (by simp [exLinearNode, PyDict.get?] at hv), rfl⟩),
    (fun a b n m t u _ _ h _ ht => (by obtain ⟨-, rfl⟩ := exLinear_node a n h; simp [exLinearNode] at ht)),
    (fun x y b h => rfl),
    (fun b m k _ h => by obtain ⟨-, rfl⟩ := exBlank_node b m h; rfl)⟩

theorem exLinear_noneUnset : NoneUnset exLinearHeap 0 := fun _ _ k X _ h hX => (exLinear_set h k).1 ⟨X, hX⟩

/-- Plain SGD with a constant learning rate. -/
noncomputable def exConstCfg : OptCfg (Nat × String) :=
  ⟨fun _ _ _ => 1 / 2, fun _ _ _ => 0, fun _ _ _ => 0, fun _ _ _ => 1, fun _ _ _ => 0, fun _ _ _ => 0, false, false⟩

/-- `C125_resume_partial` for linear regression on any data, with a constant learning rate, at any point, with a new optimizer. -/
example (its₁ its₂ : List (List (ℝ × ℝ))) : ∃ (t₁ t t' : TrainState Unit) (msg : Msg (Mat ℝ) Unit) (s'' : LoadState (Mat ℝ) Unit Unit)
      (key' : Fin 2 → Nat × String) (θ' : Params fun _ : Fin 2 => (1, 1)),
      trainLoop (linear 0 1) 2 exLinearSlots exConstCfg 0 ⟨exLinearHeap, OptState.init true⟩
        ((exBatches its₁).map fun bs => bs.map fun b => (b.input, b.lossGrad)) = .ok t₁ ∧
      toDict exUnitOps ⟨t₁.nodes, []⟩ 0 = .ok msg ∧ fromDict exUnitOps exBlank 0 msg = (s'', .ok ()) ∧
      trainLoop (linear 0 1) 2 (moved (fun a => a) exLinearSlots) exConstCfg 0 ⟨s''.nodes, OptState.init true⟩
        ((exBatches its₂).map fun bs => bs.map fun b => (b.input, b.lossGrad)) = .ok t' ∧
      trainLoop (linear 0 1) 2 exLinearSlots exConstCfg 0 ⟨exLinearHeap, OptState.init true⟩
        ((exBatches its₁ ++ exBatches its₂).map fun bs => bs.map fun b => (b.input, b.lossGrad)) = .ok t ∧
      Wired t.nodes 0 exLinearSlots exLinearKey θ' 0 ∧ Wired t'.nodes 0 (moved (fun a => a) exLinearSlots) key' θ' 0 :=
  C125_resume_partial (sh := fun _ : Fin 2 => (1, 1)) exUnitOps exLinearHeap [] exBlank 0 (fun a => a) (fun a => a) exLinear_loadable exLinear_wired
    exLinear_noneUnset (cfg := exConstCfg) (cfg' := exConstCfg) rfl (fun _ _ _ => rfl) (fun _ _ _ => rfl) rfl (fun _ _ _ => rfl) (fun _ _ _ => rfl)
    (OptState.init true) (OptState.init true) (linear 0 1) (exBatches its₁) (exBatches its₂) (fun _ _ _ => rfl) (fun _ _ _ => rfl) (by
      have := exLinear_takesAll exConstCfg exLinearKey none (its₁ ++ its₂) 0 0
      unfold exBatches at this
      rw [List.map_append] at this
      exact this)

/-- The gradient of the bias, on a batch whose input is zero. -/
theorem exGradient (t : ℝ) (θ : Params fun _ : Fin 2 => (1, 1)) : totalGradient [(exLinearBatch 0 t).loss] θ 1 0 0 = θ 1 0 0 - t := by
  have e : ∀ u, (exLinearBatch 0 t).loss (setEntry θ 1 0 0 u) = (u - t) ^ 2 / 2 := by
    intro u
    simp [exLinearBatch, affine, setEntry, Params.vec, Params.get]
  have h : deriv (fun u : ℝ => (u - t) ^ 2 / 2) (θ 1 0 0) = θ 1 0 0 - t := by
    have h1 : HasDerivAt (fun u : ℝ => (u - t) ^ 2 / 2) (2 * (θ 1 0 0 - t) ^ 1 * 1 / 2) (θ 1 0 0) := by
      have := ((hasDerivAt_id (θ 1 0 0)).sub_const t).pow 2
      simpa using this.div_const 2
    rw [h1.deriv]
    ring
  simp only [totalGradient, List.map_cons, List.map_nil, List.sum_cons, List.sum_nil, add_zero]
  show deriv (fun u => (exLinearBatch 0 t).loss (setEntry θ 1 0 0 u)) (θ 1 0 0) = _
  simp only [e]
  exact h

/-- Plain SGD with a learning rate that falls: 1, 1/2, 1/3, ... -/
noncomputable def exDecayCfg : OptCfg (Nat × String) :=
  ⟨fun t _ _ => 1 / ((t : ℝ) + 1), fun _ _ _ => 0, fun _ _ _ => 0, fun _ _ _ => 1, fun _ _ _ => 0, fun _ _ _ => 0, false, false⟩

/-- Adam with a constant learning rate, without regularisation or clipping. -/
noncomputable def exPlainAdam : OptCfg (Nat × String) :=
  ⟨fun _ _ _ => 1, fun _ _ _ => 1 / 2, fun _ _ _ => 1 / 2, fun _ _ _ => 1, fun _ _ _ => 0, fun _ _ _ => 0, false, false⟩

/-- Training is stopped after `its₁`, and the model is saved, loaded into another one and trained on `its₂` with a new optimizer that was built like
the first one.  The parameters at the end are not those of training without the interruption. -/
def ResumesElsewhere (cfg : OptCfg (Nat × String)) (its₁ its₂ : List (List (Batch fun _ : Fin 2 => (1, 1)))) : Prop :=
  ∃ (t₁ t t' : TrainState Unit) (msg : Msg (Mat ℝ) Unit) (s'' : LoadState (Mat ℝ) Unit Unit)
    (key' : Fin 2 → Nat × String) (θ θ' : Params fun _ : Fin 2 => (1, 1)),
    trainLoop (linear 0 1) 2 exLinearSlots cfg 0 ⟨exLinearHeap, OptState.init true⟩
      (its₁.map fun bs => bs.map fun b => (b.input, b.lossGrad)) = .ok t₁ ∧
    toDict exUnitOps ⟨t₁.nodes, []⟩ 0 = .ok msg ∧ fromDict exUnitOps exBlank 0 msg = (s'', .ok ()) ∧
    trainLoop (linear 0 1) 2 (moved (fun a => a) exLinearSlots) cfg 0 ⟨s''.nodes, OptState.init true⟩
      (its₂.map fun bs => bs.map fun b => (b.input, b.lossGrad)) = .ok t' ∧
    trainLoop (linear 0 1) 2 exLinearSlots cfg 0 ⟨exLinearHeap, OptState.init true⟩
      ((its₁ ++ its₂).map fun bs => bs.map fun b => (b.input, b.lossGrad)) = .ok t ∧
    Wired t.nodes 0 exLinearSlots exLinearKey θ 0 ∧ Wired t'.nodes 0 (moved (fun a => a) exLinearSlots) key' θ' 0 ∧ θ ≠ θ'

theorem exClip (d : Fin 1 → Fin 1 → ℝ) : clipTo 0 d = d := by
  unfold clipTo
  exact if_neg (fun h => h.1 rfl)

theorem exTakesAll (lr clip : ℕ → Fin 2 → ℝ) (its : List (List (Batch fun _ : Fin 2 => (1, 1))))
    (h : ∀ bs ∈ its, ∀ b ∈ bs, ∃ x t, b = exLinearBatch x t) : ∀ (k : ℕ) (θ : Params fun _ : Fin 2 => (1, 1)),
    TakesAll (linear 0 1) lr clip k θ its := by
  induction its with
  | nil => intro k θ; trivial
  | cons bs its ih =>
    intro k θ
    refine ⟨fun b hb => ?_, ih (fun bs hbs => h bs (by simp [hbs])) _ _⟩
    obtain ⟨x, t, rfl⟩ := h bs (by simp) b hb
    exact exLinear_takes x t θ

theorem exTakesEvery (hyper : ℕ → Fin 2 → Hyper) (decay : Bool) (its : List (List (Batch fun _ : Fin 2 => (1, 1))))
    (hne : ∀ bs ∈ its, bs ≠ []) (h : ∀ bs ∈ its, ∀ b ∈ bs, ∃ x t, b = exLinearBatch x t) :
    ∀ (k : ℕ) (S : Vars fun _ : Fin 2 => (1, 1)), TakesEvery (linear 0 1) hyper decay k S its := by
  induction its with
  | nil => intro k θ; trivial
  | cons bs its ih =>
    intro k θ
    refine ⟨hne bs (by simp), fun b hb => ?_, ih (fun bs hbs => hne bs (by simp [hbs])) (fun bs hbs => h bs (by simp [hbs])) _ _⟩
    obtain ⟨x, t, rfl⟩ := h bs (by simp) b hb
    exact C90_takes (exLinear_takes x t _) (C90_linear_fills 0 1) (by decide)

theorem exLoaded_distinct {s s'' : LoadState (Mat ℝ) Unit Unit} {msg : Msg (Mat ℝ) Unit}
    (l : LoadableInto exUnitOps s exBlank 0 0 (fun a => a) (fun a => a)) (e1 : toDict exUnitOps s 0 = .ok msg)
    (e2 : fromDict exUnitOps exBlank 0 msg = (s'', .ok ())) : DistinctIds s''.nodes 0 := by
  obtain ⟨msg', t, -, f1, f2, -, hkept, -⟩ := C09_round_trip_partial exUnitOps s exBlank 0 0 (fun a => a) (fun a => a) l.source l.target l.refs l.iso
    l.comp l.shims l.bytes
  rw [e1] at f1
  cases f1
  rw [e2] at f2
  cases f2
  obtain ⟨m, q1, -, q2, -⟩ := hkept 0 _ Relation.ReflTransGen.refl (show exBlank.nodes[0]? = some _ from rfl)
  have hr : ∀ a, Reachable s''.nodes 0 a → a = 0 := by
    intro a ha
    induction ha with
    | refl => rfl
    | tail _ hc ih =>
      subst ih
      obtain ⟨n, h1, h2⟩ := hc
      rw [q1] at h1
      cases h1
      rw [q2] at h2
      cases h2
  intro a b n m ha hb _ _ _
  exact (hr a ha).trans (hr b hb).symm

/-- C125 fails for learning rates that depend on the step: a new optimizer begins with the first rate again.  With the rates 1, 1/2, 1/3, ..., stopped
after one step. -/
theorem C125_schedule_wrong : ResumesElsewhere exDecayCfg [[exLinearBatch 0 (-1)]] [[exLinearBatch 0 0]] := by
  have hT : ∀ its : List (List (Batch fun _ : Fin 2 => (1, 1))), (∀ bs ∈ its, ∀ b ∈ bs, ∃ x t, b = exLinearBatch x t) →
    ∀ lr clip k θ, TakesAll (linear 0 1) lr clip k θ its := fun its h lr clip k θ => exTakesAll lr clip its h k θ
  have m1 : ∀ bs ∈ [[exLinearBatch 0 (-1)]], ∀ b ∈ bs, ∃ x t, b = exLinearBatch x t := by simp
  have m2 : ∀ bs ∈ [[exLinearBatch 0 0]], ∀ b ∈ bs, ∃ x t, b = exLinearBatch x t := by simp
  have m3 : ∀ bs ∈ [[exLinearBatch 0 (-1)]] ++ [[exLinearBatch 0 0]], ∀ b ∈ bs, ∃ x t, b = exLinearBatch x t := by simp
  obtain ⟨t₁, e1, -, w1⟩ := C77_sgd (cfg := exDecayCfg) rfl (fun _ _ _ => rfl) (fun _ _ _ => rfl) (L := linear 0 1)
    ⟨exLinearHeap, OptState.init true⟩ [[exLinearBatch 0 (-1)]] exLinear_wired (hT _ m1 _ _ _ _)
  have T := trainLoop_trained _ e1
  obtain ⟨msg, s'', key', e2, e3, w2⟩ := load_holds (exLinear_loadable.trained T) w1 (T.noneUnset exLinear_noneUnset)
  obtain ⟨t, e4, -, w3⟩ := C77_sgd (cfg := exDecayCfg) rfl (fun _ _ _ => rfl) (fun _ _ _ => rfl) (L := linear 0 1)
    ⟨exLinearHeap, OptState.init true⟩ ([[exLinearBatch 0 (-1)]] ++ [[exLinearBatch 0 0]]) exLinear_wired (hT _ m3 _ _ _ _)
  obtain ⟨t', e5, -, w4⟩ := C77_sgd (cfg := exDecayCfg) rfl (fun _ _ _ => rfl) (fun _ _ _ => rfl) (L := linear 0 1)
    ⟨s''.nodes, OptState.init true⟩ [[exLinearBatch 0 0]] w2 (hT _ m2 _ _ _ _)
  refine ⟨t₁, t, t', msg, s'', key', _, _, e1, e2, e3, e5, e4, w3, w4, fun e => ?_⟩
  have := congrFun (congrFun (congrFun e 1) 0) 0
  simp [descent, descend, exClip, exGradient, exDecayCfg, OptState.init] at this
  norm_num at this

/-- One step of Adam with these settings. -/
theorem exAdam_step (k : Nat × String) (s : Var 1 1) (g : Fin 1 → Fin 1 → ℝ) :
    (s.step (exPlainAdam.hyper 0 k none) false g).w 0 0 = s.w 0 0 - Real.sqrt (1 - (1 / 2) ^ (s.count + 1)) / (1 - (1 / 2) ^ (s.count + 1)) *
      ((1 / 2 * s.m1 0 0 + 1 / 2 * g 0 0) / (Real.sqrt (1 / 2 * s.m2 0 0 + 1 / 2 * g 0 0 ^ 2) + 1)) ∧
    (s.step (exPlainAdam.hyper 0 k none) false g).m1 0 0 = 1 / 2 * s.m1 0 0 + 1 / 2 * g 0 0 ∧
    (s.step (exPlainAdam.hyper 0 k none) false g).count = s.count + 1 := by
  have h : s.step (exPlainAdam.hyper 0 k none) false g = s.adam (exPlainAdam.hyper 0 k none) false g := by
    unfold Var.step
    exact if_pos ⟨by norm_num [exPlainAdam, OptCfg.hyper], by norm_num [exPlainAdam, OptCfg.hyper]⟩
  have hp : penalised (exPlainAdam.hyper 0 k none) false s.w g = g := by
    unfold penalised
    have e : (exPlainAdam.hyper 0 k none).clip = 0 := rfl
    have e' : (exPlainAdam.hyper 0 k none).L2 = 0 := rfl
    rw [e, e', exClip]
    simp
  rw [h]
  unfold Var.adam
  rw [hp]
  refine ⟨?_, ?_, rfl⟩
  · simp only [Var.finish, exPlainAdam, OptCfg.hyper, one_mul]
    norm_num
  · simp only [Var.finish, exPlainAdam, OptCfg.hyper]
    norm_num

/-- C125 fails for Adam, although all its settings are constant: the moments are not saved with the model.  The gradient of the second step is zero;
training without the interruption still moves the bias, because of the first moment, and the resumed training does not. -/
theorem C125_adam_wrong : ∃ t : ℝ, ResumesElsewhere exPlainAdam [[exLinearBatch 0 (-1)]] [[exLinearBatch 0 t]] := by
  let S₀ : Vars fun _ : Fin 2 => (1, 1) := fun _ => Var.fresh 0
  let S₁ := S₀.iterate (fun p => exPlainAdam.hyper 0 (exLinearKey p) none) false [(exLinearBatch 0 (-1)).loss]
  refine ⟨(S₁ 1).w 0 0, ?_⟩
  set u := (S₁ 1).w 0 0 with hu
  have hT : ∀ its : List (List (Batch fun _ : Fin 2 => (1, 1))), (∀ bs ∈ its, bs ≠ []) → (∀ bs ∈ its, ∀ b ∈ bs, ∃ x t, b = exLinearBatch x t) →
    ∀ hyper decay k S, TakesEvery (linear 0 1) hyper decay k S its := fun its h h' hyper decay k S => exTakesEvery hyper decay its h h' k S
  have hb : ∀ t k s, 0 < exPlainAdam.b2 t k s → 0 < exPlainAdam.b1 t k s := fun _ _ _ h => h
  have m1 : ∀ bs ∈ [[exLinearBatch 0 (-1)]], ∀ b ∈ bs, ∃ x t, b = exLinearBatch x t := by simp
  have m2 : ∀ bs ∈ [[exLinearBatch 0 u]], ∀ b ∈ bs, ∃ x t, b = exLinearBatch x t := by simp
  have m3 : ∀ bs ∈ [[exLinearBatch 0 (-1)]] ++ [[exLinearBatch 0 u]], ∀ b ∈ bs, ∃ x t, b = exLinearBatch x t := by simp
  obtain ⟨t₁, e1, -, w1, -⟩ := C90_adam (cfg := exPlainAdam) rfl hb (fun _ => Nat.one_pos) (L := linear 0 1)
    ⟨exLinearHeap, OptState.init true⟩ (S := S₀) [[exLinearBatch 0 (-1)]] exLinear_wired exLinear_distinct
    (fun p => C90_fresh (sh := fun _ : Fin 2 => (1, 1)) true exLinearKey (fun _ => 0) p) (hT _ (by simp) m1 _ _ _ _)
  have T := trainLoop_trained _ e1
  obtain ⟨msg, s'', key', e2, e3, w2⟩ := load_holds (exLinear_loadable.trained T) w1 (T.noneUnset exLinear_noneUnset)
  obtain ⟨t, e4, -, w3, -⟩ := C90_adam (cfg := exPlainAdam) rfl hb (fun _ => Nat.one_pos) (L := linear 0 1)
    ⟨exLinearHeap, OptState.init true⟩ (S := S₀) ([[exLinearBatch 0 (-1)]] ++ [[exLinearBatch 0 u]]) exLinear_wired exLinear_distinct
    (fun p => C90_fresh (sh := fun _ : Fin 2 => (1, 1)) true exLinearKey (fun _ => 0) p) (hT _ (by simp) m3 _ _ _ _)
  have hd : DistinctIds s''.nodes 0 := exLoaded_distinct (exLinear_loadable.trained T) e2 e3
  obtain ⟨t', e5, -, w4, -⟩ := C90_adam (cfg := exPlainAdam) rfl hb (fun _ => Nat.one_pos) (L := linear 0 1)
    ⟨s''.nodes, OptState.init true⟩ (S := fun p => Var.fresh (S₁.weights p)) [[exLinearBatch 0 u]] w2 hd
    (fun p => C90_fresh (sh := fun _ : Fin 2 => (1, 1)) true key' S₁.weights p) (hT _ (by simp) m2 _ _ _ _)
  refine ⟨t₁, t, t', msg, s'', key', _, _, e1, e2, e3, e5, e4, w3, w4, fun e => ?_⟩
  have := congrFun (congrFun (congrFun e 1) 0) 0
  have hS1 : (S₁ 1).m1 0 0 = 1 / 2 ∧ (S₁ 1).count = 1 := by
    obtain ⟨-, h1, h2⟩ := exAdam_step (exLinearKey 1) (S₀ 1) (totalGradient [(exLinearBatch 0 (-1)).loss] S₀.weights 1)
    refine ⟨h1.trans ?_, h2⟩
    rw [exGradient]
    norm_num [S₀, Var.fresh, Vars.weights]
  have hL := (exAdam_step (exLinearKey 1) (S₁ 1) (totalGradient [(exLinearBatch 0 u).loss] S₁.weights 1)).1
  have hR := (exAdam_step (key' 1) (Var.fresh (S₁ 1).w) (totalGradient [(exLinearBatch 0 u).loss] S₁.weights 1)).1
  have hg : totalGradient [(exLinearBatch 0 u).loss] S₁.weights 1 0 0 = 0 := by
    rw [exGradient]
    exact sub_self _
  rw [hg, hS1.1, hS1.2] at hL
  rw [hg] at hR
  have h1 : (Var.fresh (S₁ 1).w).m1 0 0 = 0 := rfl
  rw [h1] at hR
  have hLR := (hL.symm.trans this).trans hR
  have hw : (Var.fresh (S₁ 1).w).w 0 0 = (S₁ 1).w 0 0 := rfl
  rw [hw] at hLR
  have hpos : 0 < Real.sqrt (1 - (1 / 2) ^ (1 + 1)) / (1 - (1 / 2) ^ (1 + 1)) *
      ((1 / 2 * (1 / 2) + 1 / 2 * 0) / (Real.sqrt (1 / 2 * (S₁ 1).m2 0 0 + 1 / 2 * 0 ^ 2) + 1)) := by
    have := Real.sqrt_nonneg (1 / 2 * (S₁ 1).m2 0 0 + 1 / 2 * 0 ^ 2)
    have h2 : 0 < Real.sqrt (1 - (1 / 2) ^ (1 + 1)) := Real.sqrt_pos.2 (by norm_num)
    refine mul_pos (div_pos h2 (by norm_num)) (div_pos (by norm_num) (by linarith))
  simp only [mul_zero, add_zero, zero_div, sub_zero] at hLR
  simp only [mul_zero, add_zero] at hpos
  linarith

/-- An optimizer that has averages of the parameters, 2 and 3. -/
def exAveraged : OptState (Nat × String) :=
  { OptState.init true with averages := some [((7, "W"), [2]), ((7, "b"), [3])] }

/-- The same as variables under training. -/
def exAvgVars : Vars fun _ : Fin 2 => (1, 1) := fun p => ⟨0, 0, 0, fun _ _ => if p = 0 then 2 else 3, 0⟩

/-- The hypotheses of `C125_averages` hold of linear regression and an optimizer with averages. -/
example := C125_averages (sh := fun _ : Fin 2 => (1, 1)) exUnitOps exLinearHeap [] exBlank 0 (fun a => a) (fun a => a) (V := exAvgVars)
  exLinear_loadable exLinear_wired exLinear_noneUnset exLinear_distinct exLinear_acyclic 2 (by decide) exAveraged
  [((7, "W"), [2]), ((7, "b"), [3])] [((7, "W"), Mat.ofVec 1 1 [2]), ((7, "b"), Mat.ofVec 1 1 [3])]
  (fun p => by
    have hz : IsFlat (n := 1) (m := 1) [0] 0 := ⟨rfl, fun i j => by simp⟩
    refine ⟨rfl, hz, hz, fun avgs h => ?_⟩
    cases h
    fin_cases p
    · exact ⟨rfl, fun i j => by simp [exLinearKey, PyDict.get?, exAvgVars]⟩
    · exact ⟨rfl, fun i j => by simp [exLinearKey, PyDict.get?, exAvgVars]⟩)
  rfl
  (fun p => by
    fin_cases p
    · exact ⟨_, rfl, rfl⟩
    · exact ⟨_, rfl, rfl⟩)
  (fun k h => by
    by_cases h1 : (7, "W") = k
    · exact ⟨0, h1.symm⟩
    · by_cases h2 : (7, "b") = k
      · exact ⟨1, h2.symm⟩
      · simp [PyDict.get?, h1, h2] at h)

/-- A model with one parameter that refers to a node outside of its tree. -/
def exDanglingParam : Heap Int Int :=
  [{ name := "a", id := 1, layers := [], hasParams := [("W", some ())], params := [((1, "W"), 5)], refs := [("r", some 1)] },
   { name := "b", id := 2, layers := [] }]

/-- C125 fails: if the save inside of the block raises, the model is left with the averages.  The code has no `try`/`finally` there. -/
theorem C125_failed_save_wrong : (saveWith exOps [((1, "W"), 7)] 2 [] 0 exDanglingParam).2 = .error .valueError ∧
    (exDanglingParam[0]?.map fun n => n.getParam "W") = some (.ok 5) ∧
    ((saveWith exOps [((1, "W"), 7)] 2 [] 0 exDanglingParam).1[0]?.map fun n => n.getParam "W") = some (.ok 7) := by
  refine ⟨?_, ?_, ?_⟩ <;>
  simp [exDanglingParam, saveWith, saveBody, useParams, enterLayers, swapIn, PyDict.contains, Heap.modify, toDict, walkBfs, bfsLoop, layersOf, nodeToI, mapE, nodeInfo, refsToDict, Node.refNames,
    Node.paramNames, Node.hasParam, Node.getParam, Node.setParam,
    PyDict.keys, PyDict.get?, PyDict.set, Node.hasRef, Node.getRef, bind, Except.bind]

end Thinc
