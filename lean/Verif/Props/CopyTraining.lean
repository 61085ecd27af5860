import Verif.Props.Adam
import Verif.Props.Copy
import Verif.Props.Serialize
/-!
# C117: training copies and loaded models
-/
namespace Thinc
open Spec BigOperators
variable {A : Type}

/-! ### Training a model touches nothing else -/

/-- Same layers everywhere, and the nodes that are not below `root` are the same. -/
structure Spec.SameOutside {V A : Type} (h h' : Heap V A) (root : Addr) : Prop where
  layers : ∀ a, layersOf h' a = layersOf h a
  outside : ∀ b : Addr, ¬ Reachable h root b → h'[b]? = h[b]?

theorem Spec.SameOutside.refl {V A : Type} (h : Heap V A) (root : Addr) : SameOutside h h root := ⟨fun _ => rfl, fun _ _ => rfl⟩

theorem Spec.SameOutside.trans {V A : Type} {h h' h'' : Heap V A} {root : Addr} (h1 : SameOutside h h' root)
    (h2 : SameOutside h' h'' root) : SameOutside h h'' root :=
  ⟨fun a => (h2.layers a).trans (h1.layers a), fun b hb =>
    (h2.outside b fun hr => hb ((Reachable.congr h1.layers _ _).1 hr)).trans (h1.outside b hb)⟩

theorem Spec.SameOutside.modify {V A : Type} {h h' : Heap V A} {root a : Addr} (h1 : SameOutside h h' root)
    (ha : Reachable h root a) {f : Node V A → Node V A} (hf : ∀ n, (f n).layers = n.layers) :
    SameOutside h (h'.modify a f) root := by
  refine h1.trans ⟨fun b => ?_, fun b hb => ?_⟩
  · simp only [layersOf, Heap.get_modify]
    by_cases hab : a = b
    · rw [if_pos hab]
      cases h'[b]? with
      | none => rfl
      | some n => simp [hf]
    · rw [if_neg hab]
  · rw [Heap.get_modify, if_neg]
    rintro rfl
    exact hb ((Reachable.congr h1.layers _ _).2 ha)

section
variable {O V T : Type}

theorem updateParam_outside {opt : OptFn O V} {h : Heap V A} {root a : Addr} (ha : Reachable h root a) (s : FUState O V A)
    (name : String) (hs : SameOutside h s.nodes root) : SameOutside h (updateParam opt a s name).1.nodes root := by
  unfold updateParam
  cases s.nodes[a]? with
  | none => exact hs
  | some n =>
    simp only
    split
    · split
      · exact hs
      · split
        · exact hs
        · refine hs.modify ha fun n => ?_
          simp only [Node.setGrad, Node.setParam]
    · exact hs

theorem finishUpdate_outside (opt : OptFn O V) (shimFU : O × T → Addr → (O × T) × Except PyErr Unit) (h : Heap V A) (o : O) (t : T)
    (root : Addr) : SameOutside h (finishUpdate opt shimFU h o t root).1.1.nodes root := by
  unfold finishUpdate
  split
  · exact SameOutside.refl h root
  · rename_i o1 t1 _
    refine loopE_inv (f := updateNode opt) (fun s : FUState O V A => SameOutside h s.nodes root) (fun a ha s hs => ?_)
      (s := { nodes := h, opt := o1 }) (SameOutside.refl h root)
    unfold updateNode
    cases s.nodes[a]? with
    | none => exact hs
    | some n =>
      exact loopE_inv (f := updateParam opt a) (fun s : FUState O V A => SameOutside h s.nodes root)
        (fun k _ s hs => updateParam_outside ((mem_walkBfs h root a).1 ha) s k hs) hs
end

theorem writeGrads_outside {h h' : Heap (Mat ℝ) A} {root : Addr} (slot : Slots) (G : GradStore) (M : ℕ) (h1 : SameOutside h h' root)
    (hslot : ∀ p < M, Reachable h root (slot p).1) : SameOutside h (writeGrads M slot G h') root := by
  induction M with
  | zero => exact h1
  | succ M ih =>
    have e : writeGrads (M + 1) slot G h' = writeGrad slot G (writeGrads M slot G h') M := by
      simp only [writeGrads, List.range_succ, List.foldl_append, List.foldl_cons, List.foldl_nil]
    rw [e]
    exact (ih fun p hp => hslot p (by omega)).modify (hslot M (by omega)) fun n => by rw [putGrad_eq]

theorem backpropBatches_outside {L : Layer} {N : ℕ} {slot : Slots} {h h' h'' : Heap (Mat ℝ) A} {root : Addr}
    (bs : List (Val × (Val → Except PyErr Val))) (h1 : SameOutside h h' root) (hslot : ∀ p < N, Reachable h root (slot p).1)
    (e : bs.foldlM (backpropBatch L N slot) h' = .ok h'') : SameOutside h h'' root := by
  induction bs generalizing h' with
  | nil => cases e; exact h1
  | cons b bs ih =>
    rw [List.foldlM_cons] at e
    obtain ⟨h2, e1, e2⟩ := bind_ok (show Except.bind _ _ = _ from e)
    refine ih ?_ e2
    unfold backpropBatch at e1
    obtain ⟨⟨Y, cb⟩, -, e3⟩ := bind_ok (show Except.bind _ _ = _ from e1)
    obtain ⟨D, -, e4⟩ := bind_ok (show Except.bind _ _ = _ from e3)
    obtain ⟨⟨dv, G⟩, -, e5⟩ := bind_ok (show Except.bind _ _ = _ from e4)
    cases e5
    exact writeGrads_outside slot G N h1 hslot

theorem trainIteration_outside {L : Layer} {N : ℕ} {slot : Slots} {cfg : OptCfg (Nat × String)} {root : Addr}
    {h : Heap (Mat ℝ) A} {s s' : TrainState A} (bs : List (Val × (Val → Except PyErr Val))) (h1 : SameOutside h s.nodes root)
    (hslot : ∀ p < N, Reachable h root (slot p).1) (e : trainIteration L N slot cfg root s bs = .ok s') :
    SameOutside h s'.nodes root := by
  unfold trainIteration at e
  obtain ⟨h2, e1, e2⟩ := bind_ok (show Except.bind _ _ = _ from e)
  have h3 := backpropBatches_outside bs h1 hslot e1
  have h4 := finishUpdate_outside (optimizerFn cfg) (fun s (_ : Addr) => (s, .ok ())) h2 s.opt () root
  split at e2
  · rename_i fu _ e3
    rw [e3] at h4
    cases e2
    exact h3.trans ⟨h4.layers, h4.outside⟩
  · cases e2

/-- Training a model changes its own nodes only.  Let the parameters be kept by nodes below `root`.  Then, whatever the layer, the
batches and the optimizer are, every node that is not below `root` is after training what it was before; and no layer is added or
removed anywhere. -/
theorem C117_isolated {L : Layer} {N : ℕ} {slot : Slots} {cfg : OptCfg (Nat × String)} {root : Addr} {s s' : TrainState A}
    (its : List (List (Val × (Val → Except PyErr Val)))) (hslot : ∀ p < N, Reachable s.nodes root (slot p).1)
    (e : trainLoop L N slot cfg root s its = .ok s') : SameOutside s.nodes s'.nodes root := by
  suffices ∀ t : TrainState A, SameOutside s.nodes t.nodes root → trainLoop L N slot cfg root t its = .ok s' →
      SameOutside s.nodes s'.nodes root from this s (SameOutside.refl _ _) e
  clear e
  induction its with
  | nil => intro t h1 e; cases e; exact h1
  | cons bs its ih =>
    intro t h1 e
    simp only [trainLoop, List.foldlM_cons] at e
    obtain ⟨t1, e1, e2⟩ := bind_ok (show Except.bind _ _ = _ from e)
    exact ih t1 (trainIteration_outside bs h1 hslot e1) e2

/-! ### Models with the same parameters -/

/-- The places of the parameters in a model whose nodes correspond to those of another. -/
def Spec.moved (φ : Addr → Addr) (slot : Slots) : Slots := fun p => (φ (slot p).1, (slot p).2)

section
variable {N : ℕ} {sh : Fin N → ℕ × ℕ} {h h' : Heap (Mat ℝ) A} {root root' : Addr} {slot : Slots} {key : Fin N → Nat × String}
  {θ g g' : Params sh} {φ : Addr → Addr}

/-- No parameter has been set to `None` after it had a value. -/
def Spec.NoneUnset {V A : Type} (h : Heap V A) (root : Addr) : Prop :=
  ∀ (a : Addr) n k X, Reachable h root a → h[a]? = some n → n.getParam k = .ok X → n.hasParam k = some true

theorem maybeGetParam_some {V : Type} {n : Node V A} {k : String} {X : V} (h1 : n.hasParam k = some true) (h2 : n.getParam k = .ok X) :
    n.maybeGetParam k = .ok (some X) := by
  simp only [Node.maybeGetParam, if_pos h1, h2, Except.map]

theorem getParam_of_maybe {V : Type} {n : Node V A} {k : String} {X : V} (h1 : n.maybeGetParam k = .ok (some X)) :
    n.getParam k = .ok X ∧ k ∈ n.paramNames := by
  unfold Node.maybeGetParam at h1
  split at h1
  · rename_i h2
    refine ⟨?_, ?_⟩
    · cases e : n.getParam k with
      | error _ => rw [e] at h1; simp [Except.map] at h1
      | ok Y => rw [e] at h1; simp [Except.map] at h1; rw [h1]
    · have := hasParam_true h2
      exact (PyDict.mem_keys_iff _ _).2 (by rw [this]; rfl)
  · cases h1

theorem reachable_image (iso : GraphIso h root h' root' φ) (hex : ∀ a, Reachable h root a → ∃ n, h[a]? = some n) {b : Addr}
    (hb : Reachable h' root' b) : ∃ a, Reachable h root a ∧ φ a = b := by
  have h1 : b ∈ walkBfs h' root' := (mem_walkBfs _ _ _).2 hb
  rw [walkBfs_iso iso hex] at h1
  obtain ⟨a, ha, e⟩ := List.mem_map.1 h1
  exact ⟨a, (mem_walkBfs _ _ _).1 ha, e⟩

/-- A model whose nodes correspond to those of another and hold the same parameters is wired alike. -/
theorem wired_moved (H : Wired h root slot key θ g) (iso : GraphIso h root h' root' φ) (hset : NoneUnset h root)
    (hnames : ∀ (a : Addr) m, Reachable h root a → h'[φ a]? = some m → m.paramNames.Nodup)
    (hpar : ∀ (a : Addr) n m k, Reachable h root a → h[a]? = some n → h'[φ a]? = some m → m.maybeGetParam k = n.maybeGetParam k)
    (hgr : ∀ (a : Addr) n m k, Reachable h root a → h[a]? = some n → h'[φ a]? = some m → k ∈ m.paramNames → m.hasGrad k = true →
      ∃ X, n.getParam k = .ok X)
    (hgrad : ∀ (p : Fin N) m, h'[φ (slot p).1]? = some m →
      (m.hasGrad (slot p).2 = false ∧ g' p = 0) ∨ ∃ D, m.getGrad (slot p).2 = .ok D ∧ IsMat D (g' p)) :
    ∃ key' : Fin N → Nat × String, Wired h' root' (moved φ slot) key' θ g' ∧
      ∀ (p : Fin N) m, h'[φ (slot p).1]? = some m → key' p = (m.id, (slot p).2) := by
  have hex : ∀ a, Reachable h root a → ∃ n, h[a]? = some n := fun a ha => by
    obtain ⟨n, e, -⟩ := H.nodes a ha
    exact ⟨n, e⟩
  refine ⟨fun p => (match h'[φ (slot p).1]? with | some m => m.id | none => 0, (slot p).2), ⟨?_, ?_, ?_, ?_⟩, ?_⟩
  · intro p q e
    refine H.distinct p q (Prod.ext ?_ (show (moved φ slot p).2 = (moved φ slot q).2 by rw [e]))
    exact iso.inj _ _ (H.param p).1 (H.param q).1 (show (moved φ slot p).1 = (moved φ slot q).1 by rw [e])
  · intro b hb
    obtain ⟨a, ha, rfl⟩ := reachable_image iso hex hb
    obtain ⟨n, e1, h2, h3⟩ := H.nodes a ha
    obtain ⟨m, e2, -⟩ := iso.layers a n ha e1
    refine ⟨m, e2, hnames a m ha e2, fun k hk hg => ?_⟩
    obtain ⟨X, hX⟩ := hgr a n m k ha e1 e2 hk hg
    refine ⟨X, (getParam_of_maybe ((hpar a n m k ha e1 e2).trans (maybeGetParam_some (hset a n k X ha e1 hX) hX))).1⟩
  · intro p
    obtain ⟨hr, n, X, e1, -, hn, hX, hm⟩ := H.param p
    obtain ⟨m, e2, -⟩ := iso.layers _ n hr e1
    have h1 := reachable_iso iso Relation.ReflTransGen.refl hr
    rw [iso.root] at h1
    have h2 := getParam_of_maybe ((hpar _ n m (slot p).2 hr e1 e2).trans (maybeGetParam_some (hset _ n _ X hr e1 hX) hX))
    exact ⟨h1, m, X, e2, by simp only [e2, moved], h2.2, h2.1, hm⟩
  · intro p m e
    exact hgrad p m e
  · intro p m e
    simp only [e]

/-- The parameters as the layers read them are the same. -/
theorem readParams_moved (H : Wired h root slot key θ g) (iso : GraphIso h root h' root' φ) (hset : NoneUnset h root)
    (hpar : ∀ (a : Addr) n m k, Reachable h root a → h[a]? = some n → h'[φ a]? = some m → m.maybeGetParam k = n.maybeGetParam k)
    (p : Fin N) : readParams h' (moved φ slot) p = readParams h slot p := by
  obtain ⟨hr, n, X, e1, -, hn, hX, hm⟩ := H.param p
  obtain ⟨m, e2, -⟩ := iso.layers _ n hr e1
  have h2 := getParam_of_maybe ((hpar _ n m (slot p).2 hr e1 e2).trans (maybeGetParam_some (hset _ n _ X hr e1 hX) hX))
  simp only [readParams, moved, e1, e2, hX, h2.1]

theorem reachable_agree (hs : ∀ a, Reachable h root a → h'[a]? = h[a]?) (a : Addr) : Reachable h' root a ↔ Reachable h root a := by
  constructor
  · intro ha
    induction ha with
    | refl => exact Relation.ReflTransGen.refl
    | tail _ hc ih =>
      obtain ⟨n, e, hn⟩ := hc
      exact Relation.ReflTransGen.tail ih ⟨n, (hs _ ih) ▸ e, hn⟩
  · intro ha
    induction ha with
    | refl => exact Relation.ReflTransGen.refl
    | tail hb hc ih =>
      obtain ⟨n, e, hn⟩ := hc
      exact Relation.ReflTransGen.tail ih ⟨n, (hs _ hb).trans e, hn⟩

/-- What a model holds depends on its nodes only. -/
theorem Spec.Wired.agree (H : Wired h root slot key θ g) (hs : ∀ a, Reachable h root a → h'[a]? = h[a]?) :
    Wired h' root slot key θ g := by
  refine ⟨H.distinct, ?_, ?_, ?_⟩
  · intro a ha
    have ha' := (reachable_agree hs a).1 ha
    rw [hs a ha']
    exact H.nodes a ha'
  · intro p
    have hr := (H.param p).1
    rw [hs _ hr]
    exact ⟨(reachable_agree hs _).2 hr, (H.param p).2⟩
  · intro p n
    rw [hs _ (H.param p).1]
    exact H.grad p n

theorem distinctIds_agree (H : DistinctIds h root) (hs : ∀ a, Reachable h root a → h'[a]? = h[a]?) : DistinctIds h' root := by
  intro a b n m ha hb hn hm
  have ha' := (reachable_agree hs a).1 ha
  have hb' := (reachable_agree hs b).1 hb
  rw [hs a ha'] at hn
  rw [hs b hb'] at hm
  exact H a b n m ha' hb' hn hm

/-! ### The same training gives the same parameters -/

/-- Two models with the same parameters, trained with the same batches and the same plain optimizer, whose settings do not depend
on the key, hold the same parameters again: the ids and the places of their nodes do not matter. -/
theorem C117_sgd {A' : Type} {N : ℕ} {sh : Fin N → ℕ × ℕ} {root root' : Addr} {slot slot' : Slots} {key key' : Fin N → Nat × String}
    {θ : Params sh} {cfg : OptCfg (Nat × String)} (hra : cfg.useRadam = false) (hb2 : ∀ t k s, cfg.b2 t k s = 0)
    (hL2 : ∀ t k s, cfg.L2 t k s = 0)
    (hkey : ∀ t k k' s, cfg.learnRate t k s = cfg.learnRate t k' s ∧ cfg.gradClip t k s = cfg.gradClip t k' s) {L : Layer}
    (s : TrainState A) (s' : TrainState A') (hstep : s'.opt.step = s.opt.step) (hscore : s'.opt.lastScore = s.opt.lastScore)
    (iterations : List (List (Batch sh))) (H : Wired s.nodes root slot key θ 0) (H' : Wired s'.nodes root' slot' key' θ 0)
    (htakes : TakesAll L (fun t p => cfg.learnRate t (key p) s.opt.lastScore) (fun t p => cfg.gradClip t (key p) s.opt.lastScore)
      s.opt.step θ iterations) :
    ∃ (t : TrainState A) (t' : TrainState A') (θ' : Params sh),
      trainLoop L N slot cfg root s (iterations.map fun bs => bs.map fun b => (b.input, b.lossGrad)) = .ok t ∧
      trainLoop L N slot' cfg root' s' (iterations.map fun bs => bs.map fun b => (b.input, b.lossGrad)) = .ok t' ∧
      Wired t.nodes root slot key θ' 0 ∧ Wired t'.nodes root' slot' key' θ' 0 := by
  have e1 : (fun (t : ℕ) (p : Fin N) => cfg.learnRate t (key' p) s'.opt.lastScore) =
      fun t p => cfg.learnRate t (key p) s.opt.lastScore := by
    funext t p; rw [hscore]; exact (hkey t _ _ _).1
  have e2 : (fun (t : ℕ) (p : Fin N) => cfg.gradClip t (key' p) s'.opt.lastScore) =
      fun t p => cfg.gradClip t (key p) s.opt.lastScore := by
    funext t p; rw [hscore]; exact (hkey t _ _ _).2
  obtain ⟨t, f1, -, w1⟩ := C77_sgd hra hb2 hL2 (L := L) s iterations H htakes
  obtain ⟨t', f2, -, w2⟩ := C77_sgd hra hb2 hL2 (L := L) s' iterations H' (by rw [e1, e2, hstep]; exact htakes)
  rw [e1, e2, hstep] at w2
  exact ⟨t, t', _, f1, f2, w1, w2⟩

/-- The same with Adam, if the optimizer remembers the same of both: for example, if each is trained with a new optimizer. -/
theorem C117_adam {A' : Type} {N : ℕ} {sh : Fin N → ℕ × ℕ} {root root' : Addr} {slot slot' : Slots} {key key' : Fin N → Nat × String}
    {cfg : OptCfg (Nat × String)} (hra : cfg.useRadam = false) (hb : ∀ t k s, 0 < cfg.b2 t k s → 0 < cfg.b1 t k s)
    (hsh : ∀ p, 0 < (sh p).1) (hkey : ∀ t k k' s, cfg.hyper t k s = cfg.hyper t k' s) {L : Layer} {S : Vars sh}
    (s : TrainState A) (s' : TrainState A') (hstep : s'.opt.step = s.opt.step) (hscore : s'.opt.lastScore = s.opt.lastScore)
    (iterations : List (List (Batch sh)))
    (H : Wired s.nodes root slot key S.weights 0) (hu : DistinctIds s.nodes root) (hrem : ∀ p, Remembers s.opt (key p) (S p))
    (H' : Wired s'.nodes root' slot' key' S.weights 0) (hu' : DistinctIds s'.nodes root')
    (hrem' : ∀ p, Remembers s'.opt (key' p) (S p))
    (htakes : TakesEvery L (fun t p => cfg.hyper t (key p) s.opt.lastScore) cfg.L2IsWeightDecay s.opt.step S iterations) :
    ∃ (t : TrainState A) (t' : TrainState A') (S' : Vars sh),
      trainLoop L N slot cfg root s (iterations.map fun bs => bs.map fun b => (b.input, b.lossGrad)) = .ok t ∧
      trainLoop L N slot' cfg root' s' (iterations.map fun bs => bs.map fun b => (b.input, b.lossGrad)) = .ok t' ∧
      Wired t.nodes root slot key S'.weights 0 ∧ Wired t'.nodes root' slot' key' S'.weights 0 ∧
      ∀ p, Remembers t.opt (key p) (S' p) ∧ Remembers t'.opt (key' p) (S' p) := by
  have e1 : (fun (t : ℕ) (p : Fin N) => cfg.hyper t (key' p) s'.opt.lastScore) =
      fun t p => cfg.hyper t (key p) s.opt.lastScore := by
    funext t p; rw [hscore]; exact hkey t _ _ _
  obtain ⟨t, f1, -, w1, r1⟩ := C90_adam hra hb hsh (L := L) s iterations H hu hrem htakes
  obtain ⟨t', f2, -, w2, r2⟩ := C90_adam hra hb hsh (L := L) s' iterations H' hu' hrem' (by rw [e1, hstep]; exact htakes)
  rw [e1, hstep] at w2 r2
  exact ⟨t, t', _, f1, f2, w1, w2, fun p => ⟨r1 p, r2 p⟩⟩

/-- An optimizer that has been made but not called remembers nothing. -/
theorem remembers_new {n m : ℕ} (st : OptState (Nat × String)) (h1 : st.nrUpdate = []) (h2 : st.mom1 = []) (h3 : st.mom2 = [])
    (h4 : ∀ avgs, st.averages = some avgs → avgs = []) (k : Nat × String) (w : Fin n → Fin m → ℝ) :
    Remembers st k (Var.fresh w) := by
  have hf : IsFlat (List.replicate (n * m) 0) (0 : Fin n → Fin m → ℝ) := by
    refine ⟨by simp, fun i j => ?_⟩
    rw [List.getElem?_replicate, if_pos]
    · rfl
    · have h1 := i.2
      have h2 := j.2
      calc (i : ℕ) * m + j < (i : ℕ) * m + m := by omega
        _ = ((i : ℕ) + 1) * m := by ring
        _ ≤ n * m := Nat.mul_le_mul_right _ h1
  refine ⟨by rw [h1]; rfl, by rw [h2]; exact hf, by rw [h3]; exact hf, fun avgs ha => ?_⟩
  rw [h4 avgs ha]
  exact hf

/-! ### Copies -/

/-- A copy holds what the model holds.  Let a model hold parameters and gradients, in the situation of `C08_copy`.  Then its copy
holds the same parameters and gradients, in the nodes of the copy: all of them are new, with new ids; the model itself still holds
what it held, in nodes that are all old; and both pass the same parameters to their layers, so that they predict the same. -/
theorem C117_copy_holds {S : Type} (shims : List S) (g0 : Nat) (depth : Nat) (H : Wired h root slot key θ g) (hset : NoneUnset h root)
    (hself : (root : Nat) < h.length) (hac : Acyclic h) (w : h.WF) (hpar : ∀ (a : Addr) n, h[a]? = some n → n.ParamsOk)
    (hcl : ∀ (a : Addr) n, h[a]? = some n → (∀ l : Nat, l ∈ n.layers → l < h.length) ∧ ∀ t : Nat, t ∈ n.shims → t < shims.length)
    (hdepth : h.length < depth) :
    ∃ (s : CopyState (Mat ℝ) A S) (c : Addr) (slot' : Slots) (key' : Fin N → Nat × String),
      copyModel depth h shims g0 root = (s, .ok c) ∧ Wired s.nodes c slot' key' θ g ∧ Wired s.nodes root slot key θ g ∧
      (∀ p : Fin N, readParams s.nodes slot' p = readParams h slot p ∧ readParams s.nodes slot p = readParams h slot p) ∧
      (∀ b : Nat, Reachable s.nodes c b → h.length ≤ b) ∧ (∀ b : Nat, Reachable s.nodes root b → b < h.length) ∧
      (∀ a : Nat, a < h.length → s.nodes[a]? = h[a]?) ∧ (∀ p, g0 < (key' p).1) ∧ DistinctIds s.nodes c := by
  obtain ⟨s, c, φ, ψ, e, hroot, hinj, hnode, hids, hold, -⟩ := C08_copy h shims g0 root depth hself hac w hpar hcl hdepth
  have hlt : ∀ b : Nat, Reachable h root b → b < h.length := by
    intro b hb
    obtain ⟨n, e1, -⟩ := H.nodes b hb
    exact (List.getElem?_eq_some_iff.1 e1).1
  have iso : GraphIso h root s.nodes c φ := ⟨hroot, hinj, fun a n ha hn => by
    obtain ⟨m, e1, -, -, -, -, e2, -⟩ := hnode a n ha hn
    exact ⟨m, e1, e2⟩⟩
  have hpar' : ∀ (a : Addr) n m k, Reachable h root a → h[a]? = some n → s.nodes[φ a]? = some m →
      m.maybeGetParam k = n.maybeGetParam k := by
    intro a n m k ha hn hm
    obtain ⟨m', e1, -, -, -, e2, -⟩ := hnode a n ha hn
    rw [hm] at e1; cases e1
    exact e2.params k
  have hgr : ∀ (a : Addr) n m k, Reachable h root a → h[a]? = some n → s.nodes[φ a]? = some m → k ∈ n.paramNames →
      m.grads.get? (m.id, k) = n.grads.get? (n.id, k) := by
    intro a n m k ha hn hm hk
    obtain ⟨m', e1, -, -, -, e2, -⟩ := hnode a n ha hn
    rw [hm] at e1; cases e1
    have h1 := e2.grads k hk
    unfold Node.maybeGetGrad Node.hasGrad Node.getGrad PyDict.contains at h1
    cases q1 : m.grads.get? (m.id, k) <;> cases q2 : n.grads.get? (n.id, k) <;> simp_all [Except.map]
  have hs : ∀ a, Reachable h root a → s.nodes[a]? = h[a]? := fun a ha => hold a (hlt a ha)
  have hex : ∀ a, Reachable h root a → ∃ n, h[a]? = some n := fun a ha => by
    obtain ⟨n, e, -⟩ := H.nodes a ha
    exact ⟨n, e⟩
  obtain ⟨key', H', hk'⟩ := wired_moved (g' := g) H iso hset
    (by
      intro a m ha hm
      obtain ⟨n, hn, h2, -⟩ := H.nodes a ha
      obtain ⟨m', e1, -, -, -, e2, -⟩ := hnode a n ha hn
      rw [hm] at e1; cases e1
      rw [e2.paramNames]; exact h2)
    hpar'
    (by
      intro a n m k ha hn hm hk hg
      obtain ⟨n', hn', -, h3⟩ := H.nodes a ha
      rw [hn] at hn'; cases hn'
      obtain ⟨m', e1, -, -, -, e2, -⟩ := hnode a n ha hn
      rw [hm] at e1; cases e1
      rw [e2.paramNames] at hk
      refine h3 k hk ?_
      rw [hasGrad_iff] at hg ⊢
      obtain ⟨D, hD⟩ := hg
      exact ⟨D, getGrad_ok_iff.2 ((hgr a n m k ha hn hm hk) ▸ getGrad_ok_iff.1 hD)⟩)
    (by
      intro p m hm
      obtain ⟨hr, n, X, e1, -, hn, -⟩ := H.param p
      have h1 := hgr _ n m _ hr e1 hm hn
      rcases H.grad p n e1 with ⟨q1, q2⟩ | ⟨D, q1, q2⟩
      · exact Or.inl ⟨hasGrad_false.2 (h1.trans (hasGrad_false.1 q1)), q2⟩
      · exact Or.inr ⟨D, getGrad_ok_iff.2 (h1.trans (getGrad_ok_iff.1 q1)), q2⟩)
  refine ⟨s, c, moved φ slot, key', e, H', H.agree hs, fun p => ⟨readParams_moved H iso hset hpar' p, ?_⟩, ?_, ?_, hold, ?_, ?_⟩
  · simp only [readParams, hs _ (H.param p).1]
  · intro b hb
    obtain ⟨a, ha, rfl⟩ := reachable_image iso hex hb
    obtain ⟨n, hn⟩ := hex a ha
    obtain ⟨m, -, h1, -⟩ := hnode a n ha hn
    exact h1
  · intro b hb
    exact hlt b ((reachable_agree hs b).1 hb)
  · intro p
    obtain ⟨hr, n, X, e1, -⟩ := H.param p
    obtain ⟨m, e2, -, h1, -⟩ := hnode _ n hr e1
    rw [hk' p m e2]
    exact h1
  · intro a b n m ha hb hn hm hid
    obtain ⟨a', ha', rfl⟩ := reachable_image iso hex ha
    obtain ⟨b', hb', rfl⟩ := reachable_image iso hex hb
    by_contra hne
    exact hids a' b' n m ha' hb' (fun h => hne (by rw [h])) hn hm hid

/-- What `C117_copy` says of two models in one heap. -/
theorem both_trained {L : Layer} {cfg : OptCfg (Nat × String)} {c : Addr} {slot' : Slots} {key' : Fin N → Nat × String}
    {s₁ : TrainState A} {o : OptState (Nat × String)} {bound : Nat} {its : List (List (Val × (Val → Except PyErr Val)))}
    (H' : Wired h c slot' key' θ g) (hc : ∀ b : Nat, Reachable h c b → bound ≤ b) (hr : ∀ b : Nat, Reachable h root b → b < bound)
    (e : trainLoop L N slot' cfg c ⟨h, o⟩ its = .ok s₁) :
    (∀ a, Reachable h root a → s₁.nodes[a]? = h[a]?) ∧ ∀ a : Nat, a < bound → s₁.nodes[a]? = h[a]? := by
  have h1 := C117_isolated its (fun p hp => (H'.param ⟨p, hp⟩).1) e
  have h2 : ∀ a : Nat, a < bound → s₁.nodes[a]? = h[a]? := fun a ha => h1.outside a fun hq => by
    have := hc a hq
    omega
  exact ⟨fun a ha => h2 a (hr a ha), h2⟩

/-- Copies are trained on their own, and like the model.  Copy a model that holds the parameters `θ` and no (or zero) gradients, and
train the copy for any number of iterations with a plain optimizer.  Then every object that existed before the copy was made is
unchanged.  Train the model afterwards with the same batches and another optimizer of the same kind.  Then the copy keeps what it
holds, and in the end the model and the copy hold the same parameters. -/
theorem C117_copy {S : Type} (shims : List S) (g0 : Nat) (depth : Nat) (H : Wired h root slot key θ 0) (hset : NoneUnset h root)
    (hself : (root : Nat) < h.length) (hac : Acyclic h) (w : h.WF) (hpar : ∀ (a : Addr) n, h[a]? = some n → n.ParamsOk)
    (hcl : ∀ (a : Addr) n, h[a]? = some n → (∀ l : Nat, l ∈ n.layers → l < h.length) ∧ ∀ t : Nat, t ∈ n.shims → t < shims.length)
    (hdepth : h.length < depth) {cfg : OptCfg (Nat × String)} (hra : cfg.useRadam = false) (hb2 : ∀ t k s, cfg.b2 t k s = 0)
    (hL2 : ∀ t k s, cfg.L2 t k s = 0)
    (hkey : ∀ t k k' s, cfg.learnRate t k s = cfg.learnRate t k' s ∧ cfg.gradClip t k s = cfg.gradClip t k' s) {L : Layer}
    (o o' : OptState (Nat × String)) (hstep : o'.step = o.step) (hscore : o'.lastScore = o.lastScore)
    (iterations : List (List (Batch sh)))
    (htakes : TakesAll L (fun t p => cfg.learnRate t (key p) o.lastScore) (fun t p => cfg.gradClip t (key p) o.lastScore)
      o.step θ iterations) :
    ∃ (s : CopyState (Mat ℝ) A S) (c : Addr) (slot' : Slots) (key' : Fin N → Nat × String) (s₁ s₂ : TrainState A) (θ' : Params sh),
      copyModel depth h shims g0 root = (s, .ok c) ∧
      trainLoop L N slot' cfg c ⟨s.nodes, o⟩ (iterations.map fun bs => bs.map fun b => (b.input, b.lossGrad)) = .ok s₁ ∧
      Wired s₁.nodes c slot' key' θ' 0 ∧ (∀ a : Nat, a < h.length → s₁.nodes[a]? = h[a]?) ∧
      trainLoop L N slot cfg root ⟨s₁.nodes, o'⟩ (iterations.map fun bs => bs.map fun b => (b.input, b.lossGrad)) = .ok s₂ ∧
      Wired s₂.nodes root slot key θ' 0 ∧ Wired s₂.nodes c slot' key' θ' 0 := by
  obtain ⟨s, c, slot', key', e, H', H0, -, hc, hr, hold, -⟩ := C117_copy_holds shims g0 depth H hset hself hac w hpar hcl hdepth
  obtain ⟨s₁, s₁', θ', f1, -, w1, -⟩ := C117_sgd hra hb2 hL2 hkey (L := L) (A' := A) ⟨s.nodes, o⟩ ⟨s.nodes, o⟩ rfl rfl iterations H' H' (by
    have e1 : (fun (t : ℕ) (p : Fin N) => cfg.learnRate t (key' p) o.lastScore) = fun t p => cfg.learnRate t (key p) o.lastScore := by
      funext t p; exact (hkey t _ _ _).1
    have e2 : (fun (t : ℕ) (p : Fin N) => cfg.gradClip t (key' p) o.lastScore) = fun t p => cfg.gradClip t (key p) o.lastScore := by
      funext t p; exact (hkey t _ _ _).2
    simp only [e1, e2]
    exact htakes)
  obtain ⟨h1, h2⟩ := both_trained H' hc hr f1
  have H1 := H0.agree h1
  obtain ⟨t1, s₂, θ'', q1, q2, q3, q4⟩ := C117_sgd hra hb2 hL2 hkey (L := L) (A := A) (A' := A) ⟨s.nodes, o⟩ ⟨s₁.nodes, o'⟩ hstep hscore
    iterations H' H1 (by
      have e1 : (fun (t : ℕ) (p : Fin N) => cfg.learnRate t (key' p) o.lastScore) = fun t p => cfg.learnRate t (key p) o.lastScore := by
        funext t p; exact (hkey t _ _ _).1
      have e2 : (fun (t : ℕ) (p : Fin N) => cfg.gradClip t (key' p) o.lastScore) = fun t p => cfg.gradClip t (key p) o.lastScore := by
        funext t p; exact (hkey t _ _ _).2
      simp only [e1, e2]
      exact htakes)
  rw [f1] at q1
  cases q1
  have h3 := C117_isolated (s := ⟨s₁.nodes, o'⟩) _ (fun p hp => (H1.param ⟨p, hp⟩).1) q2
  have h5 : SameOutside s.nodes s₁.nodes c := C117_isolated _ (fun p hp => (H'.param ⟨p, hp⟩).1) f1
  refine ⟨s, c, slot', key', s₁, s₂, θ'', e, f1, q3, fun a ha => (h2 a ha).trans (hold a ha), q2, q4, q3.agree fun a ha => ?_⟩
  refine h3.outside a fun hq => ?_
  have q5 := hc a ((Reachable.congr h5.layers _ _).1 ha)
  have q6 := hr a ((reachable_agree h1 a).1 hq)
  exact absurd q6 (Nat.not_lt.2 q5)

/-- The same with Adam: the copy with a new optimizer, then the model with a new optimizer. -/
theorem C117_copy_adam {S : Type} (shims : List S) (g0 : Nat) (depth : Nat) (H : Wired h root slot key θ 0) (hset : NoneUnset h root)
    (hu : DistinctIds h root)
    (hself : (root : Nat) < h.length) (hac : Acyclic h) (w : h.WF) (hpar : ∀ (a : Addr) n, h[a]? = some n → n.ParamsOk)
    (hcl : ∀ (a : Addr) n, h[a]? = some n → (∀ l : Nat, l ∈ n.layers → l < h.length) ∧ ∀ t : Nat, t ∈ n.shims → t < shims.length)
    (hdepth : h.length < depth) {cfg : OptCfg (Nat × String)} (hra : cfg.useRadam = false)
    (hb : ∀ t k s, 0 < cfg.b2 t k s → 0 < cfg.b1 t k s) (hsh : ∀ p, 0 < (sh p).1)
    (hkey : ∀ t k k' s, cfg.hyper t k s = cfg.hyper t k' s) {L : Layer} (o : OptState (Nat × String))
    (ho1 : o.nrUpdate = []) (ho2 : o.mom1 = []) (ho3 : o.mom2 = []) (ho4 : ∀ avgs, o.averages = some avgs → avgs = [])
    (iterations : List (List (Batch sh)))
    (htakes : TakesEvery L (fun t p => cfg.hyper t (key p) o.lastScore) cfg.L2IsWeightDecay o.step (fun p => Var.fresh (θ p)) iterations) :
    ∃ (s : CopyState (Mat ℝ) A S) (c : Addr) (slot' : Slots) (key' : Fin N → Nat × String) (s₁ s₂ : TrainState A) (θ' : Params sh),
      copyModel depth h shims g0 root = (s, .ok c) ∧
      trainLoop L N slot' cfg c ⟨s.nodes, o⟩ (iterations.map fun bs => bs.map fun b => (b.input, b.lossGrad)) = .ok s₁ ∧
      Wired s₁.nodes c slot' key' θ' 0 ∧ (∀ a : Nat, a < h.length → s₁.nodes[a]? = h[a]?) ∧
      trainLoop L N slot cfg root ⟨s₁.nodes, o⟩ (iterations.map fun bs => bs.map fun b => (b.input, b.lossGrad)) = .ok s₂ ∧
      Wired s₂.nodes root slot key θ' 0 ∧ Wired s₂.nodes c slot' key' θ' 0 := by
  obtain ⟨s, c, slot', key', e, H', H0, -, hc, hr, hold, -, hu'⟩ := C117_copy_holds shims g0 depth H hset hself hac w hpar hcl hdepth
  have hlt : ∀ b : Nat, Reachable h root b → b < h.length := by
    intro b hb
    obtain ⟨n, e1, -⟩ := H.nodes b hb
    exact (List.getElem?_eq_some_iff.1 e1).1
  have hk1 : (fun (t : ℕ) (p : Fin N) => cfg.hyper t (key' p) o.lastScore) = fun t p => cfg.hyper t (key p) o.lastScore := by
    funext t p; exact hkey t _ _ _
  have hrem : ∀ (k : Fin N → Nat × String) (p : Fin N), Remembers o (k p) (Var.fresh (θ p)) := fun k p =>
    remembers_new o ho1 ho2 ho3 ho4 (k p) (θ p)
  have ht : TakesEvery L (fun t p => cfg.hyper t (key' p) o.lastScore) cfg.L2IsWeightDecay o.step (fun p => Var.fresh (θ p)) iterations := by
    rw [hk1]; exact htakes
  obtain ⟨s₁, f1, -, w1, -⟩ := C90_adam hra hb hsh (L := L) (S := fun p => Var.fresh (θ p)) ⟨s.nodes, o⟩ iterations H' hu' (hrem key') ht
  obtain ⟨h1, h2⟩ := both_trained H' hc hr f1
  have H1 := H0.agree h1
  have hu1 : DistinctIds s₁.nodes root := distinctIds_agree hu fun a ha =>
    (h1 a ((reachable_agree (fun a ha => hold a (hlt a ha)) a).2 ha)).trans (hold a (hlt a ha))
  obtain ⟨t1, s₂, S', q1, q2, q3, q4, -⟩ := C117_adam hra hb hsh hkey (L := L) (S := fun p => Var.fresh (θ p)) (A := A) (A' := A)
    ⟨s.nodes, o⟩ ⟨s₁.nodes, o⟩ rfl rfl iterations H' hu' (hrem key') H1 hu1 (hrem key) ht
  rw [f1] at q1
  cases q1
  have h3 := C117_isolated (s := ⟨s₁.nodes, o⟩) _ (fun p hp => (H1.param ⟨p, hp⟩).1) q2
  have h5 : SameOutside s.nodes s₁.nodes c := C117_isolated _ (fun p hp => (H'.param ⟨p, hp⟩).1) f1
  refine ⟨s, c, slot', key', s₁, s₂, S'.weights, e, f1, q3, fun a ha => (h2 a ha).trans (hold a ha), q2, q4, q3.agree fun a ha => ?_⟩
  refine h3.outside a fun hq => ?_
  have q5 := hc a ((Reachable.congr h5.layers _ _).1 ha)
  have q6 := hr a ((reachable_agree h1 a).1 hq)
  exact absurd q6 (Nat.not_lt.2 q5)

/-! ### Saving and loading -/

/-- Training can go on after saving and loading.  Save a model that holds the parameters `θ` and load the message into a model that
was built alike (`C09_round_trip_partial` has the details) and has no gradients.  Then the loaded model holds `θ` and passes the same
parameters to its layers.  Train the saved model on, and the loaded model with the same batches and an optimizer of the same kind at the
same step.  Then both hold the same parameters. -/
theorem C117_load {S B Sh : Type} (ops : SerOps (Mat ℝ) A S B Sh) (s s' : LoadState (Mat ℝ) A S) (root' : Addr) (φ ψ : Addr → Addr)
    (H : Wired s.nodes root slot key θ 0) (hset : NoneUnset s.nodes root) (hs : Serializable ops s root)
    (hs' : Serializable ops s' root')
    (hrefs : ∀ (a : Addr) n name r, Reachable s.nodes root a → s.nodes[a]? = some n → n.getRef name = .ok r → Reachable s.nodes a r)
    (iso : GraphIso s.nodes root s'.nodes root' φ)
    (hcomp : ∀ (a : Addr) n m, Reachable s.nodes root a → s.nodes[a]? = some n → s'.nodes[φ a]? = some m → Compatible ops ψ n m)
    (hψ : ∀ (a b : Addr) n m t u, Reachable s.nodes root a → Reachable s.nodes root b → s.nodes[a]? = some n →
      s.nodes[b]? = some m → t ∈ n.shims → u ∈ m.shims → ψ t = ψ u → t = u)
    (hbytes : ∀ x y b, ops.toBytes x = .ok b → ops.fromBytes y b = .ok x)
    (hng : ∀ (b : Addr) m k, Reachable s'.nodes root' b → s'.nodes[b]? = some m → m.hasGrad k = false)
    {cfg : OptCfg (Nat × String)} (hra : cfg.useRadam = false) (hb2 : ∀ t k s, cfg.b2 t k s = 0)
    (hL2 : ∀ t k s, cfg.L2 t k s = 0)
    (hkey : ∀ t k k' s, cfg.learnRate t k s = cfg.learnRate t k' s ∧ cfg.gradClip t k s = cfg.gradClip t k' s) {L : Layer}
    (o o' : OptState (Nat × String)) (hstep : o'.step = o.step) (hscore : o'.lastScore = o.lastScore)
    (iterations : List (List (Batch sh)))
    (htakes : TakesAll L (fun t p => cfg.learnRate t (key p) o.lastScore) (fun t p => cfg.gradClip t (key p) o.lastScore)
      o.step θ iterations) :
    ∃ (msg : Msg (Mat ℝ) B) (s'' : LoadState (Mat ℝ) A S) (key' : Fin N → Nat × String) (t t' : TrainState A) (θ' : Params sh),
      toDict ops s root = .ok msg ∧ fromDict ops s' root' msg = (s'', .ok ()) ∧
      Wired s''.nodes root' (moved φ slot) key' θ 0 ∧
      (∀ p : Fin N, readParams s''.nodes (moved φ slot) p = readParams s.nodes slot p) ∧
      trainLoop L N slot cfg root ⟨s.nodes, o⟩ (iterations.map fun bs => bs.map fun b => (b.input, b.lossGrad)) = .ok t ∧
      trainLoop L N (moved φ slot) cfg root' ⟨s''.nodes, o'⟩ (iterations.map fun bs => bs.map fun b => (b.input, b.lossGrad)) = .ok t' ∧
      Wired t.nodes root slot key θ' 0 ∧ Wired t'.nodes root' (moved φ slot) key' θ' 0 := by
  obtain ⟨msg, s'', msg', e1, e2, hdata, hkept, -, -, -⟩ := C09_round_trip_partial ops s s' root root' φ ψ hs hs' hrefs iso hcomp hψ hbytes
  have hreach : ∀ a, Reachable s.nodes root a → Reachable s'.nodes root' (φ a) := fun a ha => by
    have h1 := reachable_iso iso Relation.ReflTransGen.refl ha
    rwa [iso.root] at h1
  have iso' : GraphIso s.nodes root s''.nodes root' φ := ⟨iso.root, iso.inj, fun a n ha hn => by
    obtain ⟨m, q1, q2⟩ := iso.layers a n ha hn
    obtain ⟨m', q3, -, q4, -⟩ := hkept (φ a) m (hreach a ha) q1
    exact ⟨m', q3, q4.trans q2⟩⟩
  have hpar' : ∀ (a : Addr) n m k, Reachable s.nodes root a → s.nodes[a]? = some n → s''.nodes[φ a]? = some m →
      m.maybeGetParam k = n.maybeGetParam k := by
    intro a n m k ha hn hm
    obtain ⟨m', q1, q2, -⟩ := hdata a n ha hn
    rw [hm] at q1; cases q1
    exact q2.param k
  have hng' : ∀ (a : Addr) n m k, Reachable s.nodes root a → s.nodes[a]? = some n → s''.nodes[φ a]? = some m → m.hasGrad k = false := by
    intro a n m k ha hn hm
    obtain ⟨m0, q1, -⟩ := iso.layers a n ha hn
    obtain ⟨m', q2, q3, -, -, q4, -⟩ := hkept (φ a) m0 (hreach a ha) q1
    rw [hm] at q2; cases q2
    have := hng (φ a) m0 k (hreach a ha) q1
    unfold Node.hasGrad at this ⊢
    rw [q3, q4]; exact this
  have hex : ∀ a, Reachable s.nodes root a → ∃ n, s.nodes[a]? = some n := fun a ha => by
    obtain ⟨n, e, -⟩ := H.nodes a ha
    exact ⟨n, e⟩
  obtain ⟨key', H', -⟩ := wired_moved (g' := 0) H iso' hset
    (by
      intro a m ha hm
      obtain ⟨n, hn⟩ := hex a ha
      obtain ⟨m0, q1, -⟩ := iso.layers a n ha hn
      obtain ⟨m', q2, -, -, -, -, q4⟩ := hkept (φ a) m0 (hreach a ha) q1
      rw [hm] at q2; cases q2
      exact q4)
    hpar'
    (by
      intro a n m k ha hn hm hk hg
      rw [hng' a n m k ha hn hm] at hg
      cases hg)
    (by
      intro p m hm
      obtain ⟨hr, n, X, q1, -⟩ := H.param p
      exact Or.inl ⟨hng' _ n m _ hr q1 hm, rfl⟩)
  obtain ⟨t, t', θ', f1, f2, w1, w2⟩ := C117_sgd hra hb2 hL2 hkey (L := L) ⟨s.nodes, o⟩ ⟨s''.nodes, o'⟩ hstep hscore iterations H H' htakes
  exact ⟨msg, s'', key', t, t', θ', e1, e2, H', readParams_moved H iso' hset hpar', f1, f2, w1, w2⟩

end

/-! ### The hypotheses are met -/

noncomputable def exLinearNode : Node (Mat ℝ) Unit where
  name := "linear"
  id := 7
  layers := []
  hasParams := [("W", some ()), ("b", some ())]
  params := [((7, "W"), Mat.zeros 1 1), ((7, "b"), Mat.zeros 1 1)]

theorem exLinear_node (a : Addr) (n : Node (Mat ℝ) Unit) (h : exLinearHeap[a]? = some n) : a = 0 ∧ n = exLinearNode := by
  match a with
  | 0 => simp [exLinearHeap] at h; exact ⟨rfl, by rw [← h]; rfl⟩
  | _ + 1 => simp [exLinearHeap] at h

theorem exLinear_set {n : Node (Mat ℝ) Unit} {a : Addr} (h : exLinearHeap[a]? = some n) (k : String) :
    (∃ X, n.getParam k = .ok X) ↔ n.hasParam k = some true := by
  obtain ⟨-, rfl⟩ := exLinear_node a n h
  by_cases h1 : "W" = k
  · subst h1; simp [exLinearNode, Node.getParam, Node.hasParam, PyDict.contains, PyDict.get?]
  · by_cases h2 : "b" = k
    · subst h2; simp [exLinearNode, Node.getParam, Node.hasParam, PyDict.contains, PyDict.get?]
    · simp [exLinearNode, Node.getParam, Node.hasParam, PyDict.contains, PyDict.get?, h1, h2]

theorem exLinear_wf : Heap.WF exLinearHeap := by
  intro a n h
  obtain ⟨-, rfl⟩ := exLinear_node a n h
  constructor <;> unfold PyDict.WF <;> simp [PyDict.keys, exLinearNode]

theorem exLinear_acyclic : Acyclic exLinearHeap := by
  intro a ha
  have : ∀ b, ¬ Child exLinearHeap a b := by
    rintro b ⟨n, hn, hb⟩
    obtain ⟨-, rfl⟩ := exLinear_node a n hn
    simp [exLinearNode] at hb
  cases ha using Relation.TransGen.head_induction_on with
  | single h => exact this _ h
  | head h _ _ => exact this _ h

/-- Iterations on batches with one row each. -/
noncomputable def exBatches (iterations : List (List (ℝ × ℝ))) : List (List (Batch fun _ : Fin 2 => (1, 1))) :=
  iterations.map fun bs => bs.map fun b => exLinearBatch b.1 b.2

theorem exLinear_takesAll (cfg : OptCfg (Nat × String)) (key : Fin 2 → Nat × String) (score : Option (Nat × ℝ))
    (iterations : List (List (ℝ × ℝ))) (k : ℕ) (θ : Params fun _ : Fin 2 => (1, 1)) :
    TakesAll (linear 0 1) (fun t p => cfg.learnRate t (key p) score) (fun t p => cfg.gradClip t (key p) score) k θ
      (exBatches iterations) := by
  induction iterations generalizing k θ with
  | nil => trivial
  | cons bs its ih =>
    refine ⟨?_, ih _ _⟩
    intro b hb
    obtain ⟨c, -, rfl⟩ := List.mem_map.1 hb
    exact exLinear_takes c.1 c.2 θ

/-- `C117_copy` for linear regression on any data. -/
example (iterations : List (List (ℝ × ℝ))) :
    ∃ (s : CopyState (Mat ℝ) Unit Unit) (c : Addr) (s₁ : TrainState Unit) (slot' : Slots) (key' : Fin 2 → Nat × String)
      (θ' : Params fun _ : Fin 2 => (1, 1)), copyModel 5 exLinearHeap [] 7 0 = (s, .ok c) ∧
      trainLoop (linear 0 1) 2 slot' exTrainCfg c ⟨s.nodes, OptState.init true⟩
        ((exBatches iterations).map fun bs => bs.map fun b => (b.input, b.lossGrad)) = .ok s₁ ∧
      Wired s₁.nodes c slot' key' θ' 0 ∧ ∀ a : Nat, a < 1 → s₁.nodes[a]? = exLinearHeap[a]? := by
  obtain ⟨s, c, slot', key', s₁, s₂, θ', e1, e2, e3, e4, -⟩ := C117_copy (sh := fun _ : Fin 2 => (1, 1)) (S := Unit) [] 7 5 exLinear_wired
    (fun a n k X _ h hX => (exLinear_set h k).1 ⟨X, hX⟩) (by decide) exLinear_acyclic exLinear_wf
    (fun a n h k hk => (exLinear_set h k).2 hk)
    (fun a n h => (by obtain ⟨-, rfl⟩ := exLinear_node a n h; simp [exLinearNode])) (by decide) (cfg := exTrainCfg) rfl (fun _ _ _ => rfl)
    (fun _ _ _ => rfl) (fun _ _ _ _ => ⟨rfl, rfl⟩) (L := linear 0 1) (OptState.init true) (OptState.init true) rfl rfl
    (exBatches iterations) (by exact exLinear_takesAll exTrainCfg exLinearKey none iterations 0 0)
  exact ⟨s, c, s₁, slot', key', θ', e1, e2, e3, e4⟩

/-- A model that was built like the one above, with another id, and has not been initialized. -/
noncomputable def exBlank : LoadState (Mat ℝ) Unit Unit :=
  ⟨[{ name := "linear", id := 3, layers := [], hasParams := [("W", none), ("b", none)] }], []⟩

def exUnitOps : SerOps (Mat ℝ) Unit Unit Unit Unit where
  ser _ := .ok ()
  deser _ _ := .ok ()
  toBytes _ := .ok ()
  fromBytes _ _ := .ok ()
  shape _ := ()

theorem exBlank_node (a : Addr) (n : Node (Mat ℝ) Unit) (h : exBlank.nodes[a]? = some n) :
    a = 0 ∧ n = { name := "linear", id := 3, layers := [], hasParams := [("W", none), ("b", none)] } := by
  match a with
  | 0 => simp [exBlank] at h; exact ⟨rfl, h.symm⟩
  | _ + 1 => simp [exBlank] at h

/-- `C117_load` for linear regression on any data. -/
example (iterations : List (List (ℝ × ℝ))) :
    ∃ (msg : Msg (Mat ℝ) Unit) (s'' : LoadState (Mat ℝ) Unit Unit), toDict exUnitOps ⟨exLinearHeap, []⟩ 0 = .ok msg ∧
      fromDict exUnitOps exBlank 0 msg = (s'', .ok ()) ∧
      ∃ t', trainLoop (linear 0 1) 2 exLinearSlots exTrainCfg 0 ⟨s''.nodes, OptState.init true⟩
        ((exBatches iterations).map fun bs => bs.map fun b => (b.input, b.lossGrad)) = .ok t' := by
  obtain ⟨msg, s'', key', t, t', θ', e1, e2, -, -, -, e3, -⟩ := C117_load (sh := fun _ : Fin 2 => (1, 1)) exUnitOps ⟨exLinearHeap, []⟩ exBlank 0 (fun a => a) (fun a => a)
    exLinear_wired (fun a n k X _ h hX => (exLinear_set h k).1 ⟨X, hX⟩)
    ⟨by decide, fun a n h => (by obtain ⟨-, rfl⟩ := exLinear_node a n h; simp [exLinearNode, PyDict.get?]),
      fun a b n m h1 h2 _ => (exLinear_node a n h1).1.trans (exLinear_node b m h2).1.symm, exLinear_wf,
      fun a n h k hk => (exLinear_set h k).2 hk, fun v e h => (by cases h), fun x => ⟨(), rfl⟩⟩
    ⟨by decide, fun a n h => (by obtain ⟨-, rfl⟩ := exBlank_node a n h; simp [PyDict.get?]),
      fun a b n m h1 h2 _ => (exBlank_node a n h1).1.trans (exBlank_node b m h2).1.symm,
      fun a n h => (by
        obtain ⟨-, rfl⟩ := exBlank_node a n h
        constructor <;> unfold PyDict.WF <;> simp [PyDict.keys]),
      fun a n h k hk => (by
        obtain ⟨-, rfl⟩ := exBlank_node a n h
        by_cases h1 : "W" = k
        · simp [Node.hasParam, PyDict.get?, h1] at hk
        · by_cases h2 : "b" = k <;> simp [Node.hasParam, PyDict.get?, h1, h2] at hk),
      fun v e h => (by cases h), fun x => ⟨(), rfl⟩⟩
    (fun a n name r _ h hr => (by obtain ⟨-, rfl⟩ := exLinear_node a n h; simp [exLinearNode, Node.getRef, PyDict.get?] at hr))
    ⟨rfl, fun _ _ _ _ h => h, fun a n _ h => by
      obtain ⟨rfl, rfl⟩ := exLinear_node a n h
      exact ⟨_, rfl, rfl⟩⟩
    (fun a n m _ h h' => by
      obtain ⟨rfl, rfl⟩ := exLinear_node a n h
      obtain ⟨-, rfl⟩ := exBlank_node _ m h'
      exact ⟨fun k => (by simp [exLinearNode, Node.dimNames, Node.hasDim, PyDict.get?, PyDict.keys]),
        fun k => (by simp [exLinearNode, Node.refNames, PyDict.keys]), fun k => (by simp [exLinearNode, Node.paramNames, PyDict.keys]),
        fun k => (by simp [exLinearNode, PyDict.keys]), fun k v hv => (by simp [exLinearNode, PyDict.get?] at hv), rfl⟩)
    (fun a b n m t u _ _ h _ ht => (by obtain ⟨-, rfl⟩ := exLinear_node a n h; simp [exLinearNode] at ht))
    (fun x y b h => rfl)
    (fun b m k _ h => by obtain ⟨-, rfl⟩ := exBlank_node b m h; rfl)
    (cfg := exTrainCfg) rfl (fun _ _ _ => rfl)
    (fun _ _ _ => rfl) (fun _ _ _ _ => ⟨rfl, rfl⟩) (L := linear 0 1) (OptState.init true) (OptState.init true) rfl rfl
    (exBatches iterations) (by exact exLinear_takesAll exTrainCfg exLinearKey none iterations 0 0)
  exact ⟨msg, s'', e1, e2, t', e3⟩

end Thinc
