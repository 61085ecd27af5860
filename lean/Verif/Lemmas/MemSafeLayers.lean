import Verif.Lemmas.MemSafe
import Verif.Model.Dense
import Verif.Model.SoftmaxLayer
import Verif.Model.LayerNorm
import Verif.Model.Attention
import Verif.Model.Cauchy
import Verif.Model.Dropout
import Verif.Model.Embed
import Verif.Model.Uniqued
import Verif.Model.Bidirectional
import Verif.Model.SeqLayers
import Verif.Model.TextLayers
import Verif.Model.PoolLayers
import Verif.Model.WindowLayer
import Verif.Model.MaxoutLayer
/-!
# Layers that stay inside their buffers
-/
namespace Thinc

/-- The callback never leaves the buffers. -/
abbrev CallbackSafe (cb : Callback) : Prop := ∀ dY G, Safely (fun _ => True) (cb dY G)

/-- A forward pass, and the callback it returns. -/
def PassSafe (p : Val × Callback) : Prop := CallbackSafe p.2

abbrev LayerSafe (L : Layer) : Prop := ∀ train P X, Safely PassSafe (L train P X)

theorem LayerSafe.safe {L : Layer} (h : LayerSafe L) : Spec.Memory.Safe L where
  forward train P X := (h train P X).inside
  backprop train P X Y cb e dY G := ((h train P X).result e dY G).inside

theorem Spec.Memory.Safe.layerSafe {L : Layer} (h : Spec.Memory.Safe L) : LayerSafe L := by
  intro train P X
  cases e : L train P X with
  | error err => exact fun e' => h.forward train P X (by rw [e, e'])
  | ok p =>
    obtain ⟨Y, cb⟩ := p
    intro dY G
    show Safely (fun _ => True) (cb dY G)
    cases e2 : cb dY G with
    | error err => exact fun e' => h.backprop train P X Y cb e dY G (by rw [e2, e'])
    | ok _ => trivial

theorem safely_err {α : Type} {Q : α → Prop} {e : PyErr} (h : e ≠ .outOfBounds) : Safely Q (.error e) := h

theorem passSafe_mk {Y : Val} {cb : Callback} (h : CallbackSafe cb) : PassSafe (Y, cb) := h

theorem Safely.bindLayer {β : Type} {Q : β → Prop} {L : Layer} (hL : LayerSafe L) {train : Bool} {P : ParamVals} {X : Val}
    {f : Val × Callback → Except PyErr β} (hf : ∀ Y cb, CallbackSafe cb → Safely Q (f (Y, cb))) : Safely Q (L train P X >>= f) :=
  (hL train P X).bind fun p hp => hf p.1 p.2 hp

theorem Safely.bindCb {β : Type} {Q : β → Prop} {cb : Callback} (hcb : CallbackSafe cb) {dY : Val} {G : GradStore}
    {f : Val × GradStore → Except PyErr β} (hf : ∀ d G', Safely Q (f (d, G'))) : Safely Q (cb dY G >>= f) :=
  (hcb dY G).bind fun p _ => hf p.1 p.2

theorem safely_mapM {α β : Type} {Q : β → Prop} (f : α → Except PyErr β) (l : List α) (h : ∀ x ∈ l, Safely Q (f x)) :
    Safely (fun ys => ∀ y ∈ ys, Q y) (l.mapM f) := by
  induction l with
  | nil => exact fun y hy => nomatch hy
  | cons x xs ih =>
    rw [List.mapM_cons]
    refine (h x (by simp)).bind fun y hy => ?_
    refine (ih fun z hz => h z (by simp [hz])).bind fun ys hys => ?_
    intro z hz
    rcases List.mem_cons.1 hz with rfl | hz
    · exact hy
    · exact hys z hz

/-- Steps that need no argument about buffers. -/
syntax "safe_leaf" : tactic

macro_rules | `(tactic| safe_leaf) => `(tactic| assumption)

/-- One step through a program. -/
macro "safe_step" : tactic => `(tactic| first
  | with_reducible exact safely_ok trivial
  | with_reducible exact safely_pure trivial
  | with_reducible exact safely_err (by decide)
  | (with_reducible refine safely_pure (passSafe_mk fun _ _ => ?_))
  | (with_reducible refine safely_ok (passSafe_mk fun _ _ => ?_))
  | (with_reducible refine Safely.bindLayer (by assumption) fun _ _ _ => ?_)
  | (with_reducible refine Safely.bindCb (by assumption) fun _ _ => ?_)
  | safe_leaf
  | (with_reducible refine Safely.bind (R := fun _ => True) ?_ fun _ _ => ?_)
  | split)

macro "safe_all" : tactic => `(tactic| repeat' (first | safe_step | (dsimp only; safe_step)))

theorem leaf_asArr (v : Val) : Safely (fun _ => True) v.asArr := by cases v <;> first | trivial | exact nofun
theorem leaf_raggedData (v : Val) : Safely (fun _ => True) v.raggedData := by cases v <;> first | trivial | exact nofun
theorem leaf_items (v : Val) : Safely (fun _ => True) v.items := by cases v <;> first | trivial | exact nofun
theorem leaf_lengths (v : Val) : Safely (fun _ => True) v.lengths := by cases v <;> first | trivial | exact nofun
theorem leaf_len (v : Val) : Safely (fun _ => True) v.len := by cases v <;> first | trivial | exact nofun
theorem leaf_asInts (v : Val) : Safely (fun _ => True) v.asInts := by cases v <;> first | trivial | exact nofun
theorem leaf_asIntMat (v : Val) : Safely (fun _ => True) v.asIntMat := by cases v <;> first | trivial | exact nofun
theorem leaf_asRagged (v : Val) : Safely (fun _ => True) v.asRagged := by cases v <;> first | trivial | exact nofun
theorem leaf_asPadded (v : Val) : Safely (fun _ => True) v.asPadded := by cases v <;> first | trivial | exact nofun
theorem leaf_paddedParts (v : Val) : Safely (fun _ => True) v.paddedParts := by cases v <;> first | trivial | exact nofun
theorem leaf_toFloats (v : Val) : Safely (fun _ => True) v.toFloats := by cases v <;> first | trivial | exact nofun
macro_rules | `(tactic| safe_leaf) => `(tactic| exact leaf_asArr _)
macro_rules | `(tactic| safe_leaf) => `(tactic| exact leaf_raggedData _)
macro_rules | `(tactic| safe_leaf) => `(tactic| exact leaf_items _)
macro_rules | `(tactic| safe_leaf) => `(tactic| exact leaf_lengths _)
macro_rules | `(tactic| safe_leaf) => `(tactic| exact leaf_len _)
macro_rules | `(tactic| safe_leaf) => `(tactic| exact leaf_asInts _)
macro_rules | `(tactic| safe_leaf) => `(tactic| exact leaf_asIntMat _)
macro_rules | `(tactic| safe_leaf) => `(tactic| exact leaf_asRagged _)
macro_rules | `(tactic| safe_leaf) => `(tactic| exact leaf_asPadded _)
macro_rules | `(tactic| safe_leaf) => `(tactic| exact leaf_paddedParts _)
macro_rules | `(tactic| safe_leaf) => `(tactic| exact leaf_toFloats _)

theorem leaf_npUpdate (f : ℝ → ℝ → ℝ) (A B : Mat ℝ) : Safely (fun _ => True) (npUpdate f A B) := by unfold npUpdate; safe_all
macro_rules | `(tactic| safe_leaf) => `(tactic| exact leaf_npUpdate _ _ _)
theorem leaf_incGrad (G : GradStore) (p : ℕ) (v : Mat ℝ) : Safely (fun _ => True) (incGrad G p v) := by unfold incGrad; safe_all
macro_rules | `(tactic| safe_leaf) => `(tactic| exact leaf_incGrad _ _ _)
theorem leaf_broadcastDim (a b : ℕ) : Safely (fun _ => True) (broadcastDim a b) := by unfold broadcastDim; safe_all
macro_rules | `(tactic| safe_leaf) => `(tactic| exact leaf_broadcastDim _ _)
theorem leaf_npBinary (f : ℝ → ℝ → ℝ) (A B : Mat ℝ) : Safely (fun _ => True) (npBinary f A B) := by unfold npBinary; safe_all
macro_rules | `(tactic| safe_leaf) => `(tactic| exact leaf_npBinary _ _ _)
theorem leaf_gemm (x y : Mat ℝ) (a b : Bool) : Safely (fun _ => True) (gemm x y a b) := by unfold gemm npDot; safe_all
macro_rules | `(tactic| safe_leaf) => `(tactic| exact leaf_gemm _ _ _ _)
theorem leaf_hstack2 (A B : Mat ℝ) : Safely (fun _ => True) (hstack2 A B) := by unfold hstack2; safe_all
macro_rules | `(tactic| safe_leaf) => `(tactic| exact leaf_hstack2 _ _)
theorem leaf_vstack2 (A B : Mat ℝ) : Safely (fun _ => True) (vstack2 A B) := by unfold vstack2; safe_all
macro_rules | `(tactic| safe_leaf) => `(tactic| exact leaf_vstack2 _ _)
theorem leaf_forM {σ β : Type} (xs : List β) (s : σ) (f : σ → β → Except PyErr σ) (h : ∀ x ∈ xs, ∀ s, Safely (fun _ => True) (f s x)) :
    Safely (fun _ => True) (forM' xs s f) := by
  refine (safely_forM' xs s f (fun ys _ => ∀ y ∈ ys, y ∈ xs) (fun _ h => h) ?_).any
  intro x ys s hs
  exact (h x (hs x (by simp)) s).mono fun _ _ y hy => hs y (by simp [hy])
theorem leaf_hstack (As : List (Mat ℝ)) : Safely (fun _ => True) (hstack As) := by
  cases As with
  | nil => exact nofun
  | cons A As => exact leaf_forM _ _ _ fun _ _ _ => leaf_hstack2 _ _
macro_rules | `(tactic| safe_leaf) => `(tactic| exact leaf_hstack _)
theorem leaf_vstack (As : List (Mat ℝ)) : Safely (fun _ => True) (vstack As) := by
  cases As with
  | nil => exact nofun
  | cons A As => exact leaf_forM _ _ _ fun _ _ _ => leaf_vstack2 _ _
macro_rules | `(tactic| safe_leaf) => `(tactic| exact leaf_vstack _)
theorem leaf_mapM {α β : Type} (f : α → Except PyErr β) (l : List α) (h : ∀ x, Safely (fun _ => True) (f x)) :
    Safely (fun _ => True) (l.mapM f) := (safely_mapM (Q := fun _ => True) f l fun x _ => h x).any
macro_rules | `(tactic| safe_leaf) => `(tactic| exact leaf_mapM _ _ leaf_asArr)
macro_rules | `(tactic| safe_leaf) => `(tactic| exact leaf_mapM _ _ leaf_raggedData)
macro_rules | `(tactic| safe_leaf) => `(tactic| exact leaf_mapM _ _ leaf_len)
macro_rules | `(tactic| safe_leaf) => `(tactic| exact leaf_mapM _ _ leaf_asIntMat)
theorem leaf_stacked (v : Val) : Safely (fun _ => True) v.stacked := by unfold Val.stacked; safe_all
macro_rules | `(tactic| safe_leaf) => `(tactic| exact leaf_mapM _ _ leaf_stacked)
macro_rules | `(tactic| safe_leaf) => `(tactic| exact leaf_stacked _)
theorem leaf_iadd (v w : Val) : Safely (fun _ => True) (v.iadd w) := by unfold Val.iadd; safe_all
macro_rules | `(tactic| safe_leaf) => `(tactic| exact leaf_iadd _ _)
theorem leaf_add (v w : Val) : Safely (fun _ => True) (v.add w) := by unfold Val.add; safe_all
macro_rules | `(tactic| safe_leaf) => `(tactic| exact leaf_add _ _)
theorem leaf_iaddData (v w : Val) : Safely (fun _ => True) (v.iaddData w) := by unfold Val.iaddData; safe_all
macro_rules | `(tactic| safe_leaf) => `(tactic| exact leaf_iaddData _ _)
theorem leaf_addGradient (v w : Val) : Safely (fun _ => True) (addGradient v w) := by unfold addGradient; safe_all
theorem leaf_firstItem {α : Type} (l : List α) : Safely (fun _ => True) (firstItem l) := by unfold firstItem; safe_all
macro_rules | `(tactic| safe_leaf) => `(tactic| exact leaf_firstItem _)
theorem leaf_addItems (a b : List Val) : Safely (fun _ => True) (addItems a b) := by
  induction a generalizing b with
  | nil => unfold addItems; safe_all
  | cons x a ih =>
    cases b with
    | nil => unfold addItems; safe_all
    | cons y b =>
      have := ih b
      unfold addItems
      safe_all
macro_rules | `(tactic| safe_leaf) => `(tactic| exact leaf_addItems _ _)
theorem leaf_addData (v w : Val) : Safely (fun _ => True) (addData v w) := by unfold addData; safe_all
macro_rules | `(tactic| safe_leaf) => `(tactic| exact leaf_addData _ _)
theorem leaf_unpack2 (v : Val) : Safely (fun _ => True) v.unpack2 := by unfold Val.unpack2; safe_all
macro_rules | `(tactic| safe_leaf) => `(tactic| exact leaf_unpack2 _)
theorem leaf_pyIndex {α : Type} (xs : List α) (i : ℤ) : Safely (fun _ => True) (pyIndex xs i) := by unfold pyIndex; safe_all
macro_rules | `(tactic| safe_leaf) => `(tactic| exact leaf_pyIndex _ _)
theorem leaf_addBias (A B : Mat ℝ) : Safely (fun _ => True) (addBias A B) := leaf_npUpdate _ _ _
macro_rules | `(tactic| safe_leaf) => `(tactic| exact leaf_addBias _ _)

/-! ### Combinators -/

theorem safe_noop : LayerSafe noop := by intro train P X; unfold noop; safe_all

theorem safely_chainLoop (train : Bool) (P : ParamVals) (layers : List Layer) (h : ∀ L ∈ layers, LayerSafe L) (X : Val)
    (cbs : List Callback) (hc : ∀ cb ∈ cbs, CallbackSafe cb) :
    Safely (fun p => ∀ cb ∈ p.2, CallbackSafe cb) (chainLoop train P layers X cbs) := by
  induction layers generalizing X cbs with
  | nil => exact hc
  | cons L layers ih =>
    unfold chainLoop
    refine Safely.bindLayer (h L (by simp)) fun Y cb hcb => ?_
    refine ih (fun L hL => h L (by simp [hL])) Y _ fun c hc' => ?_
    rcases List.mem_append.1 hc' with h' | h'
    · exact hc c h'
    · rw [List.mem_singleton.1 h']; exact hcb

theorem safe_chain (layers : List Layer) (h : ∀ L ∈ layers, LayerSafe L) : LayerSafe (chain layers) := by
  intro train P X
  unfold chain
  split
  · exact nofun
  refine (safely_chainLoop train P layers h X [] (by simp)).bind ?_
  rintro ⟨Y, cbs⟩ hc
  refine safely_pure (passSafe_mk fun dY G => ?_)
  refine leaf_forM _ _ _ fun cb hcb s => ?_
  exact hc cb (List.mem_reverse.1 hcb) _ _

theorem safe_addLayers (layers : List Layer) (h : ∀ L ∈ layers, LayerSafe L) : LayerSafe (addLayers layers) := by
  intro train P X
  unfold addLayers
  cases layers with
  | nil => simp only; safe_all
  | cons first rest =>
    simp only
    refine Safely.bindLayer (h first (by simp)) fun Y cb hcb => ?_
    refine Safely.bind (R := fun p => ∀ c ∈ p.2, CallbackSafe c) ?_ ?_
    · refine (safely_forM' rest (Y, []) (addForwardStep train P X) (fun ys p => (∀ L ∈ ys, LayerSafe L) ∧ ∀ c ∈ p.2, CallbackSafe c)
        ⟨fun L hL => h L (by simp [hL]), by simp⟩ ?_).mono fun _ h => h.2
      rintro L ys ⟨Y, cs⟩ ⟨h1, h2⟩
      unfold addForwardStep
      refine Safely.bindLayer (h1 L (by simp)) fun Y' cb' hcb' => ?_
      refine (leaf_iadd _ _).bind fun _ _ => ?_
      refine ⟨fun L hL => h1 L (by simp [hL]), fun c hc => ?_⟩
      rcases List.mem_append.1 hc with h' | h'
      · exact h2 c h'
      · rw [List.mem_singleton.1 h']; exact hcb'
    · rintro ⟨Y, cs⟩ hcs
      refine safely_pure (passSafe_mk fun dY G => ?_)
      refine Safely.bindCb hcb fun d G => ?_
      refine leaf_forM _ _ _ fun c hc s => ?_
      unfold addBackwardStep
      refine Safely.bindCb (hcs c hc) fun d G => ?_
      safe_all

theorem safely_concatBackprop (block : ℕ → ℕ → Val) (join : Val → Val → Except PyErr Val)
    (hj : ∀ a b, Safely (fun _ => True) (join a b)) (cbs : List Callback) (hc : ∀ c ∈ cbs, CallbackSafe c) (widths : List ℕ) (G : GradStore) :
    Safely (fun _ => True) (concatBackprop block join cbs widths G) := by
  unfold concatBackprop
  split
  · refine Safely.bindCb (hc _ (by simp)) fun d G => ?_
    refine Safely.bind (R := fun _ => True) ?_ fun _ _ => trivial
    refine leaf_forM _ _ _ fun b hb s => ?_
    unfold concatStep
    have := hc b.1 (List.mem_cons_of_mem _ (List.of_mem_zip hb).1)
    refine Safely.bindCb this fun d G => ?_
    have := hj s.1 d
    safe_all
  · exact nofun

theorem safely_concatOutputs (X : Val) (Ys : List Val) (cbs : List Callback) (hc : ∀ c ∈ cbs, CallbackSafe c) :
    Safely PassSafe (concatOutputs X Ys cbs) := by
  have h1 := fun block widths G => safely_concatBackprop block addGradient leaf_addGradient cbs hc widths G
  have h2 := fun block widths G => safely_concatBackprop block Val.iadd leaf_iadd cbs hc widths G
  unfold concatOutputs
  split
  · exact nofun
  · unfold concatLists
    safe_all
    exact h2 _ _ _
  · unfold concatRagged
    safe_all
    exact h2 _ _ _
  · unfold concatArrays
    safe_all
    exact h1 _ _ _

theorem safe_concatenate (layers : List Layer) (h : ∀ L ∈ layers, LayerSafe L) : LayerSafe (concatenate layers) := by
  intro train P X
  unfold concatenate
  split
  · exact safe_noop train P X
  · exact h _ (by simp) train P X
  · unfold concatenateForward
    refine (safely_mapM (Q := PassSafe) _ _ fun L hL => h L hL train P X).bind fun outs ho => ?_
    refine safely_concatOutputs _ _ _ fun c hc => ?_
    obtain ⟨p, hp, rfl⟩ := List.mem_map.1 hc
    exact ho p hp

theorem safe_residual (L : Layer) (h : LayerSafe L) : LayerSafe (residual L) := by
  intro train P X
  unfold residual
  refine Safely.bindLayer h fun Y cb hcb => ?_
  dsimp only
  cases X <;> simp only <;> safe_all

theorem safely_runCallbacks (cbs : List Callback) (hc : ∀ c ∈ cbs, CallbackSafe c) (ds : List Val) (G : GradStore) :
    Safely (fun _ => True) (runCallbacks cbs ds G) := by
  induction cbs generalizing ds G with
  | nil => unfold runCallbacks; trivial
  | cons c cs ih =>
    cases ds with
    | nil => unfold runCallbacks; trivial
    | cons d ds =>
      unfold runCallbacks
      refine Safely.bindCb (hc c (by simp)) fun d' G' => ?_
      have := ih (fun c hc' => hc c (by simp [hc'])) ds G'
      safe_all

theorem safe_tuplify (layers : List Layer) (h : ∀ L ∈ layers, LayerSafe L) : LayerSafe (tuplify layers) := by
  intro train P X
  unfold tuplify
  refine (safely_mapM (Q := PassSafe) _ _ fun L hL => h L hL train P X).bind fun outs ho => ?_
  have hc : ∀ c ∈ outs.map Prod.snd, CallbackSafe c := fun c hc => by
    obtain ⟨p, hp, rfl⟩ := List.mem_map.1 hc
    exact ho p hp
  refine safely_pure (passSafe_mk fun dY G => ?_)
  refine (leaf_items _).bind fun ds _ => ?_
  refine (safely_runCallbacks _ hc _ _).bind fun p _ => ?_
  obtain ⟨dXs, G'⟩ := p
  cases dXs with
  | nil => exact nofun
  | cons d ds =>
    have := leaf_forM ds d Val.iadd fun _ _ _ => leaf_iadd _ _
    simp only
    safe_all

theorem safe_siamese (L S : Layer) (h : LayerSafe L) (hS : LayerSafe S) : LayerSafe (siamese L S) := by
  intro train P X; unfold siamese; safe_all

theorem safe_mapList (L : Layer) (h : LayerSafe L) : LayerSafe (mapList L) := by
  intro train P X
  unfold mapList
  refine (leaf_items _).bind fun xs _ => ?_
  refine (safely_mapM (Q := PassSafe) _ _ fun x _ => h train P x).bind fun outs ho => ?_
  have hc : ∀ c ∈ outs.map Prod.snd, CallbackSafe c := fun c hc => by
    obtain ⟨p, hp, rfl⟩ := List.mem_map.1 hc
    exact ho p hp
  refine safely_pure (passSafe_mk fun dY G => ?_)
  refine (leaf_items _).bind fun ds _ => ?_
  exact (safely_runCallbacks _ hc _ _).bind fun p _ => trivial

theorem safe_clone (L : Layer) (copies : ℕ → Layer) (n : ℕ) (h : LayerSafe L) (hc : ∀ k, LayerSafe (copies k)) :
    LayerSafe (clone L copies n) := by
  unfold clone
  split
  · exact safe_noop
  split
  · exact h
  · refine safe_chain _ fun M hM => ?_
    rcases List.mem_cons.1 hM with rfl | hM
    · exact h
    · obtain ⟨k, _, rfl⟩ := List.mem_map.1 hM
      exact hc k

theorem safe_withGetitem (i : ℤ) (L : Layer) (h : LayerSafe L) : LayerSafe (withGetitem i L) := by
  intro train P X
  unfold withGetitem
  safe_all

end Thinc
