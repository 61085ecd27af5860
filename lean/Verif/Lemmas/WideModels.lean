import Verif.Lemmas.TextGood
import Verif.Spec.WideModels
/-! # Initialization of all models, once for every relation between states -/
namespace Thinc
open Spec

variable {W : WideEnv} {S : List ℕ} {R : NetState → NetState → Prop}

/-- A relation between states that every step of an initialization of the nodes in `S` satisfies. -/
structure Steps (W : WideEnv) (S : List ℕ) (R : NetState → NetState → Prop) : Prop where
  refl : ∀ s, R s s
  trans : ∀ {a b c}, R a b → R b c → R a c
  ready : ∀ {s s'}, R s s' → ∀ id, s.ready id = true → s'.ready id = true
  setI : ∀ {s s' : NetState} {id v}, id ∈ S → s.setI id v = .ok s' → R s s'
  setO : ∀ {s s' : NetState} {id v}, id ∈ S → s.setO id v = .ok s' → R s s'
  node : ∀ {s s' : NetState} {id}, id ∈ S → KeepsDims s s' → (∀ j, s.ready j = true → s'.ready j = true) → Frame [id] s s' →
    WideReady W s' id → R s s'

/-- What a combinator may assume of its layers. -/
structure Fit (R : NetState → NetState → Prop) (c : Comp) (ids : List ℕ) : Prop where
  init : ∀ {X Y : Option Val} {s s' : NetState}, c.init X Y s = .ok s' → R s s' ∧ ∀ id ∈ ids, s'.ready id = true
  setI : ∀ {s s' : NetState} {v : ℕ}, c.setI s v = .ok s' → R s s'
  setO : ∀ {s s' : NetState} {v : ℕ}, c.setO s v = .ok s' → R s s'

/-! ### Layers with parameters -/

theorem textInit_frame {T : TextEnv} {s s' : NetState} {id : ℕ} {X Y : Option Val} (h : textInit T id X Y s = .ok s') : Frame [id] s s' := by
  unfold textInit at h
  split at h
  · exact leafInit_frame h
  · obtain ⟨o, ho, h⟩ := bind_ok h
    cases h
    exact setParam_frame T s id _
  · obtain ⟨a, ha, h⟩ := bind_ok h
    obtain ⟨o, ho, h⟩ := bind_ok h
    cases h
    exact (inferO_frame ha).trans (setParam_frame T a id _)

theorem textInit_isReady {T : TextEnv} {s s' : NetState} {id : ℕ} {X Y : Option Val} (h : textInit T id X Y s = .ok s') :
    TextReady T s' id ∧ s'.ready id = true := by
  unfold textInit at h
  split at h
  · rename_i k ek
    obtain ⟨hg, o, i, h1, h2, h3, h4, h5⟩ := leafInit_ok h
    have hk : T.net.kind id = k := by simp only [TextEnv.net, ek]
    rw [hk] at h4 h5
    refine ⟨?_, h1⟩
    unfold TextReady
    rw [ek]
    exact ⟨o, i, h2, h3, h4, h5⟩
  · rename_i nV seed dropout coinflips fast ek
    obtain ⟨o, ho, h⟩ := bind_ok h
    cases h
    refine ⟨?_, by simp [NetState.setParam]⟩
    unfold TextReady
    rw [ek]
    exact ⟨o, dimValue_ok ho, setParam_shape T s id _⟩
  · rename_i ek
    obtain ⟨a, ha, h⟩ := bind_ok h
    obtain ⟨o, ho, h⟩ := bind_ok h
    cases h
    refine ⟨?_, by simp [NetState.setParam]⟩
    unfold TextReady
    rw [ek]
    exact ⟨o, dimValue_ok ho, setParam_shape T a id _⟩

theorem putParam_frame (s : NetState) (id : ℕ) (A : Mat ℝ) : Frame [id] s (s.putParam id A) := by
  intro j hj
  have hj : j ≠ id := by simpa using hj
  refine ⟨rfl, rfl, if_neg hj, ?_, ?_⟩ <;>
  · simp only [NetState.putParam]
    rw [if_neg (by omega)]

theorem putParams_frame (s : NetState) (id : ℕ) (A B : Mat ℝ) : Frame [id] s (s.putParams id A B) := by
  intro j hj
  have hj : j ≠ id := by simpa using hj
  refine ⟨rfl, rfl, if_neg hj, ?_, ?_⟩ <;>
  · simp only [NetState.putParams]
    rw [if_neg (by omega), if_neg (by omega)]

theorem putParam_mono (s : NetState) (id : ℕ) (A : Mat ℝ) (j : ℕ) (h : s.ready j = true) : (s.putParam id A).ready j = true := by
  by_cases e : j = id <;> simp [NetState.putParam, e, h]

theorem putParams_mono (s : NetState) (id : ℕ) (A B : Mat ℝ) (j : ℕ) (h : s.ready j = true) : (s.putParams id A B).ready j = true := by
  by_cases e : j = id <;> simp [NetState.putParams, e, h]

theorem Steps.inferO (hR : Steps W S R) {s s' : NetState} {id : ℕ} {Y : Option Val} (hid : id ∈ S) (h : s.inferO id Y = .ok s') :
    R s s' := by
  unfold NetState.inferO at h
  split at h
  · cases h; exact hR.refl _
  · obtain ⟨w, -, h⟩ := bind_ok h
    exact hR.setO hid h

theorem Steps.inferI (hR : Steps W S R) {s s' : NetState} {id : ℕ} {X : Option Val} (hid : id ∈ S) (h : s.inferI id X = .ok s') :
    R s s' := by
  unfold NetState.inferI at h
  split at h
  · cases h; exact hR.refl _
  · obtain ⟨w, -, h⟩ := bind_ok h
    exact hR.setI hid h

theorem sameDims (s s' : NetState) (ho : s'.nO = s.nO) (hi : s'.nI = s.nI) : KeepsDims s s' := by
  intro id v
  rw [ho, hi]
  exact ⟨id', id'⟩
where id' {p : Prop} (h : p) : p := h

theorem fit_leaf (hR : Steps W S R) {id : ℕ} (hk : W.more id = none) (hid : id ∈ S) : Fit R (leafC W.text id) [id] := by
  refine ⟨fun h => ?_, fun h => hR.setI hid h, fun h => hR.setO hid h⟩
  have h : textInit W.text id _ _ _ = .ok _ := h
  obtain ⟨hr, hr'⟩ := textInit_isReady h
  refine ⟨hR.node hid (textInit_later h).dims (textInit_later h).ready (textInit_frame h) ?_, by simpa using hr'⟩
  unfold WideReady
  rw [hk]
  exact hr

/-! ### Wrappers -/

theorem fit_plain (hR : Steps W S R) (L : Layer) : Fit R (plainC L) [] :=
  ⟨fun h => by cases h; exact ⟨hR.refl _, by simp⟩, fun h => (by cases h), fun h => by cases h⟩

theorem fit_wrapper (hR : Steps W S R) {id : ℕ} (hid : id ∈ S) {init layer} {ids : List ℕ}
    (h : ∀ {X Y : Option Val} {s s' : NetState}, init X Y s = .ok s' → R s s' ∧ ∀ id ∈ ids, s'.ready id = true) :
    Fit R (wrapper id init layer) ids := ⟨h, fun h => hR.setI hid h, fun h => hR.setO hid h⟩

theorem fit_bare {init layer} {ids : List ℕ}
    (h : ∀ {X Y : Option Val} {s s' : NetState}, init X Y s = .ok s' → R s s' ∧ ∀ id ∈ ids, s'.ready id = true) :
    Fit R (bareWrapper init layer) ids := ⟨h, fun h => (by cases h), fun h => by cases h⟩

theorem Steps.copyI (hR : Steps W S R) {id : ℕ} (hid : id ∈ S) {c : Comp} {s s' : NetState} (h : c.copyI id s = .ok s') : R s s' := by
  unfold Comp.copyI at h
  split at h
  · exact hR.setI hid h
  · cases h; exact hR.refl _

theorem Steps.copyO (hR : Steps W S R) {id : ℕ} (hid : id ∈ S) {c : Comp} {s s' : NetState} (h : c.copyO id s = .ok s') : R s s' := by
  unfold Comp.copyO at h
  split at h
  · exact hR.setO hid h
  · cases h; exact hR.refl _

/-- A step after which the layers are ready, and further steps. -/
theorem Steps.after (hR : Steps W S R) {a b c : NetState} {ids : List ℕ} (h : R a b ∧ ∀ id ∈ ids, b.ready id = true) (k : R b c) :
    R a c ∧ ∀ id ∈ ids, c.ready id = true :=
  ⟨hR.trans h.1 k, fun id hid => hR.ready k id (h.2 id hid)⟩

/-- A step before. -/
theorem Steps.before (hR : Steps W S R) {a b c : NetState} {ids : List ℕ} (k : R a b) (h : R b c ∧ ∀ id ∈ ids, c.ready id = true) :
    R a c ∧ ∀ id ∈ ids, c.ready id = true := ⟨hR.trans k h.1, h.2⟩

theorem fit_convert {c : Comp} {ids : List ℕ} (hc : Fit R c ids) {f : Val → Except PyErr Val} {X Y : Option Val}
    {s s' : NetState} (h : convertInit f c X Y s = .ok s') : R s s' ∧ ∀ id ∈ ids, s'.ready id = true := by
  obtain ⟨X', -, h⟩ := bind_ok (show Except.bind _ _ = _ from h)
  obtain ⟨Y', -, h⟩ := bind_ok h
  exact hc.init h

theorem fit_withArray (hR : Steps W S R) {id pad : ℕ} (hid : id ∈ S) {c : Comp} {ids : List ℕ} (hc : Fit R c ids) :
    Fit R (withArrayC id pad c) ids := by
  refine fit_wrapper hR hid fun h => ?_
  obtain ⟨X', -, h⟩ := bind_ok (show Except.bind _ _ = _ from h)
  obtain ⟨Y', -, h⟩ := bind_ok h
  obtain ⟨a, ha, h⟩ := bind_ok h
  obtain ⟨b, hb, h⟩ := bind_ok h
  exact hR.after (hR.after (hc.init ha) (hR.copyO hid hb)) (hR.copyI hid h)

theorem fit_residual (hR : Steps W S R) {id : ℕ} (hid : id ∈ S) {c : Comp} {ids : List ℕ} (hc : Fit R c ids) :
    Fit R (residualC id c) ids := by
  refine fit_wrapper hR hid fun h => ?_
  obtain ⟨a, ha, h⟩ := bind_ok (show Except.bind _ _ = _ from h)
  obtain ⟨b, hb, h⟩ := bind_ok h
  exact hR.after (hR.after (hc.init ha) (hR.copyO hid hb)) (hR.copyI hid h)

theorem fit_uniqued (hR : Steps W S R) {id : ℕ} (hid : id ∈ S) {c : Comp} {ids : List ℕ} (hc : Fit R c ids) (column : ℤ) (fast : Bool) :
    Fit R (uniquedC id column fast c) ids := by
  refine fit_wrapper hR hid fun h => ?_
  obtain ⟨a, ha, h⟩ := bind_ok (show Except.bind _ _ = _ from h)
  obtain ⟨b, hb, h⟩ := bind_ok h
  exact hR.after (hR.after (hc.init ha) (hR.copyI hid hb)) (hR.copyO hid h)

theorem fit_mapList {c : Comp} {ids : List ℕ} (hc : Fit R c ids) : Fit R (mapListC c) ids := by
  refine fit_bare fun h => ?_
  obtain ⟨x, -, h⟩ := bind_ok (show Except.bind _ _ = _ from h)
  obtain ⟨y, -, h⟩ := bind_ok h
  exact hc.init h

theorem attentionV2Init_fit (hR : Steps W S R) {id : ℕ} (hid : id ∈ S) (hk : W.more id = some .attentionV2) {c : Comp} {ids : List ℕ}
    (hc : Fit R c ids) {X Y : Option Val} {s s' : NetState} (h : attentionV2Init W id c X Y s = .ok s') :
    R s s' ∧ ∀ j ∈ id :: ids, s'.ready j = true := by
  obtain ⟨a, ha, h⟩ := bind_ok (show Except.bind _ _ = _ from h)
  obtain ⟨o, ho, h⟩ := bind_ok h
  obtain ⟨X', -, h⟩ := bind_ok h
  obtain ⟨Y', -, h⟩ := bind_ok h
  have h1 : R s a := by
    unfold attentionV2Infer at ha
    split at ha
    · cases ha; exact hR.refl _
    obtain ⟨w, -, ha⟩ := bind_ok (show Except.bind _ _ = _ from ha)
    unfold attentionV2Dims at ha
    split at ha
    · cases ha; exact hR.refl _
    obtain ⟨b, hb, ha⟩ := bind_ok (show Except.bind _ _ = _ from ha)
    refine hR.trans (hR.setO hid hb) ?_
    split at ha
    · exact hc.setO ha
    · cases ha; exact hR.refl _
  have h2 : R a (a.setParam W.text id (1, o)) := by
    refine hR.node hid (sameDims _ _ rfl rfl) (setParam_ready W.text a id _) (setParam_frame W.text a id _) ?_
    unfold WideReady
    rw [hk]
    exact ⟨o, dimValue_ok ho, setParam_shape W.text a id _⟩
  have h3 := hc.init h
  refine ⟨hR.trans h1 (hR.trans h2 h3.1), fun j hj => ?_⟩
  rcases List.mem_cons.1 hj with rfl | hj
  · exact hR.ready h3.1 _ (by simp [NetState.setParam])
  · exact h3.2 j hj

theorem fit_attentionV2 (hR : Steps W S R) {id : ℕ} (hid : id ∈ S) (hk : W.more id = some .attentionV2) {c : Comp} {ids : List ℕ}
    (hc : Fit R c ids) : Fit R (attentionV2C W id c) (id :: ids) :=
  ⟨fun h => attentionV2Init_fit hR hid hk hc h, fun h => (by cases h), fun h => hR.setO hid h⟩

theorem fit_more (hR : Steps W S R) {id : ℕ} {k : MoreKind} (hk : W.more id = some k) (hid : id ∈ S) : Fit R (moreC W id k) [id] := by
  refine fit_wrapper hR hid fun {X Y s s'} h => ?_
  cases k with
  | embed nV dropout coinflips fast =>
    obtain ⟨a, ha, h⟩ := bind_ok (show Except.bind _ _ = _ from h)
    obtain ⟨o, ho, h⟩ := bind_ok h
    cases h
    refine ⟨hR.trans (hR.inferO hid ha) (hR.node hid (sameDims _ _ rfl rfl) (setParam_ready W.text a id _)
      (setParam_frame W.text a id _) ?_), by simp [NetState.setParam]⟩
    unfold WideReady
    rw [hk]
    exact ⟨o, dimValue_ok ho, setParam_shape W.text a id _⟩
  | sparse length v1 =>
    obtain ⟨a, ha, h⟩ := bind_ok (show Except.bind _ _ = _ from h)
    obtain ⟨o, ho, h⟩ := bind_ok h
    cases h
    refine ⟨hR.trans (hR.inferO hid ha) (hR.node hid (sameDims _ _ rfl rfl) (putParams_mono a id _ _)
      (putParams_frame a id _ _) ?_), by simp [NetState.putParams]⟩
    unfold WideReady
    rw [hk]
    exact ⟨o, dimValue_ok ho, by simp [NetState.putParams, Mat.zeros, shapeOf], by simp [NetState.putParams, Mat.zeros, shapeOf]⟩
  | multiSoftmax nOs =>
    obtain ⟨a, ha, h⟩ := bind_ok (show Except.bind _ _ = _ from h)
    obtain ⟨o, ho, h⟩ := bind_ok h
    obtain ⟨i, hi, h⟩ := bind_ok h
    cases h
    refine ⟨hR.trans (hR.inferI hid ha) (hR.node hid (sameDims _ _ rfl rfl) (putParams_mono a id _ _)
      (putParams_frame a id _ _) ?_), by simp [NetState.putParams]⟩
    unfold WideReady
    rw [hk]
    exact ⟨o, i, dimValue_ok ho, dimValue_ok hi, by simp [NetState.putParams, Mat.zeros, shapeOf],
      by simp [NetState.putParams, Mat.zeros, shapeOf]⟩
  | cauchy =>
    obtain ⟨x, -, h⟩ := bind_ok (show Except.bind _ _ = _ from h)
    obtain ⟨a, ha, h⟩ := bind_ok h
    obtain ⟨i, hi, h⟩ := bind_ok h
    cases h
    refine ⟨hR.trans (hR.inferI hid ha) (hR.node hid (sameDims _ _ rfl rfl) (putParam_mono a id _)
      (putParam_frame a id _) ?_), by simp [NetState.putParam]⟩
    unfold WideReady
    rw [hk]
    exact ⟨i, dimValue_ok hi, by simp [NetState.putParam, shapeOf_ofFn]⟩
  | attentionV2 =>
    have := attentionV2Init_fit hR hid hk (fit_plain hR noop) (X := X) (Y := Y) h
    simpa using this

/-! ### Combinators -/

/-- The layers of a combinator. -/
abbrev Members := List (Comp × List ℕ × List ℕ)

/-- Their layers with parameters. -/
abbrev Members.ids (ms : Members) : List ℕ := ms.flatMap fun m => m.2.1

theorem Steps.copyFirstI (hR : Steps W S R) {id : ℕ} (hid : id ∈ S) {cs : List Comp} {s s' : NetState}
    (h : Thinc.copyFirstI id cs s = .ok s') : R s s' := by
  unfold Thinc.copyFirstI at h
  split at h
  · cases h
  · exact hR.copyI hid h

theorem Steps.copyLastO (hR : Steps W S R) {id : ℕ} (hid : id ∈ S) {cs : List Comp} {s s' : NetState}
    (h : Thinc.copyLastO id cs s = .ok s') : R s s' := by
  unfold Thinc.copyLastO at h
  split at h
  · cases h
  · exact hR.copyO hid h

theorem initAllC_fit (hR : Steps W S R) : ∀ {ms : Members}, (∀ m ∈ ms, Fit R m.1 m.2.1) → ∀ {X Y : Option Val} {s s' : NetState},
    initAllC (ms.map Prod.fst) X Y s = .ok s' → R s s' ∧ ∀ id ∈ Members.ids ms, s'.ready id = true
  | [], _, _, _, _, _, h => by cases h; exact ⟨hR.refl _, by simp [Members.ids]⟩
  | m :: ms, hc, X, Y, s, s', h => by
    obtain ⟨a, ha, h⟩ := bind_ok (show Except.bind _ _ = _ from h)
    have h1 := (hc m (by simp)).init ha
    have h2 := initAllC_fit hR (fun m h => hc m (by simp [h])) h
    refine ⟨hR.trans h1.1 h2.1, fun j hj => ?_⟩
    rw [Members.ids, List.flatMap_cons, List.mem_append] at hj
    rcases hj with hj | hj
    · exact hR.ready h2.1 j (h1.2 j hj)
    · exact h2.2 j hj

theorem initChainC_fit (hR : Steps W S R) : ∀ {ms : Members}, (∀ m ∈ ms, Fit R m.1 m.2.1) → ∀ {X Y : Option Val} {s : NetState}
    {r : Option Val × NetState}, initChainC (ms.map Prod.fst) X Y s = .ok r → R s r.2 ∧ ∀ id ∈ Members.ids ms, r.2.ready id = true
  | [], _, _, _, _, _, h => by cases h; exact ⟨hR.refl _, by simp [Members.ids]⟩
  | m :: ms, hc, X, Y, s, r, h => by
    obtain ⟨a, ha, h⟩ := bind_ok (show Except.bind _ _ = _ from h)
    obtain ⟨V, -, h⟩ := bind_ok h
    have h1 := (hc m (by simp)).init ha
    have h2 := initChainC_fit hR (fun m h => hc m (by simp [h])) h
    refine ⟨hR.trans h1.1 h2.1, fun j hj => ?_⟩
    rw [Members.ids, List.flatMap_cons, List.mem_append] at hj
    rcases hj with hj | hj
    · exact hR.ready h2.1 j (h1.2 j hj)
    · exact h2.2 j hj

theorem initTuplify_fit (hR : Steps W S R) : ∀ {ms : Members}, (∀ m ∈ ms, Fit R m.1 m.2.1) → ∀ {ii : ℕ} {X Y : Option Val}
    {s s' : NetState}, initTuplify (ms.map Prod.fst) ii X Y s = .ok s' → R s s' ∧ ∀ id ∈ Members.ids ms, s'.ready id = true
  | [], _, _, _, _, _, _, h => by cases h; exact ⟨hR.refl _, by simp [Members.ids]⟩
  | m :: ms, hc, ii, X, Y, s, s', h => by
    obtain ⟨y, -, h⟩ := bind_ok (show Except.bind _ _ = _ from h)
    obtain ⟨a, ha, h⟩ := bind_ok h
    have h1 := (hc m (by simp)).init ha
    have h2 := initTuplify_fit hR (fun m h => hc m (by simp [h])) h
    refine ⟨hR.trans h1.1 h2.1, fun j hj => ?_⟩
    rw [Members.ids, List.flatMap_cons, List.mem_append] at hj
    rcases hj with hj | hj
    · exact hR.ready h2.1 j (h1.2 j hj)
    · exact h2.2 j hj

theorem fit_chain (hR : Steps W S R) {id : ℕ} (hid : id ∈ S) {ms : Members} (hc : ∀ m ∈ ms, Fit R m.1 m.2.1) :
    Fit R (chainC id (ms.map Prod.fst)) (Members.ids ms) := by
  refine fit_wrapper hR hid fun {X Y s s'} h => ?_
  obtain ⟨a, ha, h⟩ := bind_ok (show Except.bind _ _ = _ from h)
  obtain ⟨r, hr, h⟩ := bind_ok h
  refine hR.before (b := a) ?_ (hR.after (initChainC_fit hR hc hr) ?_)
  · unfold chainStartC at ha
    split at ha
    · obtain ⟨b, hb, ha⟩ := bind_ok (show Except.bind _ _ = _ from ha)
      obtain ⟨d, hd, ha⟩ := bind_ok ha
      exact hR.trans (initAllC_fit hR hc hb).1 (hR.trans (hR.copyFirstI hid hd) (hR.copyLastO hid ha))
    · cases ha; exact hR.refl _
  · obtain ⟨b, hb, h⟩ := bind_ok (show Except.bind _ _ = _ from h)
    refine hR.trans (hR.copyFirstI hid hb) ?_
    split at h
    · unfold chainSetOC at h
      split at h
      · exact hR.copyLastO hid h
      · split at h
        · exact hR.setO hid h
        · exact hR.copyLastO hid h
        · cases h
    · cases h; exact hR.refl _

theorem setAllIC_fit (hR : Steps W S R) {w : ℕ} : ∀ {ms : Members}, (∀ m ∈ ms, Fit R m.1 m.2.1) → ∀ {s s' : NetState},
    setAllIC w (ms.map Prod.fst) s = .ok s' → R s s'
  | [], _, _, _, h => by cases h; exact hR.refl _
  | m :: ms, hc, s, s', h => by
    obtain ⟨a, ha, h⟩ := bind_ok (show Except.bind _ _ = _ from h)
    refine hR.trans (b := a) ?_ (setAllIC_fit hR (fun c h => hc c (by simp [h])) h)
    unfold Comp.setIIfAny at ha
    split at ha
    · cases ha; exact hR.refl _
    · exact (hc m (by simp)).setI ha

theorem setAllOC_fit (hR : Steps W S R) {w : ℕ} : ∀ {ms : Members}, (∀ m ∈ ms, Fit R m.1 m.2.1) → ∀ {s s' : NetState},
    setAllOC w (ms.map Prod.fst) s = .ok s' → R s s'
  | [], _, _, _, h => by cases h; exact hR.refl _
  | m :: ms, hc, s, s', h => by
    obtain ⟨a, ha, h⟩ := bind_ok (show Except.bind _ _ = _ from h)
    refine hR.trans (b := a) ?_ (setAllOC_fit hR (fun c h => hc c (by simp [h])) h)
    unfold Comp.setOIfAny at ha
    split at ha
    · cases ha; exact hR.refl _
    · exact (hc m (by simp)).setO ha

theorem combInferIC_fit (hR : Steps W S R) {id : ℕ} (hid : id ∈ S) {ms : Members} (hc : ∀ m ∈ ms, Fit R m.1 m.2.1) {X : Option Val}
    {s s' : NetState} (h : combInferIC id (ms.map Prod.fst) X s = .ok s') : R s s' := by
  unfold combInferIC at h
  split at h
  · cases h; exact hR.refl _
  · obtain ⟨w, -, h⟩ := bind_ok (show Except.bind _ _ = _ from h)
    obtain ⟨a, ha, h⟩ := bind_ok h
    refine hR.trans (b := a) ?_ (setAllIC_fit hR hc h)
    unfold NetState.setIIfAny at ha
    split at ha
    · cases ha; exact hR.refl _
    · exact hR.setI hid ha

theorem addInferOC_fit (hR : Steps W S R) {id : ℕ} (hid : id ∈ S) {ms : Members} (hc : ∀ m ∈ ms, Fit R m.1 m.2.1) {X : Option Val}
    {s s' : NetState} (h : addInferOC id (ms.map Prod.fst) X s = .ok s') : R s s' := by
  unfold addInferOC at h
  split at h
  · cases h; exact hR.refl _
  · obtain ⟨w, -, h⟩ := bind_ok (show Except.bind _ _ = _ from h)
    obtain ⟨a, ha, h⟩ := bind_ok h
    refine hR.trans (b := a) ?_ (setAllOC_fit hR hc h)
    unfold NetState.setOIfAny at ha
    split at ha
    · cases ha; exact hR.refl _
    · exact hR.setO hid ha

theorem fit_add (hR : Steps W S R) {id : ℕ} (hid : id ∈ S) {ms : Members} (hc : ∀ m ∈ ms, Fit R m.1 m.2.1) :
    Fit R (addC id (ms.map Prod.fst)) (Members.ids ms) := by
  refine fit_wrapper hR hid fun {X Y s s'} h => ?_
  obtain ⟨a, ha, h⟩ := bind_ok (show Except.bind _ _ = _ from h)
  obtain ⟨b, hb, h⟩ := bind_ok h
  obtain ⟨d, hd, h⟩ := bind_ok h
  refine hR.before (combInferIC_fit hR hid hc ha) (hR.before (addInferOC_fit hR hid hc hb) (hR.after (initAllC_fit hR hc hd) ?_))
  unfold addFinishC at h
  split at h
  · cases h
  · obtain ⟨v, -, h⟩ := bind_ok (show Except.bind _ _ = _ from h)
    exact hR.setO hid h

theorem fit_concatenate (hR : Steps W S R) {id : ℕ} (hid : id ∈ S) {ms : Members} (hc : ∀ m ∈ ms, Fit R m.1 m.2.1) :
    Fit R (concatenateC id (ms.map Prod.fst)) (Members.ids ms) := by
  refine fit_wrapper hR hid fun {X Y s s'} h => ?_
  obtain ⟨a, ha, h⟩ := bind_ok (show Except.bind _ _ = _ from h)
  obtain ⟨b, hb, h⟩ := bind_ok h
  refine hR.before (combInferIC_fit hR hid hc ha) (hR.after (initAllC_fit hR hc hb) ?_)
  unfold concatFinishC at h
  split at h
  · exact hR.setO hid h
  · cases h; exact hR.refl _

theorem fit_tuplify (hR : Steps W S R) {id : ℕ} (hid : id ∈ S) {ms : Members} (hc : ∀ m ∈ ms, Fit R m.1 m.2.1) :
    Fit R (tuplifyC id (ms.map Prod.fst)) (Members.ids ms) := by
  refine ⟨fun {X Y s s'} h => ?_, fun h => hR.setI hid h, fun h => by cases h⟩
  obtain ⟨a, ha, h⟩ := bind_ok (show Except.bind _ _ = _ from h)
  obtain ⟨b, hb, h⟩ := bind_ok h
  refine hR.before (b := a) ?_ (hR.after (initTuplify_fit hR hc hb) (hR.copyFirstI hid h))
  unfold tuplifyStart at ha
  split at ha
  · obtain ⟨d, hd, ha⟩ := bind_ok (show Except.bind _ _ = _ from ha)
    exact hR.trans (initAllC_fit hR hc hd).1 (hR.copyFirstI hid ha)
  · cases ha; exact hR.refl _

theorem fit_bidirectional (hR : Steps W S R) {c d : Comp} {ids ids' : List ℕ} (hc : Fit R c ids) (hd : Fit R d ids') :
    Fit R (bidirectionalC c d) (ids ++ ids') := by
  refine fit_bare fun h => ?_
  obtain ⟨ys, -, h⟩ := bind_ok (show Except.bind _ _ = _ from h)
  obtain ⟨a, ha, h⟩ := bind_ok h
  have h1 := hc.init ha
  have h2 := hd.init h
  refine ⟨hR.trans h1.1 h2.1, fun j hj => ?_⟩
  rcases List.mem_append.1 hj with hj | hj
  · exact hR.ready h2.1 j (h1.2 j hj)
  · exact h2.2 j hj

/-- siamese: the encoder is ready if there are data. -/
theorem siameseInit_fit (hR : Steps W S R) {id : ℕ} (hid : id ∈ S) {c d : Comp} {ids ids' : List ℕ} (hc : Fit R c ids) (hd : Fit R d ids')
    {X Y : Option Val} {s s' : NetState} (h : siameseInit id c d X Y s = .ok s') :
    R s s' ∧ (∀ j ∈ ids', s'.ready j = true) ∧ (X ≠ none → ∀ j ∈ ids, s'.ready j = true) := by
  obtain ⟨r, hr, h⟩ := bind_ok (show Except.bind _ _ = _ from h)
  obtain ⟨a, ha, h⟩ := bind_ok h
  obtain ⟨i, -, h⟩ := bind_ok h
  obtain ⟨b, hb, h⟩ := bind_ok h
  obtain ⟨o, -, h⟩ := bind_ok h
  have h1 : R s r.2 ∧ (X ≠ none → ∀ j ∈ ids, r.2.ready j = true) := by
    unfold siameseEncode at hr
    split at hr
    · cases hr; exact ⟨hR.refl _, fun h => absurd rfl h⟩
    obtain ⟨x1, -, hr⟩ := bind_ok (show Except.bind _ _ = _ from hr)
    obtain ⟨w, -, hr⟩ := bind_ok hr
    obtain ⟨t, ht, hr⟩ := bind_ok hr
    obtain ⟨x0, -, hr⟩ := bind_ok hr
    obtain ⟨u, hu, hr⟩ := bind_ok hr
    obtain ⟨v0, -, hr⟩ := bind_ok hr
    obtain ⟨v1, -, hr⟩ := bind_ok hr
    cases hr
    have := hc.init hu
    exact ⟨hR.trans (hc.setI ht) this.1, fun _ => this.2⟩
  have h2 := hd.init ha
  have h3 : R a s' := hR.trans (hR.setI hid hb) (hR.setO hid h)
  exact ⟨hR.trans h1.1 (hR.trans h2.1 h3), fun j hj => hR.ready h3 j (h2.2 j hj),
    fun hX j hj => hR.ready h3 j (hR.ready h2.1 j (h1.2 hX j hj))⟩

/-- Every model is initialized by such steps. -/
theorem wide_steps (hR : Steps W S R) {sia : Bool} {c : Comp} {ids nodes : List ℕ} (hm : WideModel W sia c ids nodes)
    (hS : ∀ j ∈ nodes, j ∈ S) : Fit R c (if sia = true then [] else ids) := by
  have weaken : ∀ {c : Comp} {ids : List ℕ}, Fit R c ids → Fit R c [] := fun h =>
    ⟨fun e => ⟨(h.init e).1, by simp⟩, h.setI, h.setO⟩
  have finish : ∀ {c : Comp} {ids : List ℕ}, Fit R c ids → Fit R c (if sia = true then [] else ids) := fun h => by
    split
    · exact weaken h
    · exact h
  have comb : ∀ ms : Members, (Members.ids (ms.map fun m => (m.1, (if sia = true then [] else m.2.1), m.2.2))) =
      if sia = true then [] else Members.ids ms := by
    intro ms
    split <;> simp [Members.ids, List.flatMap_map]
  have fsts : ∀ ms : Members, (ms.map fun m => (m.1, (if sia = true then ([] : List ℕ) else m.2.1), m.2.2)).map Prod.fst = ms.map Prod.fst := by
    intro ms; simp [Function.comp_def]
  have mem : ∀ ms : Members, (∀ m ∈ ms, Fit R m.1 (if sia = true then [] else m.2.1)) →
      ∀ m ∈ ms.map fun m => (m.1, (if sia = true then ([] : List ℕ) else m.2.1), m.2.2), Fit R m.1 m.2.1 := by
    intro ms h m hm
    obtain ⟨n, hn, rfl⟩ := List.mem_map.1 hm
    exact h n hn
  have app : ∀ a b : List ℕ, (if sia = true then [] else a) ++ (if sia = true then [] else b) = if sia = true then [] else a ++ b := by
    intro a b; split <;> rfl
  have sub : ∀ {id : ℕ} {ms : Members}, (∀ j ∈ id :: ms.flatMap fun m => m.2.2, j ∈ S) → ∀ m ∈ ms, ∀ j ∈ m.2.2, j ∈ S := by
    intro id ms h m hm j hj
    exact h j (List.mem_cons_of_mem _ (List.mem_flatMap.2 ⟨m, hm, hj⟩))
  induction hm with
  | leaf id hk => exact finish (fit_leaf hR hk (hS id (by simp)))
  | more id k hk => exact finish (fit_more hR hk (hS id (by simp)))
  | plain L => exact finish (fit_plain hR L)
  | withArray id pad c ids nodes _ ih => exact fit_withArray hR (hS id (by simp)) (ih fun j hj => hS j (by simp [hj]))
  | withList id c ids nodes _ ih =>
    exact fit_wrapper hR (hS id (by simp)) fun h => fit_convert (ih fun j hj => hS j (by simp [hj])) h
  | withRagged c ids nodes _ ih => exact fit_bare fun h => fit_convert (ih hS) h
  | withPadded id c ids nodes _ ih =>
    exact fit_wrapper hR (hS id (by simp)) fun h => fit_convert (ih fun j hj => hS j (by simp [hj])) h
  | residual id c ids nodes _ ih => exact fit_residual hR (hS id (by simp)) (ih fun j hj => hS j (by simp [hj]))
  | mapList c ids nodes _ ih => exact fit_mapList (ih hS)
  | withGetitem idx c ids nodes _ ih => exact fit_bare fun h => fit_convert (ih hS) h
  | uniqued id column fast c ids nodes _ ih =>
    exact fit_uniqued hR (hS id (by simp)) (ih fun j hj => hS j (by simp [hj])) column fast
  | resizable id c ids nodes _ ih => exact fit_wrapper hR (hS id (by simp)) fun h => (ih fun j hj => hS j (by simp [hj])).init h
  | withCpu id c ids nodes _ ih => exact fit_wrapper hR (hS id (by simp)) fun h => (ih fun j hj => hS j (by simp [hj])).init h
  | attentionV2 id c ids nodes hk _ ih =>
    have := fit_attentionV2 hR (hS id (by simp)) hk (ih fun j hj => hS j (by simp [hj]))
    split
    · exact weaken this
    · rename_i h; simpa [h] using this
  | bidirectional c d ids nodes ids' nodes' _ _ ih ih' =>
    rw [← app]
    exact fit_bidirectional hR (ih fun j hj => hS j (by simp [hj])) (ih' fun j hj => hS j (by simp [hj]))
  | chain id ms _ ih =>
    have := fit_chain hR (hS id (by simp)) (mem ms fun m hm => ih m hm (sub hS m hm))
    rwa [comb, fsts] at this
  | add id ms _ ih =>
    have := fit_add hR (hS id (by simp)) (mem ms fun m hm => ih m hm (sub hS m hm))
    rwa [comb, fsts] at this
  | concatenate id ms _ ih =>
    have := fit_concatenate hR (hS id (by simp)) (mem ms fun m hm => ih m hm (sub hS m hm))
    rwa [comb, fsts] at this
  | tuplify id ms _ ih =>
    have := fit_tuplify hR (hS id (by simp)) (mem ms fun m hm => ih m hm (sub hS m hm))
    rwa [comb, fsts] at this
  | siamese id c sim ids nodes ids' nodes' hs _ _ ih ih' =>
    rw [if_pos hs]
    refine fit_wrapper hR (hS id (by simp)) fun h => ⟨?_, by simp⟩
    exact (siameseInit_fit hR (hS id (by simp)) (ih fun j hj => hS j (by simp [hj])) (ih' fun j hj => hS j (by simp [hj])) h).1

/-- What initialization keeps. -/
def Kept (W : WideEnv) (S : List ℕ) (s s' : NetState) : Prop :=
  KeepsDims s s' ∧ (∀ id, s.ready id = true → s'.ready id = true) ∧ Frame S s s' ∧ (WideSane W s → WideSane W s')

theorem wideReady_congr {s s' : NetState} {id : ℕ} (hd : KeepsDims s s') (h1 : s'.params (2 * id) = s.params (2 * id))
    (h2 : s'.params (2 * id + 1) = s.params (2 * id + 1)) (h : WideReady W s id) : WideReady W s' id := by
  unfold WideReady at h ⊢
  split <;> rename_i ek <;> simp only [ek] at h
  · unfold TextReady at h ⊢
    split <;> rename_i ek <;> simp only [ek] at h
    · obtain ⟨o, i, a, b, c, d⟩ := h
      exact ⟨o, i, (hd id o).1 a, (hd id i).2 b, by rw [h1]; exact c, by rw [h2]; exact d⟩
    · obtain ⟨o, a, b⟩ := h
      exact ⟨o, (hd id o).1 a, by rw [h1]; exact b⟩
    · obtain ⟨o, a, b⟩ := h
      exact ⟨o, (hd id o).1 a, by rw [h1]; exact b⟩
  · obtain ⟨o, a, b⟩ := h
    exact ⟨o, (hd id o).1 a, by rw [h1]; exact b⟩
  · obtain ⟨o, a, b, c⟩ := h
    exact ⟨o, (hd id o).1 a, by rw [h1]; exact b, by rw [h2]; exact c⟩
  · obtain ⟨o, i, a, b, c, d⟩ := h
    exact ⟨o, i, (hd id o).1 a, (hd id i).2 b, by rw [h1]; exact c, by rw [h2]; exact d⟩
  · obtain ⟨i, a, b⟩ := h
    exact ⟨i, (hd id i).2 a, by rw [h1]; exact b⟩
  · obtain ⟨o, a, b⟩ := h
    exact ⟨o, (hd id o).1 a, by rw [h1]; exact b⟩

theorem kept_steps (W : WideEnv) (S : List ℕ) : Steps W S (Kept W S) where
  refl s := ⟨fun _ _ => ⟨id, id⟩, fun _ => id, Frame.refl _ _, id⟩
  trans h k := ⟨fun id v => ⟨fun e => (k.1 id v).1 ((h.1 id v).1 e), fun e => (k.1 id v).2 ((h.1 id v).2 e)⟩,
    fun id e => k.2.1 id (h.2.1 id e), h.2.2.1.trans k.2.2.1, fun e => k.2.2.2 (h.2.2.2 e)⟩
  ready h := h.2.1
  setI {s s' i v} hid h := by
    have hf := setI_frame h
    have hd := (setI_grows (E := W.text.net) h).dims
    obtain ⟨rfl, -⟩ := setI_ok h
    exact ⟨hd, fun _ => id, hf.mono (by simpa using hid), fun hs j hj => wideReady_congr hd rfl rfl (hs j hj)⟩
  setO {s s' i v} hid h := by
    have hf := setO_frame h
    have hd := (setO_grows (E := W.text.net) h).dims
    obtain ⟨rfl, -⟩ := setO_ok h
    exact ⟨hd, fun _ => id, hf.mono (by simpa using hid), fun hs j hj => wideReady_congr hd rfl rfl (hs j hj)⟩
  node {s s' i} hid hd hr hf hw := by
    refine ⟨hd, hr, hf.mono (by simpa using hid), fun hs j hj => ?_⟩
    by_cases e : j = i
    · rw [e]; exact hw
    obtain ⟨f1, f2, f3, f4, f5⟩ := hf j (by simpa using e)
    rw [f3] at hj
    exact wideReady_congr hd f4 f5 (hs j hj)

end Thinc
