import Verif.Lemmas.TextComb
/-! # Models for text: initialization and shapes -/
namespace Thinc
open Spec

/-- What is proved for all models for text. -/
structure Good (T : TextEnv) (c : Comp) : Prop where
  init : ∀ {X Y : Option Val} {s s' : NetState}, c.init X Y s = .ok s' → Later T s s'
  setI : ∀ {s s' : NetState} {v : ℕ}, c.setI s v = .ok s' → Later T s s'
  setO : ∀ {s s' : NetState} {v : ℕ}, c.setO s v = .ok s' → Later T s s'
  uniform : ∀ {s : NetState}, TextSane T s → Positive T s →
    Uniform (fun j : LaterState T s => c.layer j.1) (fun j => j.1.params) ⟨s, Later.refl T s⟩

variable {T : TextEnv}

theorem copyIC_later {id : ℕ} {c : Comp} {s s' : NetState} (h : c.copyI id s = .ok s') : Later T s s' := by
  unfold Comp.copyI at h
  split at h
  · exact setI_later h
  · cases h; exact Later.refl _ _

theorem copyOC_later {id : ℕ} {c : Comp} {s s' : NetState} (h : c.copyO id s = .ok s') : Later T s s' := by
  unfold Comp.copyO at h
  split at h
  · exact setO_later h
  · cases h; exact Later.refl _ _

theorem copyFirstI_later {id : ℕ} {cs : List Comp} {s s' : NetState} (h : copyFirstI id cs s = .ok s') : Later T s s' := by
  unfold copyFirstI at h
  split at h
  · cases h
  · exact copyIC_later h

theorem copyLastO_later {id : ℕ} {cs : List Comp} {s s' : NetState} (h : copyLastO id cs s = .ok s') : Later T s s' := by
  unfold copyLastO at h
  split at h
  · cases h
  · exact copyOC_later h

theorem initAllC_later : ∀ {cs : List Comp}, (∀ c ∈ cs, Good T c) → ∀ {X Y : Option Val} {s s' : NetState},
    initAllC cs X Y s = .ok s' → Later T s s'
  | [], _, _, _, _, _, h => by cases h; exact Later.refl _ _
  | c :: cs, hc, X, Y, s, s', h => by
    obtain ⟨a, ha, h⟩ := bind_ok (show Except.bind _ _ = _ from h)
    exact ((hc c (by simp)).init ha).trans (initAllC_later (fun c h => hc c (by simp [h])) h)

theorem initChainC_later : ∀ {cs : List Comp}, (∀ c ∈ cs, Good T c) → ∀ {X Y : Option Val} {s : NetState} {r : Option Val × NetState},
    initChainC cs X Y s = .ok r → Later T s r.2
  | [], _, _, _, _, _, h => by cases h; exact Later.refl _ _
  | c :: cs, hc, X, Y, s, r, h => by
    obtain ⟨a, ha, h⟩ := bind_ok (show Except.bind _ _ = _ from h)
    obtain ⟨V, -, h⟩ := bind_ok h
    exact ((hc c (by simp)).init ha).trans (initChainC_later (fun c h => hc c (by simp [h])) h)

theorem chainStartC_later {id : ℕ} {cs : List Comp} (hc : ∀ c ∈ cs, Good T c) {X Y : Option Val} {s s' : NetState}
    (h : chainStartC id cs X Y s = .ok s') : Later T s s' := by
  unfold chainStartC at h
  split at h
  · obtain ⟨a, ha, h⟩ := bind_ok (show Except.bind _ _ = _ from h)
    obtain ⟨b, hb, h⟩ := bind_ok h
    exact (initAllC_later hc ha).trans ((copyFirstI_later hb).trans (copyLastO_later h))
  · cases h; exact Later.refl _ _

theorem chainSetOC_later {id : ℕ} {cs : List Comp} {cur : Option Val} {s s' : NetState} (h : chainSetOC id cs cur s = .ok s') :
    Later T s s' := by
  unfold chainSetOC at h
  split at h
  · exact copyLastO_later h
  · split at h
    · exact setO_later h
    · exact copyLastO_later h
    · cases h

theorem chainFinishC_later {id : ℕ} {cs : List Comp} {cur : Option Val} {s s' : NetState} (h : chainFinishC id cs cur s = .ok s') :
    Later T s s' := by
  obtain ⟨a, ha, h⟩ := bind_ok (show Except.bind _ _ = _ from h)
  refine (copyFirstI_later ha).trans ?_
  split at h
  · exact chainSetOC_later h
  · cases h; exact Later.refl _ _

theorem chainInitC_later {id : ℕ} {cs : List Comp} (hc : ∀ c ∈ cs, Good T c) {X Y : Option Val} {s s' : NetState}
    (h : chainInitC id cs X Y s = .ok s') : Later T s s' := by
  obtain ⟨a, ha, h⟩ := bind_ok (show Except.bind _ _ = _ from h)
  obtain ⟨r, hr, h⟩ := bind_ok h
  exact (chainStartC_later hc ha).trans ((initChainC_later hc hr).trans (chainFinishC_later h))

theorem setAllIC_later {w : ℕ} : ∀ {cs : List Comp}, (∀ c ∈ cs, Good T c) → ∀ {s s' : NetState}, setAllIC w cs s = .ok s' → Later T s s'
  | [], _, _, _, h => by cases h; exact Later.refl _ _
  | c :: cs, hc, s, s', h => by
    obtain ⟨a, ha, h⟩ := bind_ok (show Except.bind _ _ = _ from h)
    refine Later.trans (b := a) ?_ (setAllIC_later (fun c h => hc c (by simp [h])) h)
    unfold Comp.setIIfAny at ha
    split at ha
    · cases ha; exact Later.refl _ _
    · exact (hc c (by simp)).setI ha

theorem setAllOC_later {w : ℕ} : ∀ {cs : List Comp}, (∀ c ∈ cs, Good T c) → ∀ {s s' : NetState}, setAllOC w cs s = .ok s' → Later T s s'
  | [], _, _, _, h => by cases h; exact Later.refl _ _
  | c :: cs, hc, s, s', h => by
    obtain ⟨a, ha, h⟩ := bind_ok (show Except.bind _ _ = _ from h)
    refine Later.trans (b := a) ?_ (setAllOC_later (fun c h => hc c (by simp [h])) h)
    unfold Comp.setOIfAny at ha
    split at ha
    · cases ha; exact Later.refl _ _
    · exact (hc c (by simp)).setO ha

theorem combInferIC_later {id : ℕ} {cs : List Comp} (hc : ∀ c ∈ cs, Good T c) {X : Option Val} {s s' : NetState}
    (h : combInferIC id cs X s = .ok s') : Later T s s' := by
  unfold combInferIC at h
  split at h
  · cases h; exact Later.refl _ _
  · obtain ⟨w, -, h⟩ := bind_ok (show Except.bind _ _ = _ from h)
    obtain ⟨a, ha, h⟩ := bind_ok h
    refine Later.trans (b := a) ?_ (setAllIC_later hc h)
    unfold NetState.setIIfAny at ha
    split at ha
    · cases ha; exact Later.refl _ _
    · exact setI_later ha

theorem addInferOC_later {id : ℕ} {cs : List Comp} (hc : ∀ c ∈ cs, Good T c) {X : Option Val} {s s' : NetState}
    (h : addInferOC id cs X s = .ok s') : Later T s s' := by
  unfold addInferOC at h
  split at h
  · cases h; exact Later.refl _ _
  · obtain ⟨w, -, h⟩ := bind_ok (show Except.bind _ _ = _ from h)
    obtain ⟨a, ha, h⟩ := bind_ok h
    refine Later.trans (b := a) ?_ (setAllOC_later hc h)
    unfold NetState.setOIfAny at ha
    split at ha
    · cases ha; exact Later.refl _ _
    · exact setO_later ha

theorem addInitC_later {id : ℕ} {cs : List Comp} (hc : ∀ c ∈ cs, Good T c) {X Y : Option Val} {s s' : NetState}
    (h : addInitC id cs X Y s = .ok s') : Later T s s' := by
  obtain ⟨a, ha, h⟩ := bind_ok (show Except.bind _ _ = _ from h)
  obtain ⟨b, hb, h⟩ := bind_ok h
  obtain ⟨d, hd, h⟩ := bind_ok h
  refine (combInferIC_later hc ha).trans ((addInferOC_later hc hb).trans ((initAllC_later hc hd).trans ?_))
  unfold addFinishC at h
  split at h
  · cases h
  · obtain ⟨v, -, h⟩ := bind_ok (show Except.bind _ _ = _ from h)
    exact setO_later h

theorem concatInitC_later {id : ℕ} {cs : List Comp} (hc : ∀ c ∈ cs, Good T c) {X Y : Option Val} {s s' : NetState}
    (h : concatInitC id cs X Y s = .ok s') : Later T s s' := by
  obtain ⟨a, ha, h⟩ := bind_ok (show Except.bind _ _ = _ from h)
  obtain ⟨b, hb, h⟩ := bind_ok h
  refine (combInferIC_later hc ha).trans ((initAllC_later hc hb).trans ?_)
  unfold concatFinishC at h
  split at h
  · exact setO_later h
  · cases h; exact Later.refl _ _

theorem withArrayInit_later {id : ℕ} {c : Comp} (hc : Good T c) {X Y : Option Val} {s s' : NetState}
    (h : withArrayInit id c X Y s = .ok s') : Later T s s' := by
  obtain ⟨X, -, h⟩ := bind_ok (show Except.bind _ _ = _ from h)
  obtain ⟨Y, -, h⟩ := bind_ok h
  obtain ⟨a, ha, h⟩ := bind_ok h
  obtain ⟨b, hb, h⟩ := bind_ok h
  exact (hc.init ha).trans ((copyOC_later hb).trans (copyIC_later h))

theorem convertInit_later {f : Val → Except PyErr Val} {c : Comp} (hc : Good T c) {X Y : Option Val} {s s' : NetState}
    (h : convertInit f c X Y s = .ok s') : Later T s s' := by
  obtain ⟨X, -, h⟩ := bind_ok (show Except.bind _ _ = _ from h)
  obtain ⟨Y, -, h⟩ := bind_ok h
  exact hc.init h

theorem residualInitC_later {id : ℕ} {c : Comp} (hc : Good T c) {X Y : Option Val} {s s' : NetState}
    (h : residualInitC id c X Y s = .ok s') : Later T s s' := by
  obtain ⟨a, ha, h⟩ := bind_ok (show Except.bind _ _ = _ from h)
  obtain ⟨b, hb, h⟩ := bind_ok h
  exact (hc.init ha).trans ((copyOC_later hb).trans (copyIC_later h))

/-- The layers of a list as families. -/
theorem families {cs : List Comp} (hc : ∀ c ∈ cs, Good T c) {s : NetState} (hs : TextSane T s) (hp : Positive T s) :
    ∀ L ∈ cs.map (fun c => fun j : LaterState T s => c.layer j.1), Uniform L (fun j => j.1.params) ⟨s, Later.refl T s⟩ := by
  intro L hL
  obtain ⟨c, h, rfl⟩ := List.mem_map.1 hL
  exact (hc c h).uniform hs hp

theorem map_families (cs : List Comp) {s : NetState} (j : LaterState T s) :
    (cs.map (fun c => fun j : LaterState T s => c.layer j.1)).map (fun L => L j) = cs.map fun c => c.layer j.1 := by
  rw [List.map_map]
  rfl

theorem good {c : Comp} (h : TextModel T c) : Good T c := by
  induction h with
  | leaf id => exact ⟨textInit_later, setI_later, setO_later, fun hs hp => uniform_leaf hs hp id⟩
  | plain L hL =>
    refine ⟨fun h => ?_, fun h => ?_, fun h => ?_, fun _ _ => uniform_of_decides (plain_decides hL) _ _⟩
    · cases h; exact Later.refl _ _
    · cases h
    · cases h
  | withArray id pad c _ ih =>
    exact ⟨withArrayInit_later ih, setI_later, setO_later, fun hs hp => uniform_withArray pad (ih.uniform hs hp)⟩
  | withList id c _ ih => exact ⟨convertInit_later ih, setI_later, setO_later, fun hs hp => uniform_withList (ih.uniform hs hp)⟩
  | withRagged c _ ih =>
    refine ⟨convertInit_later ih, fun h => ?_, fun h => ?_, fun hs hp => uniform_withRagged (ih.uniform hs hp)⟩
    · cases h
    · cases h
  | withPadded id c _ ih => exact ⟨convertInit_later ih, setI_later, setO_later, fun hs hp => uniform_withPadded (ih.uniform hs hp)⟩
  | chain id cs _ ih =>
    refine ⟨chainInitC_later ih, setI_later, setO_later, fun hs hp => ?_⟩
    have := uniform_chain _ (families ih hs hp)
    simp only [map_families] at this
    exact this
  | add id cs _ hn ih =>
    refine ⟨addInitC_later ih, setI_later, setO_later, fun {s} hs hp => ?_⟩
    have := uniform_add _ (families ih hs hp) (by
      intro L hL
      obtain ⟨c, h, rfl⟩ := List.mem_map.1 hL
      intro X Y cb e
      exact hn c h s _ X Y cb e)
    simp only [map_families] at this
    exact this
  | concatenate id cs _ ih =>
    refine ⟨concatInitC_later ih, setI_later, setO_later, fun hs hp => ?_⟩
    have := uniform_concatenate _ (families ih hs hp)
    simp only [map_families] at this
    exact this
  | residual id c _ ih => exact ⟨residualInitC_later ih, setI_later, setO_later, fun hs hp => uniform_residual (ih.uniform hs hp)⟩

/-! ### The loop of `chain.init` -/

theorem initChain_fits : ∀ {cs : List Comp}, (∀ c ∈ cs, Good T c) → ∀ {σ : Shape} {ls : List ℕ} {X : Val} {Y : Option Val} {s : NetState}
    {r : Option Val × NetState}, initChainC cs (some X) Y s = .ok r → TextSane T s → Positive T r.2 → Varied ls → σ.Holds ls X →
    ∃ V τ, r.1 = some V ∧ Shape.Holds τ ls V ∧ ∀ s₂, Later T r.2 s₂ → ∀ ls', Nonvoid ls' → ∀ X', σ.Holds ls' X' → ∀ cbs,
      ∃ Y' cbs', chainLoop false s₂.params (cs.map fun c => c.layer s₂) X' cbs = .ok (Y', cbs') ∧ τ.Holds ls' Y'
  | [], _, σ, ls, X, Y, s, r, h, hs, hp, hl, hX => by
    cases h
    exact ⟨X, σ, rfl, hX, fun s₂ _ ls' _ X' hX' cbs => ⟨X', cbs, rfl, hX'⟩⟩
  | c :: cs, hc, σ, ls, X, Y, s, r, h, hs, hp, hl, hX => by
    obtain ⟨a, ha, h⟩ := bind_ok (show Except.bind _ _ = _ from h)
    obtain ⟨V, hV, h⟩ := bind_ok h
    obtain ⟨W, hW, e⟩ := bind_ok (show Except.bind _ _ = _ from hV)
    cases e
    obtain ⟨⟨W', cb⟩, hW', e⟩ := bind_ok (show Except.bind _ _ = _ from hW)
    cases e
    have hc' : ∀ c ∈ cs, Good T c := fun c h => hc c (by simp [h])
    have l1 := (hc c (by simp)).init ha
    have l2 := initChainC_later hc' h
    obtain ⟨τ, hτ⟩ := (hc c (by simp)).uniform (l1.sane hs) (l2.positive hp) σ ls X _ hl hX hW'
    obtain ⟨Z, cb', eZ, hZ⟩ := hτ ⟨a, Later.refl _ _⟩ ls hl.batch X hX
    simp only at hW' eZ
    rw [hW'] at eZ
    cases eZ
    obtain ⟨V', υ, e1, e2, e3⟩ := initChain_fits hc' h (l1.sane hs) hp hl hZ
    refine ⟨V', υ, e1, e2, fun s₂ h₂ ls' hl' X' hX' cbs => ?_⟩
    obtain ⟨Q, cb, eQ, hQ⟩ := hτ ⟨s₂, l2.trans h₂⟩ ls' hl' X' hX'
    obtain ⟨R, cbs', eR, hR⟩ := e3 s₂ h₂ ls' hl' Q hQ (cbs ++ [cb])
    refine ⟨R, cbs', ?_, hR⟩
    simp only at eQ
    simp only [List.map_cons, chainLoop, eQ, bind, Except.bind]
    exact eR

theorem getWidth_of {τ : Shape} {ls : List ℕ} (hl : Nonvoid ls) {V : Val} (h : τ.Holds ls V) {w : ℕ} (hw : τ.width = some w) :
    getWidth V = .ok w := by
  cases τ with
  | arr per v => obtain ⟨-, A, rfl, -, rfl⟩ := h; cases hw; rfl
  | ids per v => obtain ⟨-, A, rfl, -, rfl⟩ := h; cases hw; rfl
  | ints per => cases hw
  | ragged v => obtain ⟨-, A, rfl, -, rfl⟩ := h; cases hw; rfl
  | padded v => obtain ⟨-, A, ix, -, rfl, -, rfl⟩ := h; cases hw; rfl
  | seqs v =>
    obtain ⟨-, As, rfl, h1, h2⟩ := h
    cases hw
    cases As with
    | nil => exact absurd h1.symm hl.1
    | cons A As => exact congrArg Except.ok (h2 A (by simp))
  | idSeqs v =>
    obtain ⟨-, As, rfl, h1, h2⟩ := h
    cases hw
    cases As with
    | nil => exact absurd h1.symm hl.1
    | cons A As => exact congrArg Except.ok (h2 A (by simp))

end Thinc
