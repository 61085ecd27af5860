import Verif.Lemmas.WideModels
import Verif.Props.Initialize
/-!
# C111: initialization reaches every layer

Theorems about `initialize` of all models that are built from the layers in `Verif.Spec.WideModels`.
-/
namespace Thinc
open Spec

variable {W : WideEnv}

/-- `initialize` keeps the dimensions that are set, the layers that have parameters, the layers outside the model, and the
shapes that the parameters must have. -/
theorem C111_keeps {sia : Bool} {c : Comp} {ids nodes : List ℕ} (hm : WideModel W sia c ids nodes) {X Y : Option Val} {s s' : NetState}
    (h : c.init X Y s = .ok s') :
    KeepsDims s s' ∧ (∀ id, s.ready id = true → s'.ready id = true) ∧ (∀ id, id ∉ nodes → SameNode s s' id) ∧
      (WideSane W s → WideSane W s') :=
  ((wide_steps (kept_steps W nodes) hm fun _ h => h).init h).1

/-- After `initialize` of a model without siamese, every layer has its parameters, in the shapes that belong to its
dimensions.  What is missing: siamese, see `C111_siamese_violated`. -/
theorem C111_all_ready_partial {c : Comp} {ids nodes : List ℕ} (hm : WideModel W false c ids nodes) {X Y : Option Val} {s s' : NetState}
    (hs : WideSane W s) (h : c.init X Y s = .ok s') : ∀ id ∈ ids, s'.ready id = true ∧ WideReady W s' id := by
  intro id hid
  have := (wide_steps (kept_steps W nodes) hm fun _ h => h).init h
  simp only [Bool.false_eq_true, if_false] at this
  exact ⟨this.2 id hid, this.1.2.2.2 hs id (this.2 id hid)⟩

/-- siamese with an example: both layers are initialized. -/
theorem C111_siamese_given {id : ℕ} {c sim : Comp} {ids nodes ids' nodes' : List ℕ} (hc : WideModel W false c ids nodes)
    (hsim : WideModel W false sim ids' nodes') {X : Val} {Y : Option Val} {s s' : NetState}
    (hs : WideSane W s) (h : (siameseC id c sim).init (some X) Y s = .ok s') :
    ∀ j ∈ ids ++ ids', s'.ready j = true ∧ WideReady W s' j := by
  have hR := kept_steps W (id :: (nodes ++ nodes'))
  have h1 := wide_steps hR hc fun j hj => by simp [hj]
  have h2 := wide_steps hR hsim fun j hj => by simp [hj]
  simp only [Bool.false_eq_true, if_false] at h1 h2
  obtain ⟨k, k1, k2⟩ := siameseInit_fit hR (by simp) h1 h2 h
  intro j hj
  have hj : s'.ready j = true := by
    rcases List.mem_append.1 hj with hj | hj
    · exact k2 (by simp) j hj
    · exact k1 j hj
  exact ⟨hj, k.2.2.2 hs j hj⟩

/-- siamese without an example: the encoder is left as it was. -/
theorem C111_siamese_skips_encoder {id : ℕ} {c sim : Comp} {ids' nodes' : List ℕ} (hsim : WideModel W true sim ids' nodes') {Y : Option Val}
    {s s' : NetState} (h : (siameseC id c sim).init none Y s = .ok s') {j : ℕ} (hj : j ≠ id) (hj' : j ∉ nodes') : SameNode s s' j := by
  have hR := kept_steps W (id :: nodes')
  have h2 := wide_steps hR hsim fun j hj => by simp [hj]
  have h : siameseInit id c sim none Y s = .ok s' := h
  obtain ⟨a, ha, h⟩ := bind_ok (show Except.bind _ _ = _ from h)
  obtain ⟨i, -, h⟩ := bind_ok h
  obtain ⟨b, hb, h⟩ := bind_ok h
  obtain ⟨o, -, h⟩ := bind_ok h
  have := hR.trans (h2.init ha).1 (hR.trans (hR.setI (by simp) hb) (hR.setO (by simp) h))
  exact this.2.2.1 j (by simp [hj, hj'])

/-! ### Which example sets which dimension -/

theorem setO_iff {s s' : NetState} {id w : ℕ} : s.setO id w = .ok s' ↔ (s.nO id = some none ∨ s.nO id = some (some w)) ∧ s' = hasO s id w := by
  unfold NetState.setO newDim hasO
  cases h : s.nO id with
  | none => simp [bind, Except.bind]
  | some d =>
    cases d with
    | none => simp [bind, Except.bind, pure, Except.pure, eq_comm]
    | some v =>
      by_cases e : v = w
      · simp [bind, Except.bind, pure, Except.pure, e, eq_comm]
      · simp [bind, Except.bind, e]

theorem setI_iff {s s' : NetState} {id w : ℕ} : s.setI id w = .ok s' ↔ (s.nI id = some none ∨ s.nI id = some (some w)) ∧ s' = hasI s id w := by
  unfold NetState.setI newDim hasI
  cases h : s.nI id with
  | none => simp [bind, Except.bind]
  | some d =>
    cases d with
    | none => simp [bind, Except.bind, pure, Except.pure, eq_comm]
    | some v =>
      by_cases e : v = w
      · simp [bind, Except.bind, pure, Except.pure, e, eq_comm]
      · simp [bind, Except.bind, e]

theorem hasO_self {s : NetState} {id v : ℕ} (h : s.nO id = some (some v)) : hasO s id v = s := by
  unfold hasO
  cases s
  simp only at h ⊢
  congr
  funext i
  split
  · rename_i e; rw [e, h]
  · rfl

theorem hasI_self {s : NetState} {id v : ℕ} (h : s.nI id = some (some v)) : hasI s id v = s := by
  unfold hasI
  cases s
  simp only at h ⊢
  congr
  funext i
  split
  · rename_i e; rw [e, h]
  · rfl

theorem dimValue_iff {d : Option (Option ℕ)} {v : ℕ} : dimValue d = .ok v ↔ d = some (some v) := by
  unfold dimValue
  split <;> simp

theorem inferO_iff {s s' : NetState} {id v : ℕ} {Y : Option Val} :
    (s.inferO id Y = .ok s' ∧ dimValue (s'.nO id) = .ok v) ↔ DimFrom (s.nO id) Y v ∧ s' = hasO s id v := by
  rw [dimValue_iff]
  unfold NetState.inferO DimFrom
  cases Y with
  | none =>
    constructor
    · rintro ⟨h, hv⟩
      cases h
      exact ⟨.inl ⟨hv, by simp⟩, (hasO_self hv).symm⟩
    · rintro ⟨⟨h, -⟩ | ⟨-, x, h, -⟩, rfl⟩
      · exact ⟨by rw [hasO_self h], by simp [hasO]⟩
      · cases h
  | some y =>
    constructor
    · rintro ⟨h, hv⟩
      obtain ⟨w, hw, h⟩ := bind_ok (show Except.bind _ _ = _ from h)
      obtain ⟨hd, rfl⟩ := setO_iff.1 h
      have : w = v := by simpa [hasO] using hv
      subst this
      refine ⟨?_, rfl⟩
      rcases hd with hd | hd
      · exact .inr ⟨hd, y, rfl, hw⟩
      · exact .inl ⟨hd, fun x hx => by cases hx; exact hw⟩
    · rintro ⟨h, rfl⟩
      have hw : getWidth y = .ok v := by
        rcases h with ⟨-, h⟩ | ⟨-, x, hx, h⟩
        · exact h y rfl
        · cases hx; exact h
      refine ⟨?_, by simp [hasO]⟩
      simp only [hw, bind, Except.bind]
      refine setO_iff.2 ⟨?_, rfl⟩
      rcases h with ⟨h, -⟩ | ⟨h, -⟩
      · exact .inr h
      · exact .inl h

theorem inferI_iff {s s' : NetState} {id v : ℕ} {X : Option Val} :
    (s.inferI id X = .ok s' ∧ dimValue (s'.nI id) = .ok v) ↔ DimFrom (s.nI id) X v ∧ s' = hasI s id v := by
  rw [dimValue_iff]
  unfold NetState.inferI DimFrom
  cases X with
  | none =>
    constructor
    · rintro ⟨h, hv⟩
      cases h
      exact ⟨.inl ⟨hv, by simp⟩, (hasI_self hv).symm⟩
    · rintro ⟨⟨h, -⟩ | ⟨-, x, h, -⟩, rfl⟩
      · exact ⟨by rw [hasI_self h], by simp [hasI]⟩
      · cases h
  | some y =>
    constructor
    · rintro ⟨h, hv⟩
      obtain ⟨w, hw, h⟩ := bind_ok (show Except.bind _ _ = _ from h)
      obtain ⟨hd, rfl⟩ := setI_iff.1 h
      have : w = v := by simpa [hasI] using hv
      subst this
      refine ⟨?_, rfl⟩
      rcases hd with hd | hd
      · exact .inr ⟨hd, y, rfl, hw⟩
      · exact .inl ⟨hd, fun x hx => by cases hx; exact hw⟩
    · rintro ⟨h, rfl⟩
      have hw : getWidth y = .ok v := by
        rcases h with ⟨-, h⟩ | ⟨-, x, hx, h⟩
        · exact h y rfl
        · cases hx; exact h
      refine ⟨?_, by simp [hasI]⟩
      simp only [hw, bind, Except.bind]
      refine setI_iff.2 ⟨?_, rfl⟩
      rcases h with ⟨h, -⟩ | ⟨h, -⟩
      · exact .inr h
      · exact .inl h

/-- Embed: nO comes from Y, and X is not looked at; the table has nV rows and nO columns. -/
theorem C111_embed_init {id nV : ℕ} {dropout : Option ℝ} {coinflips : ℕ → ℕ → ℝ} {fast : Bool} {X Y : Option Val} {s s' : NetState} :
    (moreC W id (.embed nV dropout coinflips fast)).init X Y s = .ok s' ↔
      ∃ nO, DimFrom (s.nO id) Y nO ∧ s' = (hasO s id nO).setParam W.text id (nV, nO) := by
  constructor
  · intro h
    obtain ⟨a, ha, h⟩ := bind_ok (show Except.bind _ _ = _ from h)
    obtain ⟨o, ho, h⟩ := bind_ok h
    cases h
    obtain ⟨hd, rfl⟩ := inferO_iff.1 ⟨ha, ho⟩
    exact ⟨o, hd, rfl⟩
  · rintro ⟨o, hd, rfl⟩
    obtain ⟨ha, ho⟩ := inferO_iff.2 ⟨hd, rfl⟩
    simp only [moreC, wrapper, moreInit, embedInit, ha, ho, bind, Except.bind, pure, Except.pure]

/-- SparseLinear: nO comes from Y, and X is not looked at; the weights are zero. -/
theorem C111_sparse_init {id length : ℕ} {v1 : Bool} {X Y : Option Val} {s s' : NetState} :
    (moreC W id (.sparse length v1)).init X Y s = .ok s' ↔
      ∃ nO, DimFrom (s.nO id) Y nO ∧ s' = (hasO s id nO).putParams id (Mat.zeros 1 (nO * length)) (Mat.zeros 1 nO) := by
  constructor
  · intro h
    obtain ⟨a, ha, h⟩ := bind_ok (show Except.bind _ _ = _ from h)
    obtain ⟨o, ho, h⟩ := bind_ok h
    cases h
    obtain ⟨hd, rfl⟩ := inferO_iff.1 ⟨ha, ho⟩
    exact ⟨o, hd, rfl⟩
  · rintro ⟨o, hd, rfl⟩
    obtain ⟨ha, ho⟩ := inferO_iff.2 ⟨hd, rfl⟩
    simp only [moreC, wrapper, moreInit, sparseInit, ha, ho, bind, Except.bind, pure, Except.pure]

/-- MultiSoftmax: nI comes from X, and Y is not looked at; the weights are zero. -/
theorem C111_multisoftmax_init {id : ℕ} {nOs : List ℕ} {X Y : Option Val} {s s' : NetState} :
    (moreC W id (.multiSoftmax nOs)).init X Y s = .ok s' ↔
      ∃ nO nI, s.nO id = some (some nO) ∧ DimFrom (s.nI id) X nI ∧
        s' = (hasI s id nI).putParams id (Mat.zeros nO nI) (Mat.zeros 1 nO) := by
  constructor
  · intro h
    obtain ⟨a, ha, h⟩ := bind_ok (show Except.bind _ _ = _ from h)
    obtain ⟨o, ho, h⟩ := bind_ok h
    obtain ⟨i, hi, h⟩ := bind_ok h
    cases h
    obtain ⟨hd, rfl⟩ := inferI_iff.1 ⟨ha, hi⟩
    exact ⟨o, i, dimValue_iff.1 ho, hd, rfl⟩
  · rintro ⟨o, i, ho, hd, rfl⟩
    obtain ⟨ha, hi⟩ := inferI_iff.2 ⟨hd, rfl⟩
    have ho : dimValue ((hasI s id i).nO id) = .ok o := dimValue_iff.2 ho
    simp only [moreC, wrapper, moreInit, multiSoftmaxInit, ha, ho, hi, bind, Except.bind, pure, Except.pure]

/-- CauchySimilarity: nI comes from the first item of X, and Y is not looked at; the weights are one. -/
theorem C111_cauchy_init {id : ℕ} {X Y : Option Val} {s s' : NetState} :
    (moreC W id .cauchy).init X Y s = .ok s' ↔
      ∃ x nI, ((X = none ∧ x = none) ∨ ∃ v u, X = some v ∧ v.item 0 = .ok u ∧ x = some u) ∧ DimFrom (s.nI id) x nI ∧
        s' = (hasI s id nI).putParam id (Mat.ofFn 1 nI fun _ _ => 1) := by
  constructor
  · intro h
    obtain ⟨x, hx, h⟩ := bind_ok (show Except.bind _ _ = _ from h)
    obtain ⟨a, ha, h⟩ := bind_ok h
    obtain ⟨i, hi, h⟩ := bind_ok h
    cases h
    obtain ⟨hd, rfl⟩ := inferI_iff.1 ⟨ha, hi⟩
    refine ⟨x, i, ?_, hd, rfl⟩
    cases X with
    | none => cases hx; exact .inl ⟨rfl, rfl⟩
    | some v =>
      obtain ⟨u, hu, hx⟩ := bind_ok (show Except.bind _ _ = _ from hx)
      cases hx
      exact .inr ⟨v, u, rfl, hu, rfl⟩
  · rintro ⟨x, i, hx, hd, rfl⟩
    obtain ⟨ha, hi⟩ := inferI_iff.2 ⟨hd, rfl⟩
    have hx : convertOpt (fun x => x.item 0) X = .ok x := by
      rcases hx with ⟨rfl, rfl⟩ | ⟨v, u, rfl, hu, rfl⟩
      · rfl
      · simp only [convertOpt, hu, bind, Except.bind, pure, Except.pure]
    simp only [moreC, wrapper, moreInit, cauchyInit, hx, ha, hi, bind, Except.bind, pure, Except.pure]

/-! ### The layers of `Verif.Model.Initialize` -/

theorem alloc_iff {E : NetEnv} {s s' : NetState} {id : ℕ} {sh : ℕ → ℕ → (ℕ × ℕ) × ℕ × ℕ} :
    s.alloc E id sh = .ok s' ↔ ∃ nO nI, dimValue (s.nO id) = .ok nO ∧ dimValue (s.nI id) = .ok nI ∧
      s' = s.setParams E id (sh nO nI).1 (sh nO nI).2 := by
  constructor
  · intro h
    obtain ⟨o, ho, h⟩ := bind_ok (show Except.bind _ _ = _ from h)
    obtain ⟨i, hi, h⟩ := bind_ok h
    cases h
    exact ⟨o, i, ho, hi, rfl⟩
  · rintro ⟨o, i, ho, hi, rfl⟩
    simp only [NetState.alloc, ho, hi, bind, Except.bind, pure, Except.pure]

theorem inferBoth_iff {E : NetEnv} {s s' : NetState} {id : ℕ} {X Y : Option Val} {sh : ℕ → ℕ → (ℕ × ℕ) × ℕ × ℕ} :
    ((s.inferI id X).bind fun a => (a.inferO id Y).bind fun b => b.alloc E id sh) = .ok s' ↔
      ∃ nO nI, DimFrom (s.nO id) Y nO ∧ DimFrom (s.nI id) X nI ∧
        s' = (hasO (hasI s id nI) id nO).setParams E id (sh nO nI).1 (sh nO nI).2 := by
  have keepO : ∀ {a b : NetState}, a.inferI id X = .ok b → b.nO = a.nO := by
    intro a b h
    unfold NetState.inferI at h
    split at h
    · cases h; rfl
    · obtain ⟨w, -, h⟩ := bind_ok (show Except.bind _ _ = _ from h)
      obtain ⟨-, rfl⟩ := setI_iff.1 h
      rfl
  have keepI : ∀ {a b : NetState}, a.inferO id Y = .ok b → b.nI = a.nI := by
    intro a b h
    unfold NetState.inferO at h
    split at h
    · cases h; rfl
    · obtain ⟨w, -, h⟩ := bind_ok (show Except.bind _ _ = _ from h)
      obtain ⟨-, rfl⟩ := setO_iff.1 h
      rfl
  constructor
  · intro h
    obtain ⟨a, ha, h⟩ := bind_ok h
    obtain ⟨b, hb, h⟩ := bind_ok h
    obtain ⟨o, i, ho, hi, rfl⟩ := alloc_iff.1 h
    rw [keepI hb] at hi
    obtain ⟨h1, rfl⟩ := inferI_iff.1 ⟨ha, hi⟩
    obtain ⟨h2, rfl⟩ := inferO_iff.1 ⟨hb, ho⟩
    exact ⟨o, i, h2, h1, rfl⟩
  · rintro ⟨o, i, h2, h1, rfl⟩
    obtain ⟨ha, hi⟩ := inferI_iff.2 ⟨h1, rfl⟩
    obtain ⟨hb, ho⟩ := (inferO_iff (s := hasI s id i)).2 ⟨h2, rfl⟩
    simp only [ha, hb, Except.bind]
    exact alloc_iff.2 ⟨o, i, ho, hi, rfl⟩

/-- Linear, Maxout and the other dense layers: nI comes from X and nO from Y. -/
theorem C111_dense_init {E : NetEnv} {id : ℕ} (h1 : ∀ T, E.kind id ≠ .softmax T) (h2 : E.kind id ≠ .layerNorm) {X Y : Option Val} {s s' : NetState} :
    leafInit E id X Y s = .ok s' ↔ ∃ nO nI, DimFrom (s.nO id) Y nO ∧ DimFrom (s.nI id) X nI ∧
      s' = (hasO (hasI s id nI) id nO).setParams E id (leafShapes (E.kind id) nO nI).1 (leafShapes (E.kind id) nO nI).2 := by
  unfold leafInit
  cases e : E.kind id with
  | linear => exact inferBoth_iff
  | dense bFirst act back => exact inferBoth_iff
  | maxout nP junk junkW => exact inferBoth_iff
  | softmax T => exact absurd e (h1 T)
  | layerNorm => exact absurd e h2

/-- Softmax: the same, but a dimension that is set is not compared with the example. -/
theorem C111_softmax_init {E : NetEnv} {id : ℕ} {T : ℝ} (hk : E.kind id = .softmax T) {X Y : Option Val} {s s' : NetState} :
    leafInit E id X Y s = .ok s' ↔
      ∃ nO nI, (s.nO id = some (some nO) ∨ s.nO id = some none ∧ ∃ y, Y = some y ∧ getWidth y = .ok nO) ∧
        (s.nI id = some (some nI) ∨ s.nI id = some none ∧ ∃ x, X = some x ∧ getWidth x = .ok nI) ∧
        s' = (hasO (hasI s id nI) id nO).setParams E id (nO, nI) (1, nO) := by
  have hX : ∀ {a : NetState} {i : ℕ}, (s.inferUnsetI id X = .ok a ∧ dimValue (a.nI id) = .ok i) ↔
      (s.nI id = some (some i) ∨ s.nI id = some none ∧ ∃ x, X = some x ∧ getWidth x = .ok i) ∧ a = hasI s id i := by
    intro a i
    unfold NetState.inferUnsetI
    split
    · rename_i e
      rw [inferI_iff, DimFrom, e]
      simp
    · rename_i e
      constructor
      · rintro ⟨h, hi⟩
        cases h
        have := dimValue_iff.1 hi
        exact ⟨.inl this, (hasI_self this).symm⟩
      · rintro ⟨h | ⟨h, -⟩, rfl⟩
        · exact ⟨by rw [hasI_self h], by simp [hasI, dimValue]⟩
        · exact absurd h e
  have hY : ∀ {b a : NetState} {o : ℕ}, (b.inferUnsetO id Y = .ok a ∧ dimValue (a.nO id) = .ok o) ↔
      (b.nO id = some (some o) ∨ b.nO id = some none ∧ ∃ y, Y = some y ∧ getWidth y = .ok o) ∧ a = hasO b id o := by
    intro b a o
    unfold NetState.inferUnsetO
    split
    · rename_i e
      rw [inferO_iff, DimFrom, e]
      simp
    · rename_i e
      constructor
      · rintro ⟨h, hi⟩
        cases h
        have := dimValue_iff.1 hi
        exact ⟨.inl this, (hasO_self this).symm⟩
      · rintro ⟨h | ⟨h, -⟩, rfl⟩
        · exact ⟨by rw [hasO_self h], by simp [hasO, dimValue]⟩
        · exact absurd h e
  have keepI : ∀ {a b : NetState}, a.inferUnsetO id Y = .ok b → b.nI = a.nI := by
    intro a b h
    unfold NetState.inferUnsetO NetState.inferO at h
    split at h
    · split at h
      · cases h; rfl
      · obtain ⟨w, -, h⟩ := bind_ok (show Except.bind _ _ = _ from h)
        obtain ⟨-, rfl⟩ := setO_iff.1 h
        rfl
    · cases h; rfl
  unfold leafInit
  rw [hk]
  constructor
  · intro h
    obtain ⟨a, ha, h⟩ := bind_ok (show Except.bind _ _ = _ from h)
    obtain ⟨b, hb, h⟩ := bind_ok h
    obtain ⟨o, i, ho, hi, rfl⟩ := alloc_iff.1 h
    rw [keepI hb] at hi
    obtain ⟨h1, rfl⟩ := hX.1 ⟨ha, hi⟩
    obtain ⟨h2, rfl⟩ := hY.1 ⟨hb, ho⟩
    exact ⟨o, i, h2, h1, rfl⟩
  · rintro ⟨o, i, h2, h1, rfl⟩
    obtain ⟨ha, hi⟩ := hX.2 ⟨h1, rfl⟩
    obtain ⟨hb, ho⟩ := (hY (b := hasI s id i)).2 ⟨h2, rfl⟩
    simp only [softmaxInit, ha, hb, bind, Except.bind]
    exact alloc_iff.2 ⟨o, i, ho, hi, rfl⟩

/-- LayerNorm: one example settles both dimensions, X if it is given and otherwise Y; without one nO is nI unless it is
set. -/
theorem C111_layernorm_init {E : NetEnv} {id : ℕ} (hk : E.kind id = .layerNorm) {X Y : Option Val} {s s' : NetState} :
    leafInit E id X Y s = .ok s' ↔
      ∃ nO nI, DimFrom (s.nI id) (X <|> Y) nI ∧
        (s.nO id = some (some nO) ∧ ((X <|> Y) ≠ none → nO = nI) ∨ (s.nO id = some none ∧ nO = nI)) ∧
        s' = (hasO (hasI s id nI) id nO).setParams E id (1, nI) (1, nI) := by
  have one : ∀ x : Val, (do
      let w ← getWidth x
      let s ← s.setI id w
      s.setO id w) = layerNormInfer id (some x) none s := fun x => rfl
  have hboth : layerNormInfer id X Y s = layerNormInfer id (X <|> Y) none s := by
    cases X with
    | some x => cases Y <;> rfl
    | none => cases Y <;> rfl
  have hinfer : ∀ {Z : Option Val} {s' : NetState},
      ((layerNormInfer id Z none s).bind fun a => (dimValue (a.nI id)).bind fun i => (a.defaultO id i).bind fun b =>
        b.alloc E id fun _ nI => ((1, nI), (1, nI))) = .ok s' ↔ ∃ nO nI, DimFrom (s.nI id) Z nI ∧
        (s.nO id = some (some nO) ∧ (Z ≠ none → nO = nI) ∨ (s.nO id = some none ∧ nO = nI)) ∧
        s' = (hasO (hasI s id nI) id nO).setParams E id (1, nI) (1, nI) := by
    intro Z s'
    cases Z with
    | none =>
      constructor
      · intro h
        obtain ⟨a, ha, h⟩ := bind_ok h
        cases ha
        obtain ⟨i, hi, h⟩ := bind_ok h
        have hi : s.nI id = some (some i) := dimValue_iff.1 hi
        obtain ⟨b, hb, h⟩ := bind_ok h
        obtain ⟨o, i', ho, hi', rfl⟩ := alloc_iff.1 h
        unfold NetState.defaultO at hb
        split at hb
        · obtain ⟨hd, rfl⟩ := setO_iff.1 hb
          have e1 : i = i' := by
            have : s.nI id = some (some i') := dimValue_iff.1 hi'
            rw [hi] at this; simpa using this
          have e2 : i = o := by
            have := dimValue_iff.1 ho
            simpa [hasO] using this
          subst e1; subst e2
          refine ⟨i, i, .inl ⟨hi, by simp⟩, ?_, by rw [hasI_self hi]⟩
          rcases hd with hd | hd
          · exact .inr ⟨hd, rfl⟩
          · exact .inl ⟨hd, by simp⟩
        · cases hb
          have e1 : i = i' := by
            have : s.nI id = some (some i') := dimValue_iff.1 hi'
            rw [hi] at this; simpa using this
          subst e1
          have ho := dimValue_iff.1 ho
          exact ⟨o, i, .inl ⟨hi, by simp⟩, .inl ⟨ho, by simp⟩, by rw [hasI_self hi, hasO_self ho]⟩
      · rintro ⟨o, i, hi, ho, rfl⟩
        have hi : s.nI id = some (some i) := by
          rcases hi with ⟨h, -⟩ | ⟨-, x, h, -⟩
          · exact h
          · cases h
        rw [hasI_self hi]
        have h1 : dimValue (s.nI id) = .ok i := dimValue_iff.2 hi
        have h2 : s.defaultO id i = .ok (hasO s id o) := by
          unfold NetState.defaultO
          rcases ho with ⟨ho, -⟩ | ⟨ho, rfl⟩
          · rw [if_neg (by rw [ho]; simp), hasO_self ho]
          · rw [if_pos (.inl ho)]
            exact setO_iff.2 ⟨.inl ho, rfl⟩
        show (dimValue (s.nI id)).bind _ = _
        simp only [h1, h2, Except.bind]
        exact alloc_iff.2 ⟨o, i, by simp [hasO, dimValue], h1, rfl⟩
    | some x =>
      constructor
      · intro h
        obtain ⟨a, ha, h⟩ := bind_ok h
        obtain ⟨w, hw, ha⟩ := bind_ok (show Except.bind _ _ = _ from ha)
        obtain ⟨c, hc, ha⟩ := bind_ok ha
        obtain ⟨hd1, rfl⟩ := setI_iff.1 hc
        obtain ⟨hd2, rfl⟩ := setO_iff.1 ha
        obtain ⟨i, hi, h⟩ := bind_ok h
        have e : w = i := by simpa [hasO, hasI, dimValue] using hi
        subst e
        obtain ⟨b, hb, h⟩ := bind_ok h
        have hb : b = hasO (hasI s id w) id w := by
          unfold NetState.defaultO at hb
          rw [if_neg (by simp [hasO])] at hb
          cases hb; rfl
        subst hb
        obtain ⟨o, i, ho, hi, rfl⟩ := alloc_iff.1 h
        have e1 : w = o := by simpa [hasO, dimValue] using ho
        have e2 : w = i := by simpa [hasO, hasI, dimValue] using hi
        subst e1; subst e2
        refine ⟨w, w, ?_, ?_, rfl⟩
        · rcases hd1 with h | h
          · exact .inr ⟨h, x, rfl, hw⟩
          · exact .inl ⟨h, fun y hy => by cases hy; exact hw⟩
        · rcases hd2 with h | h
          · exact .inr ⟨h, rfl⟩
          · exact .inl ⟨h, fun _ => rfl⟩
      · rintro ⟨o, i, hi, ho, rfl⟩
        have hw : getWidth x = .ok i := by
          rcases hi with ⟨-, h⟩ | ⟨-, y, hy, h⟩
          · exact h x rfl
          · cases hy; exact h
        have e : o = i := by
          rcases ho with ⟨-, h⟩ | ⟨-, h⟩
          · exact h (by simp)
          · exact h
        subst e
        have h1 : s.setI id o = .ok (hasI s id o) := setI_iff.2 ⟨by
          rcases hi with ⟨h, -⟩ | ⟨h, -⟩
          · exact .inr h
          · exact .inl h, rfl⟩
        have h2 : (hasI s id o).setO id o = .ok (hasO (hasI s id o) id o) := setO_iff.2 ⟨by
          rcases ho with ⟨h, -⟩ | ⟨h, -⟩
          · exact .inr h
          · exact .inl h, rfl⟩
        have h3 : dimValue ((hasO (hasI s id o) id o).nI id) = .ok o := by simp [hasO, hasI, dimValue]
        have h4 : (hasO (hasI s id o) id o).defaultO id o = .ok (hasO (hasI s id o) id o) := by
          unfold NetState.defaultO
          rw [if_neg (by simp [hasO])]
        have h0 : layerNormInfer id (some x) none s = .ok (hasO (hasI s id o) id o) := by
          simp only [layerNormInfer, hw, h1, h2, bind, Except.bind]
        simp only [h0, h3, h4, Except.bind]
        exact alloc_iff.2 ⟨o, o, by simp [hasO, dimValue], h3, rfl⟩
  unfold leafInit
  rw [hk]
  show ((layerNormInfer id X Y s).bind fun a => (dimValue (a.nI id)).bind fun i => (a.defaultO id i).bind fun b =>
        b.alloc E id fun _ nI => ((1, nI), (1, nI))) = .ok s' ↔ _
  rw [hboth]
  exact hinfer

/-! ### ParametricAttention -/

/-- ParametricAttention (version 2) does not infer the width of the layer for the keys: with `key_transform=Linear()`
`initialize(X)` always fails, and so does `initialize()`. -/
theorem C111_key_transform_unset {id k : ℕ} (hk : W.text.kind k = .net .linear) (hne : id ≠ k) {X : Option Val} {s : NetState}
    (hs : s.nO k = some none) : ∃ e, (attentionV2C W id (leafC W.text k)).init X none s = .error e := by
  cases h : (attentionV2C W id (leafC W.text k)).init X none s with
  | error e => exact ⟨e, rfl⟩
  | ok s' =>
    exfalso
    obtain ⟨a, ha, h⟩ := bind_ok (show Except.bind (attentionV2Infer id (leafC W.text k) X s) _ = _ from h)
    obtain ⟨o, ho, h⟩ := bind_ok h
    obtain ⟨X', -, h⟩ := bind_ok h
    obtain ⟨Y', hY, h⟩ := bind_ok h
    cases hY
    have h1 : a.nO k = some none := by
      unfold attentionV2Infer at ha
      split at ha
      · cases ha; exact hs
      obtain ⟨w, -, ha⟩ := bind_ok (show Except.bind _ _ = _ from ha)
      unfold attentionV2Dims at ha
      split at ha
      · cases ha; exact hs
      obtain ⟨b, hb, ha⟩ := bind_ok (show Except.bind _ _ = _ from ha)
      have hb1 : b.nO k = some none := by
        obtain ⟨-, rfl⟩ := setO_iff.1 hb
        simp [hasO, Ne.symm hne, hs]
      split at ha
      · rename_i e
        exact absurd (hb1.symm.trans e) (by simp)
      · cases ha; exact hb1
    have h : textInit W.text k X' none (a.setParam W.text id (1, o)) = .ok s' := h
    unfold textInit at h
    rw [hk] at h
    have h : leafInit W.text.net k X' none (a.setParam W.text id (1, o)) = .ok s' := h
    have hk' : W.text.net.kind k = .linear := by simp only [TextEnv.net, hk]
    unfold leafInit at h
    rw [hk'] at h
    obtain ⟨b, hb, h⟩ := bind_ok (show Except.bind _ _ = _ from h)
    obtain ⟨d, hd, h⟩ := bind_ok h
    cases hd
    have hb1 : b.nO k = some none := by
      unfold NetState.inferI at hb
      split at hb
      · cases hb; exact h1
      · obtain ⟨w, -, hb⟩ := bind_ok (show Except.bind _ _ = _ from hb)
        obtain ⟨-, rfl⟩ := setI_iff.1 hb
        exact h1
    obtain ⟨v, hv, -⟩ := bind_ok (show Except.bind _ _ = _ from h)
    rw [hb1] at hv
    cases hv

/-! ### Examples -/

/-- Layer 0 is Linear, layer 1 CauchySimilarity, layer 2 an Embed with five rows. -/
noncomputable def exWideEnv : WideEnv where
  text := ⟨fun _ => .net .linear, fun _ _ _ => 1 / 2⟩
  more id := if id = 1 then some .cauchy else if id = 2 then some (.embed 5 none (fun _ _ => 0) false) else none

/-- Linear(4, 3), CauchySimilarity(4), Embed(), and a siamese of the first two. -/
noncomputable def exWideState : NetState where
  nO id := if id = 0 then some (some 4) else if id = 1 then some (some 1) else if id = 9 then some (some 1) else some none
  nI id := if id = 0 then some (some 3) else if id = 1 then some (some 4) else if id = 9 then some (some 3) else some none
  params _ := Mat.ofFn 0 0 fun _ _ => 0
  ready _ := false
  draws := 0

theorem exWide_sane : WideSane exWideEnv exWideState := fun _ h => by cases h

/-- The siamese model. -/
noncomputable def exSiamese : Comp := siameseC 9 (leafC exWideEnv.text 0) (moreC exWideEnv 1 .cauchy)

/-- `siamese(Linear(4, 3), CauchySimilarity(4)).initialize()` succeeds, but the Linear layer has no parameters: `predict`
raises KeyError for every pair of inputs. -/
theorem C111_siamese_violated : ∃ s', exSiamese.init none none exWideState = .ok s' ∧ s'.ready 0 = false ∧ s'.ready 1 = true ∧
    ∀ X1 X2, exSiamese.predict s' (.tup [X1, X2]) = .error .keyError := by
  refine okElim ?_
  exact ⟨rfl, rfl, fun _ _ => rfl⟩

noncomputable def exPair : Val := .tup [.arr (Mat.ofFn 2 3 fun _ _ => 1), .arr (Mat.ofFn 2 3 fun _ _ => 2)]

/-- The hypotheses of `C111_siamese_given` are met. -/
example : ∃ s', exSiamese.init (some exPair) none exWideState = .ok s' ∧
    (∀ j ∈ [0] ++ [1], s'.ready j = true ∧ WideReady exWideEnv s' j) ∧ ∃ Y, exSiamese.predict s' exPair = .ok Y := by
  have h : ∃ s', exSiamese.init (some exPair) none exWideState = .ok s' ∧ ∃ Y, exSiamese.predict s' exPair = .ok Y := by
    refine okElim ?_
    exact ⟨_, rfl⟩
  obtain ⟨s', h, hY⟩ := h
  exact ⟨s', h, C111_siamese_given (.leaf 0 rfl) (.more 1 .cauchy rfl) exWide_sane h, hY⟩

/-- The hypotheses of `C111_siamese_skips_encoder` are met. -/
example : ∃ s', exSiamese.init none none exWideState = .ok s' ∧ SameNode exWideState s' 0 := by
  obtain ⟨s', h, -⟩ := C111_siamese_violated
  exact ⟨s', h, C111_siamese_skips_encoder (.more 1 .cauchy rfl) h (by omega) (by simp)⟩

/-- A model of a tuple of two branches: `chain(tuplify(Linear(4, 3), uniqued(noop)), with_getitem(0, Linear(nI=4)))`. -/
noncomputable def exWideModel : Comp :=
  chainC 7 ([(tuplifyC 8 [leafC exWideEnv.text 0, plainC noop], [0], [8, 0]),
    (withGetitemC 0 (leafC exWideEnv.text 3), [3], [3])].map Prod.fst)

theorem exWideModel_wide : WideModel exWideEnv false exWideModel [0, 3] [7, 8, 0, 3] := by
  refine WideModel.chain 7 [(tuplifyC 8 [leafC exWideEnv.text 0, plainC noop], [0], [8, 0]),
    (withGetitemC 0 (leafC exWideEnv.text 3), [3], [3])] fun m hm => ?_
  simp only [List.mem_cons, List.not_mem_nil, or_false] at hm
  rcases hm with rfl | rfl
  · refine WideModel.tuplify 8 [(leafC exWideEnv.text 0, [0], [0]), (plainC noop, [], [])] fun m hm => ?_
    simp only [List.mem_cons, List.not_mem_nil, or_false] at hm
    rcases hm with rfl | rfl
    · exact .leaf 0 rfl
    · exact .plain noop
  · exact .withGetitem 0 _ _ _ (.leaf 3 rfl)

/-- The hypotheses of `C111_all_ready_partial` and `C111_keeps` are met. -/
example : ∃ s', exWideModel.init (some (.arr (Mat.ofFn 2 3 fun _ _ => 1))) none { exWideState with nO := fun id => if id = 0 then some (some 4) else if id = 3 then some (some 2) else some none } = .ok s' ∧
    (∀ id ∈ [0, 3], s'.ready id = true ∧ WideReady exWideEnv s' id) ∧ s'.ready 1 = false := by
  have h : ∃ s', exWideModel.init (some (.arr (Mat.ofFn 2 3 fun _ _ => 1))) none { exWideState with nO := fun id => if id = 0 then some (some 4) else if id = 3 then some (some 2) else some none } = .ok s' ∧ True := by
    refine okElim ?_
    exact trivial
  obtain ⟨s', h, -⟩ := h
  refine ⟨s', h, C111_all_ready_partial exWideModel_wide (fun _ h => by cases h) h, ?_⟩
  exact ((C111_keeps exWideModel_wide h).2.2.1 1 (by simp)).2.2.1.trans rfl

/-- Embed with a Y of width 2. -/
example : ∃ s', (moreC exWideEnv 2 (.embed 5 none (fun _ _ => 0) false)).init none (some (.arr (Mat.ofFn 2 2 fun _ _ => 1))) exWideState = .ok s' :=
  ⟨_, C111_embed_init.2 ⟨2, .inr ⟨rfl, _, rfl, rfl⟩, rfl⟩⟩

/-- `Softmax().initialize(X, Y)` and `LayerNorm().initialize(X)` -/
noncomputable def exLeafEnv : NetEnv := ⟨fun id => if id = 3 then .softmax 1 else .layerNorm, fun _ _ _ => 1 / 2⟩

example : ∃ s', leafInit exLeafEnv 3 (some (.arr (Mat.ofFn 2 3 fun _ _ => 1))) (some (.arr (Mat.ofFn 2 5 fun _ _ => 1))) exWideState = .ok s' :=
  ⟨_, (C111_softmax_init (T := 1) rfl).2 ⟨5, 3, .inr ⟨rfl, _, rfl, rfl⟩, .inr ⟨rfl, _, rfl, rfl⟩, rfl⟩⟩

example : ∃ s', leafInit exLeafEnv 4 (some (.arr (Mat.ofFn 2 3 fun _ _ => 1))) none exWideState = .ok s' :=
  ⟨_, (C111_layernorm_init rfl).2 ⟨3, 3, .inr ⟨rfl, _, rfl, rfl⟩, .inr ⟨rfl, rfl⟩, rfl⟩⟩

example : ∃ s', leafInit exWideEnv.text.net 0 (some (.arr (Mat.ofFn 2 3 fun _ _ => 1))) none exWideState = .ok s' :=
  ⟨_, (C111_dense_init (by simp [exWideEnv, TextEnv.net]) (by simp [exWideEnv, TextEnv.net])).2
    ⟨4, 3, .inl ⟨rfl, by simp⟩, .inl ⟨rfl, fun x hx => by cases hx; rfl⟩, rfl⟩⟩

/-- The hypotheses of `C111_key_transform_unset` are met. -/
example : ∃ e, (attentionV2C exWideEnv 4 (leafC exWideEnv.text 3)).init (some (.ragged (Mat.ofFn 2 3 fun _ _ => 1) [1, 1])) none exWideState = .error e :=
  C111_key_transform_unset rfl (by omega) rfl

end Thinc
