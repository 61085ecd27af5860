import Verif.Lemmas.Factories
import Verif.Props.Chain
import Verif.Props.Dense
/-!
# C108: the options `normalize` and `dropout` of the dense layers
-/
namespace Thinc
open Spec Factories

theorem isCore_pos {k : LeafKind} (h : IsCore k 1) {o : ℕ} (ho : 0 < o) : IsCore k o := by
  cases k <;> first | exact h | exact ⟨h.1, ho⟩

/-- **C108.**  Initialization of a dense layer with any of the options.  The layer is made with the dimensions `nO` and `nI` (or
without them), and initialized with an example `X` of the input and perhaps an example `Y` of the output, of width `n`.  This
succeeds exactly if nI is not given or the width of X, and nO or Y is given; without options nO and the width of Y must also
agree if both are given.  Then the dimensions are those of the examples, nO has precedence over Y, the LayerNorm has the output
width, and the layer accepts every batch of the width of X. -/
theorem C108_initialize {E : NetEnv} {s : NetState} {ids : BlockIds} (nO nI : Option ℕ) (normalize : Bool) (rate : Option ℝ)
    (draws : ℕ → ℕ → ℕ → ℝ) (hs : Sane E s) (hd : BlockIds.Distinct ids) (hn : E.kind ids.norm = .layerNorm)
    (hk : IsCore (E.kind ids.core) 1) (X : Mat ℝ) {Y : Option Val} {n : Option ℕ} (hY : WidthOf Y n) (hO : nO ≠ some 0) (hn0 : n ≠ some 0)
    (t : NetNode) (s0 : NetState) (hm : makeLayer ids nO nI normalize (rate.map fun r => dropout r true draws) s = (t, s0)) :
    ((∃ s', t.initialize E (some (.arr X)) Y s0 = .ok s') ↔
      (nI = none ∨ nI = some X.cols) ∧ ∃ o, OutputWidth nO n o ∧ (normalize = false → rate = none → n = none ∨ n = some o)) ∧
    ∀ s', t.initialize E (some (.arr X)) Y s0 = .ok s' → ∀ o, OutputWidth nO n o →
      s'.nI ids.core = some (some X.cols) ∧ s'.nO ids.core = some (some o) ∧ LeafReady E s' ids.core ∧
      (normalize = true → s'.nI ids.norm = some (some o) ∧ s'.nO ids.norm = some (some o) ∧ LeafReady E s' ids.norm) ∧
      t.dimI s' = some (some X.cols) ∧ t.dimO s' = some (some o) ∧ Accepts E s' t X.cols o := by
  obtain ⟨h1, h2, h3, h4⟩ := makeLayer_eq nO nI normalize (rate.map fun r => dropout r true draws) hs hd
  rw [hm] at h1 h2 h3 h4
  simp only at h1 h2 h3 h4
  subst h1
  have hb : Behaves E (blockNode ids normalize (rate.map fun r => dropout r true draws)) nO nI (!normalize && rate.isNone)
      (fun o => 0 < o) (BlockDims ids normalize) s0 := by
    have := behaves_block (ok := fun o => 0 < o) (drop := rate.map fun r => dropout r true draws) h2 hd hn hk
      (fun o ho => isCore_pos hk ho) h3 (by
        intro d hd
        cases rate with
        | none => cases hd
        | some r => cases hd; exact keepsShape_dropout r draws) h4
    simpa using this
  have hpos : ∀ o, OutputWidth nO n o → 0 < o := by
    intro o ho
    rcases Nat.eq_zero_or_pos o with rfl | h
    · rcases ho with ho | ⟨-, ho⟩
      · exact absurd ho hO
      · exact absurd ho hn0
    · exact h
  have hstrict : ∀ o, ((!normalize && rate.isNone) = true → n = none ∨ n = some o) ↔
      (normalize = false → rate = none → n = none ∨ n = some o) := by
    intro o
    cases normalize <;> cases rate <;> simp
  refine ⟨⟨?_, ?_⟩, ?_⟩
  · rintro ⟨s', e⟩
    obtain ⟨g1, o, g2, g3⟩ := hb.only X Y n s' hY e
    exact ⟨g1, o, g2, (hstrict o).1 g3⟩
  · rintro ⟨g1, o, g2, g3⟩
    obtain ⟨s', e, -⟩ := hb.works X Y n o hY g1 g2 ((hstrict o).2 g3) (hpos o g2)
    exact ⟨s', e⟩
  · intro s' e o ho
    obtain ⟨g1, o', g2, g3⟩ := hb.only X Y n s' hY e
    have : o' = o := by
      rcases g2 with g2 | ⟨g2, g2'⟩ <;> rcases ho with ho | ⟨ho, ho'⟩
      · rw [g2] at ho; simpa using ho
      · rw [g2] at ho; simp at ho
      · rw [g2] at ho; simp at ho
      · rw [g2'] at ho'; simpa using ho'
    subst this
    obtain ⟨s'', e', d1, d2, d3, d4, d5⟩ := hb.works X Y n o' hY g1 g2 g3 (hpos o' g2)
    rw [e] at e'
    cases e'
    obtain ⟨r1, r2⟩ := C79_ready h2 e
    have hs' := (initialize_grows _ e).1.sane h2
    have hcore : ids.core ∈ NetNode.leaves (blockNode ids normalize (rate.map fun r => dropout r true draws)) := by
      cases normalize <;> cases rate <;> simp [blockNode, normNode, NetNode.leaves, leavesOf]
    refine ⟨d4.1, d4.2, r1 _ hcore, fun hn1 => ⟨(d5 hn1).1, (d5 hn1).2, r1 _ ?_⟩, d1, d2, (accepts_iff hs' hb.plain _ _).2 d3⟩
    subst hn1
    cases rate <;> simp [blockNode, normNode, NetNode.leaves, leavesOf]

/-- A leaf that is initialized. -/
theorem leafForward_eq {E : NetEnv} {s : NetState} {id o i : ℕ} (hr : s.ready id = true) (hO : s.nO id = some (some o))
    (hI : s.nI id = some (some i)) : leafForward E s id = (E.kind id).layer (2 * id) (2 * id + 1) o i := by
  funext train P X
  simp only [leafForward, hr, hO, hI, dimValue, bind, Except.bind, Bool.true_eq_false, if_false]

/-- Dropout that does nothing. -/
theorem exact_dropout_off {N : ℕ} {sh : Fin N → ℕ × ℕ} {θ : Params sh} {train : Bool} {rate : ℝ} {draws : ℕ → ℕ → ℕ → ℝ} {m o : ℕ}
    {x : Fin m → Fin o → ℝ} (h : rate = 0 ∨ train = false) :
    Exact (dropout rate true draws) train (Kind.arr m o) (Kind.arr m o) (fun p => p.2) θ x := by
  refine Exact.intro (IsVJP_snd _) ?_
  intro P v hP hv
  obtain ⟨cb, e, hcb⟩ := C59_identity rate true train draws P v (h.imp id .inr)
  apply ok_intro
  · exact e
  · exact ⟨hv, fun dv dy G g hdv hG => ⟨dv, G, hcb dv G, hdv, by simpa using hG⟩⟩

/-- **C108.**  A dense layer with options computes the function of the layer itself, then the normalized, scaled and shifted
rows, then the dropout factors, and if the layer itself has exact gradients, so has the whole, for the input and for the
parameters of both layers. -/
theorem C108_exact {E : NetEnv} {s s' : NetState} {ids : BlockIds} {nO nI : Option ℕ} (normalize : Bool) (rate : Option ℝ)
    (draws : ℕ → ℕ → ℕ → ℝ) (hs : Sane E s) (hd : BlockIds.Distinct ids) (hn : E.kind ids.norm = .layerNorm) {i o m : ℕ} (ho : 0 < o)
    (t : NetNode) (s0 : NetState) (hm : makeLayer ids nO nI normalize (rate.map fun r => dropout r true draws) s = (t, s0))
    (hcr : s'.ready ids.core = true) (hcO : s'.nO ids.core = some (some o)) (hcI : s'.nI ids.core = some (some i))
    (hnr : normalize = true → s'.ready ids.norm = true ∧ s'.nO ids.norm = some (some o) ∧ s'.nI ids.norm = some (some o))
    {N : ℕ} {sh : Fin N → ℕ × ℕ} (G b : Fin N) (eG : (G : ℕ) = 2 * ids.norm) (eb : (b : ℕ) = 2 * ids.norm + 1) (hG : sh G = (1, o)) (hb : sh b = (1, o)) (train : Bool)
    (θ : Params sh) (x : Fin m → Fin i → ℝ) (f : Params sh × (Fin m → Fin i → ℝ) → Fin m → Fin o → ℝ)
    (hf : Exact ((E.kind ids.core).layer (2 * ids.core) (2 * ids.core + 1) o i) train (Kind.arr m i) (Kind.arr m o) f θ x) :
    Exact (t.layer E s') train (Kind.arr m i) (Kind.arr m o)
      (fun p => dropRows train rate draws (normRows normalize (p.1.vec G hG) (p.1.vec b hb) (f p))) θ x := by
  obtain ⟨h1, -⟩ := makeLayer_eq nO nI normalize (rate.map fun r => dropout r true draws) hs hd
  rw [hm] at h1
  simp only at h1
  subst h1
  have hnorm : Exact ((normNode ids normalize).layer E s') train (Kind.arr m i) (Kind.arr m o)
      (fun p => normRows normalize (p.1.vec G hG) (p.1.vec b hb) (f p)) θ x := by
    cases normalize with
    | false =>
      simp only [normNode, normRows, Bool.false_eq_true, if_false, NetNode.layer]
      rw [leafForward_eq hcr hcO hcI]
      exact hf
    | true =>
      obtain ⟨r1, r2, r3⟩ := hnr rfl
      simp only [normNode, normRows, if_true, NetNode.layer, NetNode.layersOf]
      rw [leafForward_eq hcr hcO hcI, leafForward_eq r1 r2 r3, hn]
      have h2 := C57_layer_norm ho G b hG hb train θ (f (θ, x))
      rw [eG, eb] at h2
      exact C51_chain (.cons hf (.one h2))
  cases rate with
  | none => simpa [blockNode, dropRows] using hnorm
  | some rate =>
    simp only [Option.map_some, blockNode, NetNode.layer, NetNode.layersOf]
    by_cases h : rate = 0 ∨ train = false
    · have hid : ∀ y : Fin m → Fin o → ℝ, dropRows train (some rate) draws y = y := by
        intro y
        rcases h with rfl | rfl
        · cases train
          · rfl
          · funext r c
            simp [dropRows, keepFactor]
        · rfl
      simp only [hid]
      exact C51_chain (.cons hnorm (.one (exact_dropout_off h)))
    · rw [not_or, Bool.not_eq_false] at h
      obtain ⟨h, rfl⟩ := h
      exact C51_chain (.cons hnorm (.one (C59_arrays rate h draws _)))

/-- **C108.**  Outside training the option `dropout` makes no difference: `predict` gives the same result, or raises the same
error, as for the layer made without it. -/
theorem C108_predict {E : NetEnv} {s s' : NetState} {ids : BlockIds} {nO nI : Option ℕ} (normalize : Bool) (rate : ℝ)
    (draws : ℕ → ℕ → ℕ → ℝ) (X : Val) :
    (makeLayer ids nO nI normalize (some (dropout rate true draws)) s).1.predict E s' X =
      (makeLayer ids nO nI normalize none s).1.predict E s' X := by
  have h : ∀ L : Layer, (chain [L, dropout rate true draws] false s'.params X).map (·.1) = (L false s'.params X).map (·.1) := by
    intro L
    simp only [chain, List.isEmpty_cons, Bool.false_eq_true, if_false, chainLoop, bind, Except.bind]
    cases hL : L false s'.params X with
    | error e => rfl
    | ok r =>
      obtain ⟨cb, e, -⟩ := C59_identity rate true false draws s'.params r.1 (.inr (.inr rfl))
      simp only [e]
      rfl
  have hp : ∀ r : Except PyErr (Val × Callback), (do let x ← r; return x.1) = r.map (·.1) := by
    intro r
    cases r <;> rfl
  have key : (NetNode.chain ids.outer [(makeLayer ids nO nI normalize none s).1, .plain (dropout rate true draws)]).predict E s' X =
      (makeLayer ids nO nI normalize none s).1.predict E s' X := by
    unfold NetNode.predict
    simp only [NetNode.layer, NetNode.layersOf]
    rw [hp, hp]
    exact h _
  exact key

/-! ### Relu(nO=4, normalize=True, dropout=0.2) -/

/-- Node 0 is a Relu layer, node 1 its LayerNorm. -/
noncomputable def exBlockEnv : NetEnv :=
  ⟨fun id => if id = 1 then .layerNorm else .dense true cpuRelu (fun _ _ Y dY => Mat.lift₂ cpuBackpropRelu dY Y), fun _ _ _ => 1⟩

def exBlockIds : BlockIds := ⟨0, 1, 2, 3⟩

theorem exBlock_distinct : BlockIds.Distinct exBlockIds := by unfold BlockIds.Distinct; decide

theorem exBlock_sane : Sane exBlockEnv (exNetState fun _ => none) := fun _ h => by cases h

/-- Relu(nO=4, normalize=True, dropout=0.2).initialize(X) with X of width 3 -/
example : ∃ t s0 s', makeLayer exBlockIds (some 4) none true (some (dropout 0.2 true fun _ _ _ => 0.5)) (exNetState fun _ => none) = (t, s0) ∧
    t.initialize exBlockEnv (some (.arr exNetX)) none s0 = .ok s' ∧ s'.nI 0 = some (some 3) ∧ s'.nO 0 = some (some 4) ∧
    s'.nI 1 = some (some 4) ∧ t.dimO s' = some (some 4) ∧ Accepts exBlockEnv s' t 3 4 := by
  obtain ⟨h1, h2⟩ := C108_initialize (E := exBlockEnv) (ids := exBlockIds) (some 4) none true (some 0.2) (fun _ _ _ => 0.5) exBlock_sane
    exBlock_distinct rfl trivial exNetX (Y := none) (n := none) rfl (by simp) (by simp) _ _ rfl
  obtain ⟨s', e⟩ := h1.2 ⟨.inl rfl, 4, .inl rfl, by simp⟩
  obtain ⟨g1, g2, -, g3, -, g4, g5⟩ := h2 s' e 4 (.inl rfl)
  exact ⟨_, _, s', rfl, e, g1, g2, (g3 rfl).1, g4, g5⟩

/-- An example of the output of the wrong width: Relu(nO=4).initialize(X, Y) raises an error, with `dropout` it does not. -/
example (Y : Mat ℝ) (hY : Y.cols = 5) :
    (¬∃ s', (makeLayer exBlockIds (some 4) none false none (exNetState fun _ => none)).1.initialize exBlockEnv (some (.arr exNetX)) (some (.arr Y))
      (makeLayer exBlockIds (some 4) none false none (exNetState fun _ => none)).2 = .ok s') ∧
    ∃ s', (makeLayer exBlockIds (some 4) none false (some (dropout 0.2 true fun _ _ _ => 0.5)) (exNetState fun _ => none)).1.initialize exBlockEnv
      (some (.arr exNetX)) (some (.arr Y))
      (makeLayer exBlockIds (some 4) none false (some (dropout 0.2 true fun _ _ _ => 0.5)) (exNetState fun _ => none)).2 = .ok s' := by
  have hw : WidthOf (some (.arr Y)) (some 5) := ⟨5, by rw [getWidth, hY], rfl⟩
  constructor
  · intro hs
    obtain ⟨-, o, ho, h⟩ := (C108_initialize (E := exBlockEnv) (ids := exBlockIds) (some 4) none false none (fun _ _ _ => 0.5) exBlock_sane
      exBlock_distinct rfl trivial exNetX hw (by simp) (by simp) _ _ rfl).1.1 hs
    have := h rfl rfl
    rcases ho with ho | ⟨ho, -⟩
    · simp at ho
      subst ho
      simp at this
    · simp at ho
  · exact (C108_initialize (E := exBlockEnv) (ids := exBlockIds) (some 4) none false (some 0.2) (fun _ _ _ => 0.5) exBlock_sane
      exBlock_distinct rfl trivial exNetX hw (by simp) (by simp) _ _ rfl).1.2 ⟨.inl rfl, 4, .inl rfl, by simp⟩

/-- Relu with both options has exact gradients where no pre-activation is 0. -/
example {E : NetEnv} (hE : E.kind = exBlockEnv.kind) {s' : NetState} {i o m : ℕ} (ho : 0 < o) (rate : ℝ) (draws : ℕ → ℕ → ℕ → ℝ)
    (hcr : s'.ready 0 = true) (hcO : s'.nO 0 = some (some o)) (hcI : s'.nI 0 = some (some i)) (hnr : s'.ready 1 = true)
    (hnO : s'.nO 1 = some (some o)) (hnI : s'.nI 1 = some (some o)) {sh : Fin 4 → ℕ × ℕ} (h0 : sh 0 = (o, i)) (h1 : sh 1 = (1, o))
    (h2 : sh 2 = (1, o)) (h3 : sh 3 = (1, o)) (train : Bool) (θ : Params sh) (x : Fin m → Fin i → ℝ)
    (hx : ∀ r c, affine x (θ.get 0 h0) (θ.vec 1 h1) r c ≠ 0) :
    Exact ((makeLayer exBlockIds (some o) none true (some (dropout rate true draws)) (exNetState fun _ => none)).1.layer E s') train
      (Kind.arr m i) (Kind.arr m o) (fun p => dropRows train (some rate) draws (normRows true (p.1.vec 2 h2) (p.1.vec 3 h3)
        fun r c => max (affine p.2 (p.1.get 0 h0) (p.1.vec 1 h1) r c) 0)) θ x := by
  refine C108_exact (ids := exBlockIds) (nO := some o) (nI := none) true (some rate) draws (E := E) (s := exNetState fun _ => none)
    (fun _ h => by cases h) exBlock_distinct (by rw [hE]; rfl) ho _ _ rfl hcr hcO hcI (fun _ => ⟨hnr, hnO, hnI⟩) 2 3 rfl rfl h2 h3 train θ x _ ?_
  rw [hE]
  exact C72_relu 0 1 h0 h1 train θ x hx

end Thinc
