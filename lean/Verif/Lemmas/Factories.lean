import Verif.Spec.Factories
import Verif.Props.Initialize
/-!
# Initialization of a dense layer with options
-/
namespace Thinc
namespace Factories
open Spec

theorem dimI_congr {s s' : NetState} {l : NetNode} (h : ∀ i ∈ NetNode.ids l, s'.nI i = s.nI i) : l.dimI s' = l.dimI s := by
  cases l <;> simp only [NetNode.dimI] <;> first | rfl | exact h _ (by simp [NetNode.ids])

/-- The init functions of the dense layers and of Maxout, with the shapes as an argument. -/
def coreInit (E : NetEnv) (sh : ℕ → ℕ → (ℕ × ℕ) × ℕ × ℕ) (id : ℕ) (X Y : Option Val) (s : NetState) : Except PyErr NetState := do
  let s ← s.inferI id X
  let s ← s.inferO id Y
  s.alloc E id sh

theorem leafInit_core {E : NetEnv} {id o : ℕ} (hk : IsCore (E.kind id) o) :
    ∃ sh, ∀ X Y s, leafInit E id X Y s = coreInit E sh id X Y s := by
  unfold leafInit
  cases h : E.kind id <;> rw [h] at hk <;> first | exact hk.elim | exact ⟨_, fun _ _ _ => rfl⟩

theorem coreInit_ok {E : NetEnv} {sh : ℕ → ℕ → (ℕ × ℕ) × ℕ × ℕ} {s s' : NetState} {id : ℕ} {X : Mat ℝ} {Y : Option Val}
    (h : coreInit E sh id (some (.arr X)) Y s = .ok s') :
    s'.ready id = true ∧ s'.nI id = some (some X.cols) ∧ (s.nI id = some none ∨ s.nI id = some (some X.cols)) ∧
      ∃ o, s'.nO id = some (some o) ∧ TargetDim Y (s.nO id) o := by
  have cases3 : ∀ {d : Option (Option ℕ)} {v : ℕ}, (∀ w, d = some (some w) → w = v) → d ≠ none → d = some none ∨ d = some (some v) := by
    intro d v h1 h2
    cases d with
    | none => exact absurd rfl h2
    | some d => cases d with
      | none => exact .inl rfl
      | some w => exact .inr (by rw [h1 w rfl])
  unfold coreInit at h
  obtain ⟨a, ha, h1⟩ := bind_ok h
  obtain ⟨b, hb, h2⟩ := bind_ok h1
  simp only [NetState.inferI, getWidth, bind, Except.bind] at ha
  obtain ⟨rfl, hI, hI'⟩ := setI_ok ha
  unfold NetState.alloc at h2
  obtain ⟨o, ho, h3⟩ := bind_ok h2
  obtain ⟨i, hi, h4⟩ := bind_ok h3
  cases h4
  have ho := dimValue_ok ho
  have hi := dimValue_ok hi
  refine ⟨by simp [NetState.setParams], ?_, cases3 hI hI', o, ho, ?_⟩
  · unfold NetState.inferO at hb
    split at hb
    · cases hb
      simp [NetState.setParams]
    · obtain ⟨w, -, hb⟩ := bind_ok hb
      obtain ⟨rfl, -⟩ := setO_ok hb
      simp [NetState.setParams]
  · cases Y with
    | none =>
      simp only [NetState.inferO] at hb
      cases hb
      exact ho
    | some y =>
      simp only [NetState.inferO] at hb
      obtain ⟨w, hw, hb⟩ := bind_ok hb
      obtain ⟨rfl, hO, hO'⟩ := setO_ok hb
      simp only [if_true, Option.some.injEq] at ho
      subst ho
      exact ⟨hw, cases3 hO hO'⟩

theorem coreInit_of {E : NetEnv} {sh : ℕ → ℕ → (ℕ × ℕ) × ℕ × ℕ} {s : NetState} {id : ℕ} {X : Mat ℝ} {Y : Option Val} {o : ℕ}
    (hI : s.nI id = some none ∨ s.nI id = some (some X.cols)) (hO : TargetDim Y (s.nO id) o) :
    ∃ s', coreInit E sh id (some (.arr X)) Y s = .ok s' := by
  unfold coreInit
  simp only [NetState.inferI, getWidth, bind, Except.bind]
  rw [setI_of hI]
  cases Y with
  | none =>
    simp only [TargetDim] at hO
    simp only [NetState.inferO, NetState.alloc, hO, dimValue, bind, Except.bind, if_true]
    exact ⟨_, rfl⟩
  | some y =>
    simp only [TargetDim] at hO
    simp only [NetState.inferO, hO.1, bind, Except.bind]
    rw [setO_of (by exact hO.2)]
    simp only [NetState.alloc, dimValue, bind, Except.bind, if_true]
    exact ⟨_, rfl⟩

theorem width_core {E : NetEnv} {s : NetState} {id o w : ℕ} (hk : IsCore (E.kind id) o) (hr : s.ready id = true)
    (hI : s.nI id = some (some w)) (hO : s.nO id = some (some o)) : NetNode.width E s (.leaf id) w = some o := by
  rw [NetNode.width]
  simp only [leafDims, hr, hI, hO, leafWidth]
  cases h : E.kind id <;> rw [h] at hk <;> first | exact hk.elim | simp
  exact ⟨hk.2, Nat.pos_iff_ne_zero.1 hk.1⟩

/-- LayerNorm. -/
theorem normInit_of {E : NetEnv} {s : NetState} {id : ℕ} {X : Mat ℝ} {Y : Option Val} (hk : E.kind id = .layerNorm)
    (hI : s.nI id = some none ∨ s.nI id = some (some X.cols)) (hO : s.nO id = some none ∨ s.nO id = some (some X.cols)) :
    ∃ s', leafInit E id (some (.arr X)) Y s = .ok s' ∧ s'.ready id = true ∧ s'.nI id = some (some X.cols) ∧
      s'.nO id = some (some X.cols) := by
  unfold leafInit
  rw [hk]
  simp only [layerNormInit, layerNormInfer, getWidth, bind, Except.bind]
  rw [setI_of hI]
  simp only
  rw [setO_of (by exact hO)]
  simp only [NetState.defaultO, dimValue, NetState.alloc, bind, Except.bind, if_true, reduceCtorEq, Option.some.injEq, or_self, if_false, pure, Except.pure]
  exact ⟨_, rfl, by simp [NetState.setParams], by simp [NetState.setParams], by simp [NetState.setParams]⟩

theorem width_norm {E : NetEnv} {s : NetState} {id w : ℕ} (hk : E.kind id = .layerNorm) (hr : s.ready id = true)
    (hI : s.nI id = some (some w)) (hO : s.nO id = some (some w)) : NetNode.width E s (.leaf id) w = some w := by
  rw [NetNode.width]
  simp only [leafDims, hr, hI, hO, leafWidth, hk]
  simp

/-- Initialization of a chain of two layers with a batch. -/
theorem chain2_initialize {E : NetEnv} (id : ℕ) (a b : NetNode) (X : Val) (Y : Option Val) (s : NetState) :
    (NetNode.chain id [a, b]).initialize E (some X) Y s = (do
      let s1 ← a.initialize E (some X) (targetFor s a Y) s
      let Z ← a.predict E s1 X
      let s2 ← b.initialize E (some Z) (targetFor s1 b Y) s1
      let W ← b.predict E s2 Z
      chainFinish id [a, b] (some W) s2) := by
  rw [NetNode.initialize, chainStart, if_neg (by simp)]
  simp only [NetNode.initChain, nextInput, bind, Except.bind, pure, Except.pure]
  cases a.initialize E (some X) (targetFor s a Y) s with
  | error e => rfl
  | ok s1 =>
    simp only
    cases a.predict E s1 X with
    | error e => rfl
    | ok Z =>
      simp only
      cases b.initialize E (some Z) (targetFor s1 b Y) s1 with
      | error e => rfl
      | ok s2 =>
        simp only
        cases b.predict E s2 Z <;> rfl

/-- What the chain does at the end. -/
theorem chainFinish_of {s : NetState} {id w o : ℕ} {a b : NetNode} {W : Mat ℝ} (ha : a.dimI s = some (some w)) (hW : W.cols = o)
    (hI : s.nI id = some none ∨ s.nI id = some (some w)) (hO : s.nO id = some none ∨ s.nO id = some (some o)) :
    ∃ s', chainFinish id [a, b] (some (.arr W)) s = .ok s' ∧ s'.nI id = some (some w) ∧ s'.nO id = some (some o) := by
  unfold chainFinish
  simp only [List.head?_cons, NetState.copyI, ha, bind, Except.bind]
  rw [setI_of hI]
  simp only
  rcases hO with hO | hO
  · rw [if_pos hO]
    simp only [chainSetO, getWidth, hW]
    rw [setO_of (by exact .inl hO)]
    exact ⟨_, rfl, by simp, by simp⟩
  · rw [if_neg (by rw [hO]; simp)]
    exact ⟨_, rfl, by simp, hO⟩

/-- A property of the state after initialization, of the input width and of the output width, that lasts. -/
def Lasts (E : NetEnv) (Q : NetState → ℕ → ℕ → Prop) : Prop := ∀ s s' w o, Grows E s s' → Q s w o → Q s' w o

/-- A node that was made with the dimensions `cO` and `cI`, in the state `s`.  With `strict`, `initialize` compares the example
of the output with `cO`.  After initialization `Q` holds. -/
structure Behaves (E : NetEnv) (t : NetNode) (cO cI : Option ℕ) (strict : Bool) (ok : ℕ → Prop)
    (Q : NetState → ℕ → ℕ → Prop) (s : NetState) : Prop where
  plain : NetNode.PlainOk t
  dimI : t.dimI s = some cI
  works : ∀ (X : Mat ℝ) (Y : Option Val) (n : Option ℕ) (o : ℕ), WidthOf Y n → (cI = none ∨ cI = some X.cols) →
    OutputWidth cO n o → (strict = true → n = none ∨ n = some o) → ok o →
    ∃ s', t.initialize E (some (.arr X)) Y s = .ok s' ∧ t.dimI s' = some (some X.cols) ∧ t.dimO s' = some (some o) ∧
      NetNode.width E s' t X.cols = some o ∧ Q s' X.cols o
  only : ∀ (X : Mat ℝ) (Y : Option Val) (n : Option ℕ) (s' : NetState), WidthOf Y n → t.initialize E (some (.arr X)) Y s = .ok s' →
    (cI = none ∨ cI = some X.cols) ∧ ∃ o, OutputWidth cO n o ∧ (strict = true → n = none ∨ n = some o)

theorem behaves_core {E : NetEnv} {s : NetState} {id : ℕ} {cO cI : Option ℕ} {ok : ℕ → Prop} {o0 : ℕ} (h0 : IsCore (E.kind id) o0)
    (hk : ∀ o, ok o → IsCore (E.kind id) o) (hO : s.nO id = some cO) (hI : s.nI id = some cI) :
    Behaves E (.leaf id) cO cI true ok (fun s w o => s.nI id = some (some w) ∧ s.nO id = some (some o)) s := by
  obtain ⟨sh, hsh⟩ := leafInit_core h0
  refine ⟨by simp only [NetNode.PlainOk], hI, ?_, ?_⟩
  · intro X Y n o hY h1 h2 h3 hok
    obtain ⟨s', hs'⟩ := coreInit_of (E := E) (sh := sh) (s := s) (id := id) (X := X) (Y := Y) (o := o)
      (by rw [hI]; simpa using h1) (by
        rw [hO]
        cases Y with
        | none =>
          simp only [WidthOf] at hY
          subst hY
          rcases h2 with rfl | ⟨-, h2⟩
          · rfl
          · cases h2
        | some y =>
          obtain ⟨k, hk, rfl⟩ := hY
          rcases h3 rfl with h3 | h3
          · cases h3
          · cases h3
            refine ⟨hk, ?_⟩
            rcases h2 with rfl | ⟨rfl, -⟩ <;> simp)
    obtain ⟨g1, g2, -, o', g3, g4⟩ := coreInit_ok hs'
    have : o' = o := by
      rw [hO] at g4
      cases Y with
      | none =>
        simp only [WidthOf] at hY
        subst hY
        rcases h2 with rfl | ⟨-, h2⟩
        · simp only [TargetDim, Option.some.injEq] at g4
          exact g4.symm
        · cases h2
      | some y =>
        obtain ⟨k, hk, rfl⟩ := hY
        simp only [TargetDim, hk, Except.ok.injEq] at g4
        rcases h3 rfl with h3 | h3
        · cases h3
        · cases h3
          exact g4.1.symm
    subst this
    refine ⟨s', ?_, g2, g3, width_core (hk _ hok) g1 g2 g3, g2, g3⟩
    rw [NetNode.initialize, hsh]
    exact hs'
  · intro X Y n s' hY h
    rw [NetNode.initialize, hsh] at h
    obtain ⟨-, -, g3, o, -, g5⟩ := coreInit_ok h
    rw [hI] at g3
    rw [hO] at g5
    refine ⟨by simpa using g3, o, ?_⟩
    cases Y with
    | none =>
      simp only [WidthOf] at hY
      subst hY
      simp only [TargetDim, Option.some.injEq] at g5
      exact ⟨.inl g5, fun _ => .inl rfl⟩
    | some y =>
      obtain ⟨k, hk, rfl⟩ := hY
      simp only [TargetDim, hk, Except.ok.injEq, Option.some.injEq] at g5
      obtain ⟨rfl, g5⟩ := g5
      exact ⟨g5.elim (fun e => .inr ⟨e, rfl⟩) .inl, fun _ => .inr rfl⟩

/-- The example that a chain gives to its first layer. -/
theorem targetFor_width {s : NetState} {a : NetNode} {cO n : Option ℕ} {Y : Option Val} (hd : a.dimO s = some cO) (hY : WidthOf Y n) :
    WidthOf (targetFor s a Y) (if cO = none then n else none) := by
  cases cO with
  | none => rw [if_pos rfl, targetFor, if_pos hd]; exact hY
  | some c => rw [if_neg (by simp), targetFor, if_neg (by rw [hd]; simp)]; rfl

/-- A chain of a node and one more layer that keeps the width. -/
theorem behaves_chain {E : NetEnv} {s : NetState} {a b : NetNode} {id : ℕ} {cO cI : Option ℕ} {strict : Bool} {ok : ℕ → Prop}
    {Q R : NetState → ℕ → ℕ → Prop} (hQ : Lasts E Q) (hR : Lasts E R)
    (hs : Sane E s) (ha : Behaves E a cO cI strict ok Q s) (had : a.dimO s = some cO)
    (hI : s.nI id = some cI) (hO : s.nO id = some none ∨ s.nO id = some cO)
    (hia : id ∉ NetNode.ids a) (hib : id ∉ NetNode.ids b) (hab : ∀ i ∈ NetNode.ids a, i ∉ NetNode.ids b) (hbp : NetNode.PlainOk b)
    (hb : ∀ (s1 : NetState) (Z : Mat ℝ) (Y : Option Val), (∀ i ∈ NetNode.ids b, SameNode s s1 i) → OutputWidth cO none Z.cols ∨ cO = none →
      ∃ s2, b.initialize E (some (.arr Z)) Y s1 = .ok s2 ∧ NetNode.width E s2 b Z.cols = some Z.cols ∧ R s2 Z.cols Z.cols) :
    Behaves E (.chain id [a, b]) cO cI false ok (fun s w o => Q s w o ∧ R s o o) s := by
  have hp : NetNode.PlainOk (.chain id [a, b]) := by simp only [NetNode.PlainOk, plainOkAll]; exact ⟨ha.plain, hbp, trivial⟩
  refine ⟨hp, hI, ?_, ?_⟩
  · intro X Y n o hY h1 h2 h3 hok
    obtain ⟨s1, e1, d1, d2, d3, d4⟩ := ha.works X (targetFor s a Y) _ o (targetFor_width had hY) h1 (by
      rcases h2 with rfl | ⟨rfl, rfl⟩
      · exact .inl rfl
      · exact .inr ⟨rfl, if_pos rfl⟩) (by
      intro _
      rcases h2 with rfl | ⟨rfl, rfl⟩
      · exact .inl (if_neg (by simp))
      · exact .inr (if_pos rfl)) hok
    have hs1 : Sane E s1 := (initialize_grows _ e1).1.sane hs
    obtain ⟨Z, eZ, z1, z2⟩ := predict_of_width hs1 ha.plain d3
    have hf1 := initialize_frame _ e1
    obtain ⟨s2, e2, w2, r2⟩ := hb s1 Z (targetFor s1 b Y) (fun i hi => hf1 i fun h => hab i h hi) (by
      rcases h2 with rfl | ⟨rfl, rfl⟩
      · exact .inl (.inl (by rw [z2]))
      · exact .inr rfl)
    have hg2 := (initialize_grows _ e2).1
    obtain ⟨W, eW, y1, y2⟩ := predict_of_width (hg2.sane hs1) hbp w2
    have hf2 := initialize_frame _ e2
    obtain ⟨p1, p2, -⟩ := hf1 id hia
    obtain ⟨q1, q2, -⟩ := hf2 id hib
    obtain ⟨s', e', f1, f2⟩ := chainFinish_of (s := s2) (id := id) (w := X.cols) (o := o) (a := a) (b := b) (W := W) (by
        rw [dimI_congr fun i hi => (hf2 i (hab i hi)).2.1]; exact d1) (y2.trans z2)
      (by rw [q2, p2, hI]; simpa using h1) (by
        rw [q1, p1]
        rcases hO with hO | hO
        · exact .inl hO
        · rcases h2 with rfl | ⟨rfl, rfl⟩
          · exact .inr hO
          · exact .inl hO)
    have hg' : Grows E s2 s' := chainFinish_grows e'
    refine ⟨s', ?_, f1, f2, ?_, hQ _ _ _ _ (hg2.trans hg') d4, ?_⟩
    · rw [chain2_initialize]
      simp only [e1, eZ, e2, eW, bind, Except.bind]
      exact e'
    · rw [NetNode.width, chainWidth, width_mono (hg2.trans hg') _ d3]
      simp only
      rw [chainWidth, ← z2, width_mono hg' _ w2]
      simp only [chainWidth]
    · rw [z2] at r2
      exact hR _ _ _ _ hg' r2
  · intro X Y n s' hY h
    rw [chain2_initialize] at h
    obtain ⟨s1, e1, -⟩ := bind_ok h
    obtain ⟨g1, o, g2, -⟩ := ha.only X _ _ s1 (targetFor_width had hY) e1
    refine ⟨g1, o, ?_, by simp⟩
    rcases g2 with g2 | ⟨rfl, g2⟩
    · exact .inl g2
    · exact .inr ⟨rfl, by simpa using g2⟩

theorem newNode_nO (s : NetState) (id j : ℕ) (a b : Option (Option ℕ)) : (s.newNode id a b).nO j = if j = id then a else s.nO j := rfl
theorem newNode_nI (s : NetState) (id j : ℕ) (a b : Option (Option ℕ)) : (s.newNode id a b).nI j = if j = id then b else s.nI j := rfl

theorem newNode_sane {E : NetEnv} {s : NetState} (hs : Sane E s) (id : ℕ) (a b : Option (Option ℕ)) : Sane E (s.newNode id a b) := by
  intro j hj
  by_cases h : j = id
  · rw [h] at hj
    simp [NetState.newNode] at hj
  · obtain ⟨o, i, h1, h2, h3, h4, h5⟩ := hs j (by simpa [NetState.newNode, h] using hj)
    exact ⟨o, i, hj, by simpa [NetState.newNode, h] using h2, by simpa [NetState.newNode, h] using h3, h4, h5⟩

/-- The node has the dimensions `o` and `w`. -/
def HasDims (id : ℕ) (s : NetState) (w o : ℕ) : Prop := s.nI id = some (some w) ∧ s.nO id = some (some o)

theorem hasDims_lasts (E : NetEnv) (id : ℕ) : Lasts E (HasDims id) :=
  fun _ _ w o h hq => ⟨(h.dims id w).2 hq.1, (h.dims id o).1 hq.2⟩

/-- The dimensions of the nodes after initialization. -/
def BlockDims (ids : BlockIds) (normalize : Bool) (s : NetState) (w o : ℕ) : Prop :=
  HasDims ids.core s w o ∧ (normalize = true → HasDims ids.norm s o o)

theorem blockDims_lasts (E : NetEnv) (ids : BlockIds) (normalize : Bool) : Lasts E (BlockDims ids normalize) :=
  fun _ _ w o h hq => ⟨hasDims_lasts E _ _ _ _ _ h hq.1, fun hn => hasDims_lasts E _ _ _ _ _ h (hq.2 hn)⟩

theorem Behaves.weaken {E : NetEnv} {t : NetNode} {cO cI : Option ℕ} {strict : Bool} {ok : ℕ → Prop}
    {Q R : NetState → ℕ → ℕ → Prop} {s : NetState} (h : Behaves E t cO cI strict ok Q s) (hQR : ∀ s w o, Q s w o → R s w o) :
    Behaves E t cO cI strict ok R s :=
  ⟨h.plain, h.dimI, fun X Y n o h1 h2 h3 h4 h5 => by
    obtain ⟨s', e, d1, d2, d3, d4⟩ := h.works X Y n o h1 h2 h3 h4 h5
    exact ⟨s', e, d1, d2, d3, hQR _ _ _ d4⟩, h.only⟩

/-- The node without the dropout layer. -/
def normNode (ids : BlockIds) (normalize : Bool) : NetNode :=
  if normalize then .chain ids.inner [.leaf ids.core, .leaf ids.norm] else .leaf ids.core

/-- The dimensions of the nodes without the dropout layer. -/
structure NormDims (ids : BlockIds) (nO nI : Option ℕ) (normalize : Bool) (s : NetState) : Prop where
  coreO : s.nO ids.core = some nO
  coreI : s.nI ids.core = some nI
  normO : normalize = true → s.nO ids.norm = some nO
  normI : normalize = true → s.nI ids.norm = some nO
  innerO : normalize = true → s.nO ids.inner = some nO
  innerI : normalize = true → s.nI ids.inner = some nI

theorem behaves_norm {E : NetEnv} {s : NetState} {ids : BlockIds} {nO nI : Option ℕ} {normalize : Bool} {ok : ℕ → Prop} {o0 : ℕ}
    (hs : Sane E s) (hd : BlockIds.Distinct ids) (hn : E.kind ids.norm = .layerNorm) (h0 : IsCore (E.kind ids.core) o0)
    (hk : ∀ o, ok o → IsCore (E.kind ids.core) o) (h : NormDims ids nO nI normalize s) :
    Behaves E (normNode ids normalize) nO nI (!normalize) ok (BlockDims ids normalize) s ∧ (normNode ids normalize).dimO s = some nO := by
  simp only [BlockIds.Distinct, List.nodup_cons, List.mem_cons, List.not_mem_nil, or_false, not_or, not_false_eq_true,
    List.nodup_nil, and_true] at hd
  obtain ⟨⟨h1, h2, h3⟩, ⟨h4, h5⟩, h6⟩ := hd
  cases normalize with
  | false => exact ⟨(behaves_core h0 hk h.coreO h.coreI).weaken fun _ _ _ q => ⟨q, by simp⟩, h.coreO⟩
  | true =>
    refine ⟨?_, h.innerO rfl⟩
    refine (behaves_chain (hasDims_lasts E ids.core) (hasDims_lasts E ids.norm) hs (behaves_core h0 hk h.coreO h.coreI) h.coreO (h.innerI rfl) (.inr (h.innerO rfl))
      (by simpa [NetNode.ids] using Ne.symm h2) (by simpa [NetNode.ids] using Ne.symm h4) (by simpa [NetNode.ids] using h1)
      (by simp only [NetNode.PlainOk]) ?_).weaken fun _ _ _ q => ⟨q.1, fun _ => q.2⟩
    intro s1 Z Y hsame hw
    obtain ⟨g1, g2, -⟩ := hsame ids.norm (by simp [NetNode.ids])
    have hfit : nO = none ∨ nO = some Z.cols := by
      rcases hw with (hw | ⟨hw, -⟩) | hw
      · exact .inr hw
      · exact .inl hw
      · exact .inl hw
    obtain ⟨s2, e, r1, r2, r3⟩ := normInit_of (E := E) (s := s1) (id := ids.norm) (X := Z) (Y := Y) hn
      (by rw [g2, h.normI rfl]; simpa using hfit) (by rw [g1, h.normO rfl]; simpa using hfit)
    exact ⟨s2, by rw [NetNode.initialize]; exact e, width_norm hn r1 r2 r3, r2, r3⟩

theorem chainDimO_some (d : Option ℕ) : chainDimO (some d) = some d := by cases d <;> rfl

/-- What the factory returns. -/
def blockNode (ids : BlockIds) (normalize : Bool) (drop : Option Layer) : NetNode :=
  match drop with
  | none => normNode ids normalize
  | some d => .chain ids.outer [normNode ids normalize, .plain d]

theorem makeLayer_eq {E : NetEnv} {s : NetState} {ids : BlockIds} (nO nI : Option ℕ) (normalize : Bool) (drop : Option Layer)
    (hs : Sane E s) (hd : BlockIds.Distinct ids) :
    (makeLayer ids nO nI normalize drop s).1 = blockNode ids normalize drop ∧
    Sane E (makeLayer ids nO nI normalize drop s).2 ∧ NormDims ids nO nI normalize (makeLayer ids nO nI normalize drop s).2 ∧
    (drop ≠ none → (makeLayer ids nO nI normalize drop s).2.nI ids.outer = some nI ∧
      (makeLayer ids nO nI normalize drop s).2.nO ids.outer = some none) := by
  simp only [BlockIds.Distinct, List.nodup_cons, List.mem_cons, List.not_mem_nil, or_false, not_or, not_false_eq_true,
    List.nodup_nil, and_true] at hd
  obtain ⟨⟨h1, h2, h3⟩, ⟨h4, h5⟩, h6⟩ := hd
  cases normalize <;> cases drop
  · refine ⟨rfl, newNode_sane hs _ _ _, ?_, by simp⟩
    constructor <;> simp [makeLayer, withNorm, withDropout, newNode_nO, newNode_nI]
  · refine ⟨rfl, newNode_sane (newNode_sane hs _ _ _) _ _ _, ?_, fun _ => ?_⟩
    · constructor <;> simp [makeLayer, withNorm, withDropout, makeChain, newNode_nO, newNode_nI, h3]
    · simp [makeLayer, withNorm, withDropout, makeChain, newNode_nO, newNode_nI, NetNode.dimI, NetNode.dimO, chainDimO]
  · refine ⟨rfl, newNode_sane (newNode_sane (newNode_sane hs _ _ _) _ _ _) _ _ _, ?_, by simp⟩
    constructor <;> simp [makeLayer, withNorm, withDropout, makeChain, newNode_nO, newNode_nI, NetNode.dimI, NetNode.dimO, chainDimO_some, h1, h2, h4, Ne.symm h1]
  · refine ⟨rfl, newNode_sane (newNode_sane (newNode_sane (newNode_sane hs _ _ _) _ _ _) _ _ _) _ _ _, ?_, fun _ => ?_⟩
    · constructor <;> simp [makeLayer, withNorm, withDropout, makeChain, newNode_nO, newNode_nI, NetNode.dimI, NetNode.dimO, chainDimO_some, h1, h2, h3, h4, h5, h6]
    · simp [makeLayer, withNorm, withDropout, makeChain, newNode_nO, newNode_nI, NetNode.dimI, NetNode.dimO, chainDimO, h1]

theorem keepsShape_dropout (rate : ℝ) (draws : ℕ → ℕ → ℕ → ℝ) : KeepsShape (dropout rate true draws) := by
  intro train P X
  by_cases h : rate = 0 ∨ (true && train) = false
  · exact ⟨X, _, if_pos h, rfl, rfl⟩
  · have hM : IsMat (getDropoutMask X.rows X.cols (some rate) (draws 0))
        (fun (i : Fin X.rows) (j : Fin X.cols) => keepFactor rate (draws 0 i j)) := isMat_dropoutMask
    obtain ⟨Y, eY, hY⟩ := (isMat_self X).npBinary hM (· * ·)
    refine ⟨Y, fun dY G => do return (.arr (← npBinary (· * ·) (← dY.asArr) (getDropoutMask X.rows X.cols (some rate) (draws 0))), G), ?_, hY.1, hY.2.1⟩
    unfold dropout
    simp only
    rw [if_neg h]
    simp only [dropoutArray, eY, bind, Except.bind, pure, Except.pure]

theorem behaves_block {E : NetEnv} {s : NetState} {ids : BlockIds} {nO nI : Option ℕ} {normalize : Bool} {drop : Option Layer}
    {ok : ℕ → Prop} {o0 : ℕ} (hs : Sane E s) (hd : BlockIds.Distinct ids) (hn : E.kind ids.norm = .layerNorm)
    (h0 : IsCore (E.kind ids.core) o0) (hk : ∀ o, ok o → IsCore (E.kind ids.core) o) (h : NormDims ids nO nI normalize s)
    (hdrop : ∀ d, drop = some d → KeepsShape d) (ho : drop ≠ none → s.nI ids.outer = some nI ∧ s.nO ids.outer = some none) :
    Behaves E (blockNode ids normalize drop) nO nI (!normalize && drop.isNone) ok (BlockDims ids normalize) s := by
  obtain ⟨g1, g2⟩ := behaves_norm hs hd hn h0 hk h
  cases drop with
  | none => simpa [blockNode] using g1
  | some d =>
    obtain ⟨ho1, ho2⟩ := ho (by simp)
    have hout : ids.outer ∉ NetNode.ids (normNode ids normalize) := by
      simp only [BlockIds.Distinct, List.nodup_cons, List.mem_cons, List.not_mem_nil, or_false, not_or, not_false_eq_true,
        List.nodup_nil, and_true] at hd
      obtain ⟨⟨h1, h2, h3⟩, ⟨h4, h5⟩, h6⟩ := hd
      cases normalize <;> simp [normNode, NetNode.ids, idsOf, Ne.symm h3, Ne.symm h5, Ne.symm h6]
    have := behaves_chain (b := .plain d) (R := fun _ _ _ => True) (blockDims_lasts E ids normalize) (fun _ _ _ _ _ _ => trivial) hs g1 g2 ho1 (.inl ho2) hout (by simp [NetNode.ids]) (by simp [NetNode.ids])
      (by simp only [NetNode.PlainOk]; exact hdrop d rfl) (fun s1 Z Y _ _ => ⟨s1, by rw [NetNode.initialize], by rw [NetNode.width], trivial⟩)
    simpa [blockNode] using this.weaken fun _ _ _ q => q.1

end Factories
end Thinc
