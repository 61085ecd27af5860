import Verif.Model.UseParams
import Verif.Lemmas.Copy
import Verif.Lemmas.Serialize
/-!
# C13: `Model.use_params`
-/
namespace Thinc
open Spec
variable {V A R : Type}

/-! ## Specification -/

/-- `(b, k)` names a parameter of a node reachable from `a` whose key is in `params`. -/
def Spec.Covered (params : PyDict (Nat × String) V) (h : Heap V A) (a : Addr) (b : Addr) (k : String) : Prop :=
  Reachable h a b ∧ ∃ n, h[b]? = some n ∧ k ∈ n.paramNames ∧ (params.get? (n.id, k)).isSome

/-- Node `n'` differs from `n` at most in its parameter values. -/
def Spec.OnlyParams (n n' : Node V A) : Prop :=
  n' = { n with params := n'.params, hasParams := n'.hasParams }

/-- The state `h_in` in which the body runs: covered parameters read as the given values, all
other parameters as before, and nothing but parameters changed. -/
structure Spec.Swapped (params : PyDict (Nat × String) V) (T : Addr → String → Prop) (h hin : Heap V A) : Prop where
  node : ∀ (b : Addr) n, h[b]? = some n → ∃ n', hin[b]? = some n' ∧ OnlyParams n n' ∧
    n'.paramNames = n.paramNames ∧
    (∀ k, T b k → n'.hasParam k = some true ∧ ∃ v, params.get? (n.id, k) = some v ∧ n'.getParam k = .ok v) ∧
    (∀ k, ¬ T b k → n'.hasParam k = n.hasParam k ∧ n'.getParam k = n.getParam k)
  none : ∀ b : Addr, h[b]? = none → hin[b]? = none

/-- The state `h'` after the block, where `hout` is the state at the end of the body: covered
parameters read as in `h`, everything else is as the body left it. -/
structure Spec.Restored (T : Addr → String → Prop) (h hout h' : Heap V A) : Prop where
  node : ∀ (b : Addr) n m, h[b]? = some n → hout[b]? = some m → ∃ n', h'[b]? = some n' ∧ OnlyParams m n' ∧
    (∀ k, T b k → n'.hasParam k = some true ∧ n'.getParam k = n.getParam k) ∧
    (∀ k, ¬ T b k → n'.hasParam k = m.hasParam k ∧ n'.getParam k = m.getParam k)
  none : ∀ b : Addr, h[b]? = none → h'[b]? = hout[b]?

/-- The body deletes no object and changes no object's id. -/
def Spec.KeepsIds (h h' : Heap V A) : Prop :=
  ∀ (b : Addr) n, h[b]? = some n → ∃ n', h'[b]? = some n' ∧ n'.id = n.id

/-! ## Lemmas -/

theorem Spec.OnlyParams.refl (n : Node V A) : OnlyParams n n := rfl
theorem Spec.OnlyParams.id {n n' : Node V A} (h : OnlyParams n n') : n'.id = n.id := by rw [h]
theorem Spec.OnlyParams.layers {n n' : Node V A} (h : OnlyParams n n') : n'.layers = n.layers := by rw [h]
theorem Spec.OnlyParams.trans {n m k : Node V A} (h1 : OnlyParams n m) (h2 : OnlyParams m k) : OnlyParams n k := by
  unfold OnlyParams at *
  rw [h2, h1]

theorem onlyParams_setParam (n : Node V A) (k : String) (v : V) : OnlyParams n (n.setParam k (some v)) := rfl

theorem setParam_has (n : Node V A) (k k' : String) (v : V) :
    (n.setParam k (some v)).hasParam k' = if k = k' then some true else n.hasParam k' := by
  simp only [Node.hasParam, Node.setParam, PyDict.get?_set]
  by_cases h : k = k' <;> simp [h]

theorem contains_eq {κ α : Type} [DecidableEq κ] (d : PyDict κ α) (k : κ) : d.contains k = (d.get? k).isSome := rfl

theorem setParam_get (n : Node V A) (k k' : String) (v : V) :
    (n.setParam k (some v)).getParam k' = if k = k' then .ok v else n.getParam k' := by
  simp only [Node.getParam, Node.setParam, PyDict.get?_set, contains_eq]
  by_cases h : k = k'
  · simp [h]
  · simp [h]; rfl

theorem setParam_names (n : Node V A) {k : String} (hk : k ∈ n.paramNames) (v : V) :
    (n.setParam k (some v)).paramNames = n.paramNames := by
  simp only [Node.paramNames, Node.setParam]
  exact PyDict.keys_set_of_mem _ hk _

/-- What the enter loop does on one node. -/
theorem swapIn_spec (params : PyDict (Nat × String) V) (names : List String) (n : Node V A) (bk : PyDict String V)
    (hnd : names.Nodup) (hn : ∀ k ∈ names, k ∈ n.paramNames)
    (hok : ∀ k ∈ names, (params.get? (n.id, k)).isSome → ∃ v, n.getParam k = .ok v)
    (hbk : PyDict.WF bk) (hbk' : ∀ k ∈ names, bk.get? k = none) :
    ∃ n' bk', swapIn params names n bk = (n', .ok bk') ∧ OnlyParams n n' ∧ PyDict.WF bk' ∧
      n'.paramNames = n.paramNames ∧
      (∀ k ∈ names, ∀ v, params.get? (n.id, k) = some v →
        n'.hasParam k = some true ∧ n'.getParam k = .ok v ∧ ∃ o, n.getParam k = .ok o ∧ bk'.get? k = some o) ∧
      (∀ k, (k ∉ names ∨ params.get? (n.id, k) = none) →
        n'.hasParam k = n.hasParam k ∧ n'.getParam k = n.getParam k ∧ bk'.get? k = bk.get? k) := by
  induction names generalizing n bk with
  | nil => exact ⟨n, bk, rfl, rfl, hbk, rfl, by simp, fun k _ => ⟨rfl, rfl, rfl⟩⟩
  | cons k0 names ih =>
    rw [List.nodup_cons] at hnd
    cases hp : params.get? (n.id, k0) with
    | none =>
      obtain ⟨n', bk', h1, h2, h3, h4, h5, h6⟩ := ih n bk hnd.2 (fun k hk => hn k (by simp [hk]))
        (fun k hk => hok k (by simp [hk])) hbk (fun k hk => hbk' k (by simp [hk]))
      refine ⟨n', bk', by simp [swapIn, hp, h1], h2, h3, h4, ?_, ?_⟩
      · intro k hk v hv
        rcases List.mem_cons.1 hk with rfl | hk
        · rw [hp] at hv; simp at hv
        · exact h5 k hk v hv
      · rintro k (hk | hk)
        · exact h6 k (Or.inl fun h => hk (by simp [h]))
        · exact h6 k (Or.inr hk)
    | some v0 =>
      obtain ⟨o, ho⟩ := hok k0 (by simp) (by simp [hp])
      have hne : ∀ k ∈ names, k0 ≠ k := fun k hk h => hnd.1 (h ▸ hk)
      obtain ⟨n', bk', h1, h2, h3, h4, h5, h6⟩ := ih (n.setParam k0 (some v0)) (bk.set k0 o) hnd.2
        (fun k hk => by rw [setParam_names n (hn k0 (by simp))]; exact hn k (by simp [hk]))
        (fun k hk hs => by
          obtain ⟨v, hv⟩ := hok k (by simp [hk]) hs
          exact ⟨v, by rw [setParam_get, if_neg (hne k hk)]; exact hv⟩)
        (hbk.set _ _)
        (fun k hk => by rw [PyDict.get?_set_ne _ (hne k hk)]; exact hbk' k (by simp [hk]))
      refine ⟨n', bk', by simp [swapIn, hp, ho, h1], (onlyParams_setParam n k0 v0).trans h2, h3, ?_, ?_, ?_⟩
      · rw [h4, setParam_names n (hn k0 (by simp))]
      · intro k hk v hv
        rcases List.mem_cons.1 hk with rfl | hk
        · rw [hp] at hv; injection hv with hv; subst hv
          obtain ⟨a1, a2, a3⟩ := h6 k (Or.inl hnd.1)
          rw [setParam_has, if_pos rfl] at a1
          rw [setParam_get, if_pos rfl] at a2
          rw [PyDict.get?_set_self] at a3
          exact ⟨a1, a2, o, ho, a3⟩
        · obtain ⟨a1, a2, o', a3, a4⟩ := h5 k hk v hv
          rw [setParam_get, if_neg (hne k hk)] at a3
          exact ⟨a1, a2, o', a3, a4⟩
      · intro k hk
        have hk0 : k0 ≠ k := by
          rintro rfl
          rcases hk with hk | hk
          · exact hk (by simp)
          · rw [hp] at hk; simp at hk
        obtain ⟨a1, a2, a3⟩ := h6 k (hk.imp (fun h h' => h (by simp [h'])) (fun h => h))
        rw [setParam_has, if_neg hk0] at a1
        rw [setParam_get, if_neg hk0] at a2
        rw [PyDict.get?_set_ne _ hk0] at a3
        exact ⟨a1, a2, a3⟩

/-- What the exit loop does on one node. -/
theorem restoreNode_spec (bk : PyDict String V) (w : PyDict.WF bk) (n : Node V A) :
    OnlyParams n (restoreNode bk n) ∧
    (∀ k o, bk.get? k = some o → (restoreNode bk n).hasParam k = some true ∧ (restoreNode bk n).getParam k = .ok o) ∧
    (∀ k, bk.get? k = none → (restoreNode bk n).hasParam k = n.hasParam k ∧
      (restoreNode bk n).getParam k = n.getParam k) := by
  induction bk generalizing n with
  | nil => exact ⟨rfl, by simp [PyDict.get?], fun k _ => ⟨rfl, rfl⟩⟩
  | cons p bk ih =>
    obtain ⟨k0, o0⟩ := p
    obtain ⟨w', hk0⟩ := dict_cons w
    obtain ⟨h1, h2, h3⟩ := ih w' (n.setParam k0 (some o0))
    have e : restoreNode ((k0, o0) :: bk) n = restoreNode bk (n.setParam k0 (some o0)) := rfl
    rw [e]
    refine ⟨(onlyParams_setParam n k0 o0).trans h1, ?_, ?_⟩
    · intro k o hk
      rw [PyDict.get?_cons] at hk
      by_cases hkk : k0 = k
      · subst hkk
        rw [if_pos rfl] at hk; injection hk with hk; subst hk
        obtain ⟨a1, a2⟩ := h3 k0 hk0
        rw [setParam_has, if_pos rfl] at a1
        rw [setParam_get, if_pos rfl] at a2
        exact ⟨a1, a2⟩
      · rw [if_neg hkk] at hk; exact h2 k o hk
    · intro k hk
      rw [PyDict.get?_cons] at hk
      by_cases hkk : k0 = k
      · simp [hkk] at hk
      · rw [if_neg hkk] at hk
        obtain ⟨a1, a2⟩ := h3 k hk
        rw [setParam_has, if_neg hkk] at a1
        rw [setParam_get, if_neg hkk] at a2
        exact ⟨a1, a2⟩

theorem Spec.Swapped.layersOf {params : PyDict (Nat × String) V} {T} {h hin : Heap V A} (s : Swapped params T h hin)
    (b : Addr) : layersOf hin b = layersOf h b := by
  unfold Thinc.layersOf
  cases hb : h[b]? with
  | none => rw [s.none b hb]
  | some n =>
    obtain ⟨n', h1, h2, _⟩ := s.node b n hb
    rw [h1]; exact h2.layers

theorem Spec.Swapped.back {params : PyDict (Nat × String) V} {T} {h hin : Heap V A} (s : Swapped params T h hin)
    {b : Addr} {n'} (hb : hin[b]? = some n') : ∃ n, h[b]? = some n := by
  cases hn : h[b]? with
  | none => rw [s.none b hn] at hb; simp at hb
  | some n => exact ⟨n, rfl⟩

theorem Spec.Swapped.covered {params : PyDict (Nat × String) V} {T} {h hin : Heap V A} (s : Swapped params T h hin)
    (a b : Addr) (k : String) : Covered params hin a b k ↔ Covered params h a b k := by
  unfold Covered
  rw [Reachable.congr s.layersOf a b]
  refine and_congr_right fun _ => ?_
  constructor
  · rintro ⟨n', h1, h2, h3⟩
    obtain ⟨n, hn⟩ := s.back h1
    obtain ⟨m, g1, g2, g3, _⟩ := s.node b n hn
    rw [h1] at g1; injection g1 with g1; subst g1
    exact ⟨n, hn, g3 ▸ h2, by rw [← g2.id]; exact h3⟩
  · rintro ⟨n, h1, h2, h3⟩
    obtain ⟨m, g1, g2, g3, _⟩ := s.node b n h1
    exact ⟨m, g1, g3 ▸ h2, by rw [g2.id]; exact h3⟩

theorem Spec.Swapped.trans {params : PyDict (Nat × String) V} {T1 T2} {h h1 h2 : Heap V A}
    (s1 : Swapped params T1 h h1) (s2 : Swapped params T2 h1 h2) :
    Swapped params (fun b k => T1 b k ∨ T2 b k) h h2 := by
  refine ⟨?_, fun b hb => s2.none b (s1.none b hb)⟩
  intro b n hn
  obtain ⟨n1, a1, a2, a3, a4, a5⟩ := s1.node b n hn
  obtain ⟨n2, b1, b2, b3, b4, b5⟩ := s2.node b n1 a1
  refine ⟨n2, b1, a2.trans b2, b3.trans a3, ?_, ?_⟩
  · intro k hk
    by_cases h2 : T2 b k
    · have := b4 k h2
      rw [a2.id] at this; exact this
    · obtain ⟨c1, c2⟩ := b5 k h2
      rw [c1, c2]
      exact a4 k (hk.resolve_right h2)
  · intro k hk
    obtain ⟨c1, c2⟩ := b5 k (fun h => hk (Or.inr h))
    obtain ⟨d1, d2⟩ := a5 k (fun h => hk (Or.inl h))
    exact ⟨c1.trans d1, c2.trans d2⟩

theorem Spec.Restored.trans {params : PyDict (Nat × String) V} {T1 T2} {h h1 hout h2 h' : Heap V A}
    (s1 : Swapped params T1 h h1) (r2 : Restored T2 h1 hout h2) (r1 : Restored T1 h h2 h') :
    Restored (fun b k => T1 b k ∨ T2 b k) h hout h' := by
  refine ⟨?_, fun b hb => (r1.none b hb).trans (r2.none b (s1.none b hb))⟩
  intro b n m hn hm
  obtain ⟨n1, a1, a2, a3, a4, a5⟩ := s1.node b n hn
  obtain ⟨n2, b1, b2, b3, b4⟩ := r2.node b n1 m a1 hm
  obtain ⟨n3, c1, c2, c3, c4⟩ := r1.node b n n2 hn b1
  refine ⟨n3, c1, b2.trans c2, ?_, ?_⟩
  · intro k hk
    by_cases h1 : T1 b k
    · exact c3 k h1
    · obtain ⟨d1, d2⟩ := c4 k h1
      obtain ⟨e1, e2⟩ := b3 k (hk.resolve_left h1)
      exact ⟨d1.trans e1, (d2.trans e2).trans (a5 k h1).2⟩
  · intro k hk
    obtain ⟨d1, d2⟩ := c4 k (fun h => hk (Or.inl h))
    obtain ⟨e1, e2⟩ := b4 k (fun h => hk (Or.inr h))
    exact ⟨d1.trans e1, d2.trans e2⟩

theorem Spec.Swapped.congr {params : PyDict (Nat × String) V} {T T' : Addr → String → Prop} {h hin : Heap V A}
    (e : ∀ b k, T b k ↔ T' b k) (s : Swapped params T h hin) : Swapped params T' h hin := by
  have : T = T' := funext fun b => funext fun k => propext (e b k)
  exact this ▸ s

theorem Spec.Restored.congr {T T' : Addr → String → Prop} {h hout h' : Heap V A}
    (e : ∀ b k, T b k ↔ T' b k) (s : Restored T h hout h') : Restored T' h hout h' := by
  have : T = T' := funext fun b => funext fun k => propext (e b k)
  exact this ▸ s

/-- All nodes reachable from `a` exist, and every covered parameter is allocated. -/
def Usable (params : PyDict (Nat × String) V) (h : Heap V A) (a : Addr) : Prop :=
  ∀ b, Reachable h a b → ∃ n, h[b]? = some n ∧ n.paramNames.Nodup ∧
    ∀ k ∈ n.paramNames, (params.get? (n.id, k)).isSome → ∃ v, n.getParam k = .ok v

theorem Usable.swapped {params : PyDict (Nat × String) V} {T} {h hin : Heap V A} (s : Swapped params T h hin) {a : Addr}
    (u : Usable params h a) : Usable params hin a := by
  intro b hb
  obtain ⟨n, h1, h2, h3⟩ := u b ((Reachable.congr s.layersOf a b).1 hb)
  obtain ⟨m, g1, g2, g3, g4, g5⟩ := s.node b n h1
  refine ⟨m, g1, g3 ▸ h2, ?_⟩
  intro k hk hs
  by_cases hT : T b k
  · obtain ⟨_, v, _, hv⟩ := g4 k hT
    exact ⟨v, hv⟩
  · rw [(g5 k hT).2]
    exact h3 k (g3 ▸ hk) (by rw [← g2.id]; exact hs)

theorem pathLen_congr {h h' : Heap V A} (e : ∀ b, layersOf h' b = layersOf h b) {a b : Addr} {k : Nat}
    (p : PathLen h' a k b) : PathLen h a k b := by
  induction p with
  | zero => exact .zero
  | succ _ hc ih => exact .succ ih (by rw [child_iff] at hc ⊢; rw [← e]; exact hc)

theorem pathLen_cons {h : Heap V A} {a l b : Addr} {k : Nat} (hc : Child h a l) (p : PathLen h l k b) :
    PathLen h a (k + 1) b := by
  induction p with
  | zero => exact .succ .zero hc
  | succ _ hc' ih => exact .succ ih hc'

/-- The contract of `with a.use_params(params): body`, relative to the set `T` of parameters it
covers. -/
def Contract (params : PyDict (Nat × String) V) (T : Addr → String → Prop) (h : Heap V A)
    (run : (Heap V A → Heap V A × Except PyErr R) → Heap V A × Except PyErr R) : Prop :=
  ∃ hin, Swapped params T h hin ∧ ∀ (body : Heap V A → Heap V A × Except PyErr R) (hout : Heap V A) (r : Except PyErr R),
    body hin = (hout, r) →
      (∀ e, r = .error e → run body = (hout, .error e)) ∧
      (∀ x, r = .ok x → KeepsIds hin hout → ∃ h', run body = (h', .ok x) ∧ Restored T h hout h')

theorem Spec.Swapped.refl (params : PyDict (Nat × String) V) (h : Heap V A) : Swapped params (fun _ _ => False) h h :=
  ⟨fun b n hn => ⟨n, hn, rfl, rfl, fun _ h => h.elim, fun _ _ => ⟨rfl, rfl⟩⟩, fun _ h => h⟩

theorem Spec.Restored.refl {h hin hout : Heap V A} (params : PyDict (Nat × String) V) {T} (_ : Swapped params T h hin) :
    Restored (fun _ _ => False) hin hout hout :=
  ⟨fun b n m _ hm => ⟨m, hm, rfl, fun _ h => h.elim, fun _ _ => ⟨rfl, rfl⟩⟩, fun _ _ => rfl⟩

/-- After restoring, ids are as they were. -/
theorem Spec.Restored.keepsIds {T} {h hout h' : Heap V A} (r : Restored T h hout h') (k : KeepsIds h hout) :
    KeepsIds h h' := by
  intro b n hn
  obtain ⟨m, hm, hid⟩ := k b n hn
  obtain ⟨n', h1, h2, _⟩ := r.node b n m hn hm
  exact ⟨n', h1, h2.id.trans hid⟩

theorem keepsIds_ofSwapped {params : PyDict (Nat × String) V} {T} {h hin hout : Heap V A} (s : Swapped params T h hin)
    (k : KeepsIds hin hout) : KeepsIds h hout := by
  intro b n hn
  obtain ⟨m, h1, h2, _⟩ := s.node b n hn
  obtain ⟨n', h3, h4⟩ := k b m h1
  exact ⟨n', h3, h4.trans h2.id⟩

theorem enterLayers_spec (params : PyDict (Nat × String) V) (depth : Nat)
    (ih : ∀ (a : Addr) (h : Heap V A), Usable params h a → (∀ k b, PathLen h a k b → k < depth) →
      Contract (R := R) params (Covered params h a) h (fun body => useParams params depth a body h))
    (ls : List Addr) (h : Heap V A) (hu : ∀ l ∈ ls, Usable params h l)
    (hp : ∀ l ∈ ls, ∀ k b, PathLen h l k b → k < depth) :
    Contract (R := R) params (fun b k => ∃ l ∈ ls, Covered params h l b k) h
      (fun body => enterLayers (useParams params depth) ls body h) := by
  induction ls generalizing h with
  | nil =>
    refine ⟨h, (Swapped.refl params h).congr (by simp), ?_⟩
    intro body hout r hb
    refine ⟨fun e he => by simp [enterLayers, hb, he], ?_⟩
    intro x hx _
    exact ⟨hout, by simp [enterLayers, hb, hx], (Restored.refl params (Swapped.refl params h)).congr (by simp)⟩
  | cons l ls ihl =>
    obtain ⟨h1, s1, c1⟩ := ih l h (hu l (by simp)) (hp l (by simp))
    obtain ⟨h2, s2, c2⟩ := ihl h1 (fun m hm => (hu m (by simp [hm])).swapped s1)
      (fun m hm k b p => hp m (by simp [hm]) k b (pathLen_congr s1.layersOf p))
    have hT : ∀ b k, (Covered params h l b k ∨ ∃ m ∈ ls, Covered params h1 m b k) ↔
        ∃ m ∈ l :: ls, Covered params h m b k := by
      intro b k
      simp only [s1.covered, List.mem_cons, exists_eq_or_imp]
    refine ⟨h2, (s1.trans s2).congr hT, ?_⟩
    intro body hout r hb
    obtain ⟨d1, d2⟩ := c2 body hout r hb
    refine ⟨?_, ?_⟩
    · intro e he
      exact (c1 (enterLayers (useParams params depth) ls body) hout (.error e) (d1 e he)).1 e rfl
    · intro x hx hk
      obtain ⟨h3, e1, e2⟩ := d2 x hx hk
      obtain ⟨h4, f1, f2⟩ := (c1 (enterLayers (useParams params depth) ls body) h3 (.ok x) e1).2 x rfl
        (e2.keepsIds (keepsIds_ofSwapped s2 hk))
      exact ⟨h4, f1, (Restored.trans s1 e2 f2).congr hT⟩

theorem useParams_spec (params : PyDict (Nat × String) V) (depth : Nat) (a : Addr) (h : Heap V A)
    (hu : Usable params h a) (hp : ∀ k b, PathLen h a k b → k < depth) :
    Contract (R := R) params (Covered params h a) h (fun body => useParams params depth a body h) := by
  induction depth generalizing a h with
  | zero => exact absurd (hp 0 a .zero) (by omega)
  | succ depth ih =>
    obtain ⟨n, hn, hnd, hok⟩ := hu a Relation.ReflTransGen.refl
    obtain ⟨n', bk, e1, e2, e3, e4, e5, e6⟩ := swapIn_spec params n.paramNames n [] hnd (fun _ h => h) hok PyDict.WF.nil
      (fun _ _ => rfl)
    let T0 : Addr → String → Prop := fun b k => b = a ∧ k ∈ n.paramNames ∧ (params.get? (n.id, k)).isSome
    have s0 : Swapped params T0 h (h.modify a fun _ => n') := by
      refine ⟨?_, ?_⟩
      · intro b m hm
        rw [get_put h a b n n' hn]
        by_cases hab : a = b
        · subst hab
          rw [hn] at hm; injection hm with hm; subst hm
          refine ⟨n', by simp, e2, e4, ?_, ?_⟩
          · rintro k ⟨_, hk1, hk2⟩
            obtain ⟨v, hv⟩ := Option.isSome_iff_exists.1 hk2
            obtain ⟨f1, f2, _⟩ := e5 k hk1 v hv
            exact ⟨f1, v, hv, f2⟩
          · intro k hk
            have : k ∉ n.paramNames ∨ params.get? (n.id, k) = none := by
              by_cases h1 : k ∈ n.paramNames
              · right
                cases h2 : params.get? (n.id, k) with
                | none => rfl
                | some v => exact absurd ⟨rfl, h1, by simp [h2]⟩ hk
              · exact Or.inl h1
            obtain ⟨f1, f2, _⟩ := e6 k this
            exact ⟨f1, f2⟩
        · refine ⟨m, by simp [hab, hm], rfl, rfl, ?_, fun k _ => ⟨rfl, rfl⟩⟩
          rintro k ⟨rfl, _⟩
          exact absurd rfl hab
      · intro b hb
        rw [get_put h a b n n' hn]
        by_cases hab : a = b
        · subst hab; rw [hn] at hb; simp at hb
        · simp [hab, hb]
    have hch : ∀ l ∈ n.layers, Child h a l := fun l hl => ⟨n, hn, hl⟩
    obtain ⟨hin, s1, c1⟩ := enterLayers_spec (R := R) params depth (fun a h u p => ih a h u p) n.layers
      (h.modify a fun _ => n')
      (fun l hl => Usable.swapped s0 (fun b hb => hu b (Relation.ReflTransGen.head (hch l hl) hb)))
      (fun l hl k b p => by
        have := hp (k + 1) b (pathLen_cons (hch l hl) (pathLen_congr s0.layersOf p))
        omega)
    have hT : ∀ b k, (T0 b k ∨ ∃ l ∈ n.layers, Covered params (h.modify a fun _ => n') l b k) ↔ Covered params h a b k := by
      intro b k
      simp only [s0.covered]
      constructor
      · rintro (⟨rfl, h1, h2⟩ | ⟨l, hl, h1, h2⟩)
        · exact ⟨Relation.ReflTransGen.refl, n, hn, h1, h2⟩
        · exact ⟨Relation.ReflTransGen.head (hch l hl) h1, h2⟩
      · rintro ⟨h1, h2⟩
        rcases Relation.ReflTransGen.cases_head h1 with rfl | ⟨l, ⟨m, hm, hl⟩, h3⟩
        · obtain ⟨m, hm, h3, h4⟩ := h2
          rw [hn] at hm; injection hm with hm; subst hm
          exact Or.inl ⟨rfl, h3, h4⟩
        · rw [hn] at hm; injection hm with hm; subst hm
          exact Or.inr ⟨l, hl, h3, h2⟩
    refine ⟨hin, (s0.trans s1).congr hT, ?_⟩
    intro body hout r hb
    obtain ⟨d1, d2⟩ := c1 body hout r hb
    refine ⟨?_, ?_⟩
    · intro e he
      have := d1 e he
      simp only at this
      simp only [useParams, hn, e1, this]
    · intro x hx hk
      obtain ⟨h2, f1, f2⟩ := d2 x hx hk
      simp only at f1
      refine ⟨h2.modify a (restoreNode bk), by simp only [useParams, hn, e1, f1], ?_⟩
      refine (Restored.trans s0 f2 ?_).congr hT
      refine ⟨?_, ?_⟩
      · intro b m m2 hm hm2
        rw [Heap.get_modify]
        by_cases hab : a = b
        · subst hab
          rw [hn] at hm; injection hm with hm; subst hm
          obtain ⟨g1, g2, g3⟩ := restoreNode_spec bk e3 m2
          refine ⟨restoreNode bk m2, by simp [hm2], g1, ?_, ?_⟩
          · rintro k ⟨_, hk1, hk2⟩
            obtain ⟨v, hv⟩ := Option.isSome_iff_exists.1 hk2
            obtain ⟨_, _, o, q1, q2⟩ := e5 k hk1 v hv
            obtain ⟨u1, u2⟩ := g2 k o q2
            exact ⟨u1, u2.trans q1.symm⟩
          · intro k hk
            have : k ∉ n.paramNames ∨ params.get? (n.id, k) = none := by
              by_cases h1 : k ∈ n.paramNames
              · right
                cases h2 : params.get? (n.id, k) with
                | none => rfl
                | some v => exact absurd ⟨rfl, h1, by simp [h2]⟩ hk
              · exact Or.inl h1
            obtain ⟨_, _, q⟩ := e6 k this
            exact g3 k q
        · refine ⟨m2, by simp [hab, hm2], rfl, ?_, fun k _ => ⟨rfl, rfl⟩⟩
          rintro k ⟨rfl, _⟩
          exact absurd rfl hab
      · intro b hb
        rw [Heap.get_modify]
        have hab : a ≠ b := by
          rintro rfl; rw [hn] at hb; simp at hb
        simp [hab]

/-! ## The property -/

/-- C13 (partial: normal exit).  On an acyclic model (layers may be shared) whose covered
parameters are allocated, and with enough stack: the body of `with self.use_params(params)` runs
in a state where every covered parameter reads as the given value and everything else is as
before; and if the body returns normally, whatever it did to parameters, attributes or layers (as
long as objects keep their ids), then afterwards every covered parameter reads as it did before
the block and everything else is exactly as the body left it.
Missing from the full property: restoration when the body raises; `C13_exception_not_restored`
shows the code does not restore then. -/
theorem C13_use_params_partial (params : PyDict (Nat × String) V) (h : Heap V A) (self : Addr) (depth : Nat)
    (hac : Acyclic h) (hdepth : h.length < depth) (hu : Usable params h self) :
    ∃ hin, Swapped params (Covered params h self) h hin ∧
      ∀ (body : Heap V A → Heap V A × Except PyErr R) hout x, body hin = (hout, .ok x) → KeepsIds hin hout →
        ∃ h', useParams params depth self body h = (h', .ok x) ∧ Restored (Covered params h self) h hout h' := by
  obtain ⟨hin, s, c⟩ := useParams_spec (R := R) params depth self h hu
    (fun k b p => Nat.lt_of_le_of_lt (acyclic_path_bound hac p) hdepth)
  exact ⟨hin, s, fun body hout x hb hk => (c body hout (.ok x) hb).2 x rfl hk⟩

/-- C13 (partial).  If the body does not itself touch the model (prediction), then after a normal
exit every parameter of every node reads as before and has the same `has_param` (for covered
parameters, provided `has_param` was True). -/
theorem C13_predict_restores_partial (params : PyDict (Nat × String) V) (h : Heap V A) (self : Addr) (depth : Nat)
    (hac : Acyclic h) (hdepth : h.length < depth) (hu : Usable params h self) (f : Heap V A → R) :
    ∃ h' x, useParams params depth self (fun hin => (hin, .ok (f hin))) h = (h', .ok x) ∧
      ∀ (b : Addr) n, h[b]? = some n → ∃ n', h'[b]? = some n' ∧ OnlyParams n n' ∧
        ∀ k, n'.getParam k = n.getParam k ∧
          ((Covered params h self b k → n.hasParam k = some true) → n'.hasParam k = n.hasParam k) := by
  obtain ⟨hin, s, c⟩ := C13_use_params_partial (R := R) params h self depth hac hdepth hu
  obtain ⟨h', e, r⟩ := c (fun hin => (hin, .ok (f hin))) hin (f hin) rfl (fun b n hn => ⟨n, hn, rfl⟩)
  refine ⟨h', _, e, ?_⟩
  intro b n hn
  obtain ⟨m, a1, a2, a3, a4, a5⟩ := s.node b n hn
  obtain ⟨n', b1, b2, b3, b4⟩ := r.node b n m hn a1
  refine ⟨n', b1, a2.trans b2, ?_⟩
  intro k
  by_cases hk : Covered params h self b k
  · obtain ⟨c1, c2⟩ := b3 k hk
    exact ⟨c2, fun hc => c1.trans (hc hk).symm⟩
  · obtain ⟨c1, c2⟩ := b4 k hk
    obtain ⟨d1, d2⟩ := a5 k hk
    exact ⟨c2.trans d2, fun _ => c1.trans d1⟩

/-- C13 fails on exceptions, always: when the body raises, the model is left exactly as the body
left it, with the temporary parameters still in place. -/
theorem C13_exception_not_restored (params : PyDict (Nat × String) V) (h : Heap V A) (self : Addr) (depth : Nat)
    (hac : Acyclic h) (hdepth : h.length < depth) (hu : Usable params h self) :
    ∃ hin, Swapped params (Covered params h self) h hin ∧
      ∀ (body : Heap V A → Heap V A × Except PyErr R) hout e, body hin = (hout, .error e) →
        useParams params depth self body h = (hout, .error e) := by
  obtain ⟨hin, s, c⟩ := useParams_spec (R := R) params depth self h hu
    (fun k b p => Nat.lt_of_le_of_lt (acyclic_path_bound hac p) hdepth)
  exact ⟨hin, s, fun body hout e hb => (c body hout (.error e) hb).1 e rfl⟩

/-- A model in which layer 1 is shared: it is both a layer of the root and of layer 2. -/
def exUse : Heap Int Int :=
  [{ name := "root", id := 10, layers := [1, 2] },
   { name := "shared", id := 11, layers := [], hasParams := [("W", some ())], params := [((11, "W"), 5)] },
   { name := "mid", id := 12, layers := [1], hasParams := [("b", none)] }]

theorem exUse_acyclic : Acyclic exUse := by
  have hch : ∀ a b, Child exUse a b → (a = 0 ∧ (b = 1 ∨ b = 2)) ∨ (a = 2 ∧ b = 1) := by
    rintro a b ⟨n, hn, hb⟩
    match a with
    | 0 => simp [exUse] at hn; subst hn; simp at hb; exact Or.inl ⟨rfl, hb⟩
    | 1 => simp [exUse] at hn; subst hn; simp at hb
    | 2 => simp [exUse] at hn; subst hn; simp at hb; exact Or.inr ⟨rfl, hb⟩
    | _ + 3 => simp [exUse] at hn
  -- rank strictly decreases
  let rk : Addr → Nat := fun a => if a = 0 then 2 else if a = 2 then 1 else 0
  have hrk : ∀ a b, Child exUse a b → rk b < rk a := by
    intro a b hc
    rcases hch a b hc with ⟨rfl, rfl | rfl⟩ | ⟨rfl, rfl⟩ <;> decide
  intro a ha
  have : ∀ b, Descendant exUse a b → rk b < rk a := by
    intro b hb
    induction hb with
    | single h => exact hrk _ _ h
    | tail _ h ih => exact Nat.lt_trans (hrk _ _ h) ih
  exact Nat.lt_irrefl _ (this a ha)

theorem exUse_usable : Usable [((11, "W"), (7 : Int)), ((99, "x"), 1)] exUse 0 := by
  intro b hb
  have hlt : b = 0 ∨ b = 1 ∨ b = 2 := by
    induction hb with
    | refl => simp
    | @tail c d _ hc _ =>
      obtain ⟨n, hn, hd⟩ := hc
      match c with
      | 0 => simp [exUse] at hn; subst hn; simp at hd; rcases hd with h | h <;> simp [h]
      | 1 => simp [exUse] at hn; subst hn; simp at hd
      | 2 => simp [exUse] at hn; subst hn; simp at hd; simp [hd]
      | _ + 3 => simp [exUse] at hn
  rcases hlt with rfl | rfl | rfl
  · exact ⟨_, rfl, by decide, by simp [Node.paramNames, PyDict.keys]⟩
  · exact ⟨_, rfl, by decide, by
      intro k hk _; simp [Node.paramNames, PyDict.keys] at hk; subst hk; exact ⟨5, by decide⟩⟩
  · exact ⟨_, rfl, by decide, by
      intro k hk hs; simp [Node.paramNames, PyDict.keys] at hk; subst hk; simp [PyDict.get?] at hs⟩

/-- Non-vacuity: the shared parameter reads 7 inside the block and 5 again afterwards. -/
example : useParams [((11, "W"), (7 : Int)), ((99, "x"), 1)] 4 0
    (fun hin => (hin, .ok ((hin[1]?).map (fun n => n.getParam "W")))) exUse = (exUse, .ok (some (.ok 7))) := by decide

/-- ... and still 7 when the body raises. -/
example : (useParams (R := Unit) [((11, "W"), (7 : Int)), ((99, "x"), 1)] 4 0
    (fun hin => (hin, .error .valueError)) exUse).1[1]?.map (fun n => n.getParam "W") = some (.ok 7) := by decide

end Thinc
