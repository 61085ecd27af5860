import Verif.Lemmas.NetWidth
import Verif.Lemmas.InitFrame
/-!
# C79: initialization and shape inference
-/
namespace Thinc
open Spec

/-! ### What is accepted stays accepted -/

theorem leafDims_mono {E : NetEnv} {s s' : NetState} (h : Grows E s s') {id : ℕ} {d : ℕ × ℕ} (hd : leafDims s id = some d) :
    leafDims s' id = some d := by
  unfold leafDims at hd
  split at hd
  · rename_i o i h1 h2 h3
    cases hd
    unfold leafDims
    rw [h.ready id h1, (h.dims id o).1 h2, (h.dims id i).2 h3]
  · cases hd

mutual
theorem width_mono {E : NetEnv} {s s' : NetState} (h : Grows E s s') : ∀ (t : NetNode) {w v : ℕ},
    NetNode.width E s t w = some v → NetNode.width E s' t w = some v
  | .leaf id, w, v, e => by
    rw [NetNode.width] at e ⊢
    cases hd : leafDims s id with
    | none => rw [hd] at e; cases e
    | some d => rw [hd] at e; rw [leafDims_mono h hd]; exact e
  | .plain L, w, v, e => by rw [NetNode.width] at e ⊢; exact e
  | .chain id [], w, v, e => by rw [NetNode.width] at e; cases e
  | .chain id (l :: ls), w, v, e => by
    rw [NetNode.width] at e ⊢
    exact chainWidth_mono h (l :: ls) e
  | .add id ls, w, v, e => by
    rw [NetNode.width] at e ⊢
    cases hw : widths E s ls w with
    | none => rw [hw] at e; cases e
    | some vs => rw [hw] at e; rw [widths_mono h ls hw]; exact e
  | .concatenate id [], w, v, e => by rw [NetNode.width] at e; cases e
  | .concatenate id (l :: ls), w, v, e => by
    rw [NetNode.width] at e ⊢
    cases hw : widths E s (l :: ls) w with
    | none => rw [hw] at e; cases e
    | some vs => rw [hw] at e; rw [widths_mono h (l :: ls) hw]; exact e
  | .residual id l, w, v, e => by
    rw [NetNode.width] at e ⊢
    cases hw : NetNode.width E s l w with
    | none => rw [hw] at e; cases e
    | some u => rw [hw] at e; rw [width_mono h l hw]; exact e
theorem chainWidth_mono {E : NetEnv} {s s' : NetState} (h : Grows E s s') : ∀ (ls : List NetNode) {w v : ℕ},
    chainWidth E s ls w = some v → chainWidth E s' ls w = some v
  | [], w, v, e => by rw [chainWidth] at e ⊢; exact e
  | l :: ls, w, v, e => by
    rw [chainWidth] at e ⊢
    cases hw : NetNode.width E s l w with
    | none => rw [hw] at e; cases e
    | some u => rw [hw] at e; rw [width_mono h l hw]; exact chainWidth_mono h ls e
theorem widths_mono {E : NetEnv} {s s' : NetState} (h : Grows E s s') : ∀ (ls : List NetNode) {w : ℕ} {vs : List ℕ},
    widths E s ls w = some vs → widths E s' ls w = some vs
  | [], w, vs, e => by rw [widths] at e ⊢; exact e
  | l :: ls, w, vs, e => by
    rw [widths] at e ⊢
    cases hw : NetNode.width E s l w with
    | none => rw [hw] at e; cases e
    | some u =>
      cases hws : widths E s ls w with
      | none => rw [hw, hws] at e; cases e
      | some us => rw [hw, hws] at e; rw [width_mono h l hw, widths_mono h ls hws]; exact e
end

theorem predict_of_width {E : NetEnv} {s : NetState} (hs : Sane E s) {t : NetNode} (ht : NetNode.PlainOk t) {X : Mat ℝ} {v : ℕ}
    (h : NetNode.width E s t X.cols = some v) :
    ∃ Y, t.predict E s (.arr X) = .ok (.arr Y) ∧ Y.rows = X.rows ∧ Y.cols = v := by
  obtain ⟨Y, cb, e, h1, h2⟩ := (net_hasWidth hs false t ht X.cols X rfl).1 v h
  exact ⟨Y, by simp only [NetNode.predict, e, bind, Except.bind, pure, Except.pure], h1, h2⟩

theorem width_of_predict {E : NetEnv} {s : NetState} (hs : Sane E s) {t : NetNode} (ht : NetNode.PlainOk t) {X : Mat ℝ} {r : Val}
    (hX : 0 < X.rows) (h : t.predict E s (.arr X) = .ok r) : ∃ v, NetNode.width E s t X.cols = some v := by
  cases hw : NetNode.width E s t X.cols with
  | some v => exact ⟨v, rfl⟩
  | none =>
    obtain ⟨e, he⟩ := (net_hasWidth hs false t ht X.cols X rfl).2 hw hX
    simp only [NetNode.predict, he, bind, Except.bind] at h
    cases h

theorem accepts_iff {E : NetEnv} {s : NetState} (hs : Sane E s) {t : NetNode} (ht : NetNode.PlainOk t) (w v : ℕ) :
    Accepts E s t w v ↔ NetNode.width E s t w = some v := by
  constructor
  · intro h
    obtain ⟨Y, e, h1, h2⟩ := h (Mat.ofFn 1 w fun _ _ => 0) rfl
    obtain ⟨u, hu⟩ := width_of_predict hs ht (X := Mat.ofFn 1 w fun _ _ => 0) Nat.one_pos e
    obtain ⟨Y', e', h1', h2'⟩ := predict_of_width hs ht hu
    rw [e] at e'
    cases e'
    rw [← h2, h2']
    exact hu
  · rintro h X rfl
    exact predict_of_width hs ht h

/-! ### The theorems -/

/-- **C79.**  After `initialize`, whatever the data, every layer with parameters in the network has its dimensions, and its
parameters have the shapes that belong to them; dimensions that were set before keep their values. -/
theorem C79_ready {E : NetEnv} {s s' : NetState} {t : NetNode} {X Y : Option Val} (hs : Sane E s)
    (h : t.initialize E X Y s = .ok s') : (∀ id ∈ NetNode.leaves t, LeafReady E s' id) ∧ KeepsDims s s' := by
  obtain ⟨h1, h2⟩ := initialize_grows t h
  exact ⟨fun id hid => h1.sane hs id (h2 id hid), h1.dims⟩

/-- **C79.**  Whether a network accepts a batch depends on its width only: a network that accepts one batch with at least one
row accepts every batch of this width, and the width of the output is always the same. -/
theorem C79_uniform {E : NetEnv} {s : NetState} {t : NetNode} (hs : Sane E s) (ht : NetNode.PlainOk t) {X : Mat ℝ} {r : Val}
    (hX : 0 < X.rows) (h : t.predict E s (.arr X) = .ok r) :
    ∃ Y : Mat ℝ, r = .arr Y ∧ Y.rows = X.rows ∧ Accepts E s t X.cols Y.cols := by
  obtain ⟨v, hv⟩ := width_of_predict hs ht hX h
  obtain ⟨Y, e, h1, h2⟩ := predict_of_width hs ht hv
  rw [h] at e
  cases e
  exact ⟨Y, rfl, h1, by rw [h2]; exact (accepts_iff hs ht _ _).2 hv⟩

/-- **C79.**  Initializing once more, with whatever data, does not change which batches a network accepts, or the width of
its outputs. -/
theorem C79_reinitialize {E : NetEnv} {s s' : NetState} {t u : NetNode} {X Y : Option Val} (hs : Sane E s) (ht : NetNode.PlainOk t)
    {w v : ℕ} (ha : Accepts E s t w v) (h : u.initialize E X Y s = .ok s') : Accepts E s' t w v := by
  have hg := (initialize_grows u h).1
  exact (accepts_iff (hg.sane hs) ht _ _).2 (width_mono hg t ((accepts_iff hs ht _ _).1 ha))

/-- The loop of `chain`. -/
theorem initChain_width {E : NetEnv} : ∀ {ls : List NetNode} {s : NetState} {X : Mat ℝ} {Y : Option Val}
    {r : Option Val × NetState}, Sane E s → plainOkAll ls → 0 < X.rows → NetNode.initChain E ls (some (.arr X)) Y s = .ok r →
    ∃ Z : Mat ℝ, r.1 = some (.arr Z) ∧ Z.rows = X.rows ∧ chainWidth E r.2 ls X.cols = some Z.cols
  | [], s, X, Y, r, _, _, _, h => by
    rw [NetNode.initChain] at h
    cases h
    exact ⟨X, rfl, rfl, by rw [chainWidth]⟩
  | l :: ls, s, X, Y, r, hs, hp, hX, h => by
    rw [NetNode.initChain] at h
    obtain ⟨a, ha, h⟩ := bind_ok h
    obtain ⟨c, hc, h⟩ := bind_ok h
    have hga := (initialize_grows l ha).1
    have hsa := hga.sane hs
    simp only [plainOkAll] at hp
    simp only [nextInput] at hc
    obtain ⟨v, hv, hc⟩ := bind_ok hc
    cases hc
    obtain ⟨u, hu⟩ := width_of_predict hsa hp.1 hX hv
    obtain ⟨Z, eZ, h1, h2⟩ := predict_of_width hsa hp.1 hu
    rw [hv] at eZ
    cases eZ
    obtain ⟨W, eW, h3, h4⟩ := initChain_width hsa hp.2 (by rw [h1]; exact hX) h
    refine ⟨W, eW, h3.trans h1, ?_⟩
    rw [chainWidth, width_mono (initChain_grows ls h).1 l hu, ← h2]
    exact h4

/-- **C79.**  `initialize` changes nothing but the nodes of the network. -/
theorem C79_frame {E : NetEnv} {s s' : NetState} {t : NetNode} {X Y : Option Val} (h : t.initialize E X Y s = .ok s') (id : ℕ)
    (hid : id ∉ NetNode.ids t) : SameNode s s' id := initialize_frame t h id hid

theorem chain_initialize {E : NetEnv} {s s' : NetState} {id : ℕ} {ls : List NetNode} {X : Val} {Y : Option Val}
    (h : (NetNode.chain id ls).initialize E (some X) Y s = .ok s') :
    ∃ r, NetNode.initChain E ls (some X) Y s = .ok r ∧ chainFinish id ls r.1 r.2 = .ok s' := by
  rw [NetNode.initialize] at h
  obtain ⟨a, ha, h1⟩ := bind_ok h
  obtain ⟨r, hr, h2⟩ := bind_ok h1
  simp only [chainStart, Option.isNone_some, Bool.false_and, Bool.false_eq_true, if_false] at ha
  cases ha
  exact ⟨r, hr, h2⟩

/-- **C79.**  A chain that has been initialized with a batch accepts every batch of this width; if its dimension nO was unset,
it is the width of the outputs. -/
theorem C79_chain {E : NetEnv} {s s' : NetState} {id : ℕ} {ls : List NetNode} {X : Mat ℝ} {Y : Option Val} (hs : Sane E s)
    (ht : plainOkAll ls) (hX : 0 < X.rows) (h : (NetNode.chain id ls).initialize E (some (.arr X)) Y s = .ok s') :
    ∃ v, Accepts E s' (.chain id ls) X.cols v ∧ (id ∉ idsOf ls → s.nO id = some none → s'.nO id = some (some v)) := by
  have hs' := (initialize_grows _ h).1.sane hs
  obtain ⟨r, hr, hf⟩ := chain_initialize h
  obtain ⟨Z, eZ, h1, h2⟩ := initChain_width hs ht hX hr
  have hg : Grows E r.2 s' := chainFinish_grows hf
  refine ⟨Z.cols, ?_, fun hid hn => ?_⟩
  · have hne : ∃ l ls', ls = l :: ls' := by
      cases ls with
      | nil =>
        unfold chainFinish at hf
        obtain ⟨b, hb, -⟩ := bind_ok hf
        cases hb
      | cons l ls => exact ⟨l, ls, rfl⟩
    obtain ⟨l, ls, rfl⟩ := hne
    refine (accepts_iff hs' (by simpa only [NetNode.PlainOk] using ht) _ _).2 ?_
    rw [NetNode.width]
    exact chainWidth_mono hg _ h2
  · have hn : r.2.nO id = some none := (initChain_frame ls hr id hid).1.trans hn
    unfold chainFinish at hf
    obtain ⟨b, hb, hf⟩ := bind_ok hf
    have hbO : b.nO id = some none := by
      unfold NetState.copyI at hb
      split at hb
      · cases hb
      · split at hb
        · obtain ⟨rfl, -⟩ := setI_ok hb
          exact hn
        · cases hb; exact hn
    rw [if_pos hbO, eZ] at hf
    simp only [chainSetO, getWidth] at hf
    obtain ⟨rfl, -⟩ := setO_ok hf
    simp

/-- What the width of the target of a layer says about its dimension nO. -/
def TargetDim (Y : Option Val) (old : Option (Option ℕ)) (o : ℕ) : Prop :=
  match Y with
  | none => old = some (some o)
  | some y => getWidth y = .ok o ∧ (old = some none ∨ old = some (some o))

theorem denseInit_ok {E : NetEnv} {s s' : NetState} {id : ℕ} {X : Mat ℝ} {Y : Option Val}
    (h : denseInit E id (some (.arr X)) Y s = .ok s') :
    s'.ready id = true ∧ s'.nI id = some (some X.cols) ∧ (s.nI id = some none ∨ s.nI id = some (some X.cols)) ∧
      ∃ o, s'.nO id = some (some o) ∧ TargetDim Y (s.nO id) o := by
  have cases3 : ∀ {d : Option (Option ℕ)} {v : ℕ}, (∀ w, d = some (some w) → w = v) → d ≠ none → d = some none ∨ d = some (some v) := by
    intro d v h1 h2
    cases d with
    | none => exact absurd rfl h2
    | some d => cases d with
      | none => exact .inl rfl
      | some w => exact .inr (by rw [h1 w rfl])
  unfold denseInit at h
  obtain ⟨a, ha, h1⟩ := bind_ok h
  obtain ⟨b, hb, h2⟩ := bind_ok h1
  simp only [NetState.inferI, getWidth, bind, Except.bind] at ha
  obtain ⟨rfl, hI, hI'⟩ := setI_ok ha
  unfold NetState.alloc at h2
  obtain ⟨o, ho, h3⟩ := bind_ok h2
  obtain ⟨i, hi, h4⟩ := bind_ok h3
  cases h4
  have ho := dimValue_ok ho
  have hi := dimValue_ok hi
  refine ⟨by simp [NetState.setParams], ?_, cases3 hI hI', o, ho, ?_⟩
  · unfold NetState.inferO at hb
    split at hb
    · cases hb
      simp [NetState.setParams]
    · obtain ⟨w, -, hb⟩ := bind_ok hb
      obtain ⟨rfl, -⟩ := setO_ok hb
      simp [NetState.setParams]
  · cases Y with
    | none =>
      simp only [NetState.inferO] at hb
      cases hb
      exact ho
    | some y =>
      simp only [NetState.inferO] at hb
      obtain ⟨w, hw, hb⟩ := bind_ok hb
      obtain ⟨rfl, hO, hO'⟩ := setO_ok hb
      simp only [if_true, Option.some.injEq] at ho
      subst ho
      exact ⟨hw, cases3 hO hO'⟩

theorem leafInit_dense {E : NetEnv} {id : ℕ} (hk : IsDense (E.kind id)) (X Y : Option Val) (s : NetState) :
    leafInit E id X Y s = denseInit E id X Y s := by
  unfold leafInit
  cases h : E.kind id <;> rw [h] at hk <;> first | rfl | exact hk.elim

theorem width_dense {E : NetEnv} {s : NetState} {id o w : ℕ} (hk : IsDense (E.kind id)) (hr : s.ready id = true)
    (hI : s.nI id = some (some w)) (hO : s.nO id = some (some o)) : NetNode.width E s (.leaf id) w = some o := by
  rw [NetNode.width]
  simp only [leafDims, hr, hI, hO, leafWidth]
  cases h : E.kind id <;> rw [h] at hk <;> first | exact hk.elim | simp

mutual
theorem checked_width {E : NetEnv} : ∀ (t : NetNode) {s s' : NetState} {X : Mat ℝ} {Y : Option Val}, NetNode.Checked E t →
    NetNode.PlainOk t → Sane E s → 0 < X.rows → t.initialize E (some (.arr X)) Y s = .ok s' →
    ∃ v, NetNode.width E s' t X.cols = some v
  | .leaf id, s, s', X, Y, hc, _, _, _, h => by
    rw [NetNode.initialize] at h
    simp only [NetNode.Checked] at hc
    rw [leafInit_dense hc] at h
    obtain ⟨h1, h2, h3, o, h4, -⟩ := denseInit_ok h
    exact ⟨o, width_dense hc h1 h2 h4⟩
  | .plain L, s, s', X, Y, _, _, _, _, _ => ⟨X.cols, by rw [NetNode.width]⟩
  | .chain id ls, s, s', X, Y, _, ht, hs, hX, h => by
    obtain ⟨v, hv, -⟩ := C79_chain hs (by simpa only [NetNode.PlainOk] using ht) hX h
    exact ⟨v, (accepts_iff ((initialize_grows _ h).1.sane hs) ht _ _).1 hv⟩
  | .add _ _, _, _, _, _, hc, _, _, _, _ => by simp only [NetNode.Checked] at hc
  | .concatenate _ [], _, _, _, _, hc, _, _, _, _ => by simp only [NetNode.Checked] at hc
  | .concatenate id (l :: ls), s, s', X, Y, hc, ht, hs, hX, h => by
    rw [NetNode.initialize] at h
    obtain ⟨a, ha, h1⟩ := bind_ok h
    obtain ⟨b, hb, h2⟩ := bind_ok h1
    have hsa : Sane E a := (combInferI_grows (E := E) ha).sane hs
    rw [NetNode.initAll] at hb
    obtain ⟨c, hc1, hb⟩ := bind_ok hb
    simp only [NetNode.Checked] at hc
    simp only [NetNode.PlainOk, plainOkAll] at ht
    obtain ⟨v, hv⟩ := checked_width l hc.1 ht.1 hsa hX hc1
    obtain ⟨vs, hvs⟩ := checkedAll_widths ls hc.2 ht.2 ((initialize_grows l hc1).1.sane hsa) hX hb
    have hv : NetNode.width E b l X.cols = some v := width_mono (initAll_grows ls hb).1 l hv
    have hw : widths E b (l :: ls) X.cols = some (v :: vs) := by
      rw [widths, hv, hvs]
    refine ⟨(v :: vs).sum, width_mono (concatFinish_grows (E := E) h2) _ ?_⟩
    rw [NetNode.width, hw]
    rfl
  | .residual _ _, _, _, _, _, hc, _, _, _, _ => by simp only [NetNode.Checked] at hc
theorem checkedAll_widths {E : NetEnv} : ∀ (ls : List NetNode) {s s' : NetState} {X : Mat ℝ} {Y : Option Val}, checkedAll E ls →
    plainOkAll ls → Sane E s → 0 < X.rows → NetNode.initAll E ls (some (.arr X)) Y s = .ok s' →
    ∃ vs, widths E s' ls X.cols = some vs
  | [], _, _, _, _, _, _, _, _, _ => ⟨[], by rw [widths]⟩
  | l :: ls, s, s', X, Y, hc, ht, hs, hX, h => by
    rw [NetNode.initAll] at h
    obtain ⟨c, hc1, hb⟩ := bind_ok h
    simp only [checkedAll] at hc
    simp only [plainOkAll] at ht
    obtain ⟨v, hv⟩ := checked_width l hc.1 ht.1 hs hX hc1
    obtain ⟨vs, hvs⟩ := checkedAll_widths ls hc.2 ht.2 ((initialize_grows l hc1).1.sane hs) hX hb
    exact ⟨v :: vs, by rw [widths, width_mono (initAll_grows ls hb).1 l hv, hvs]⟩
end

/-- **C79.**  A network of dense layers, chains and concatenations that has been initialized with a batch accepts every batch
of this width.  (Not so for `add`, `residual` and Softmax with dimensions that do not fit; see below.) -/
theorem C79_accepts_partial {E : NetEnv} {s s' : NetState} {t : NetNode} {X : Mat ℝ} {Y : Option Val} (hs : Sane E s)
    (hc : NetNode.Checked E t) (ht : NetNode.PlainOk t) (hX : 0 < X.rows) (h : t.initialize E (some (.arr X)) Y s = .ok s') :
    ∃ v, Accepts E s' t X.cols v := by
  obtain ⟨v, hv⟩ := checked_width t hc ht hs hX h
  exact ⟨v, (accepts_iff ((initialize_grows _ h).1.sane hs) ht _ _).2 hv⟩

/-! ### Shape inference in a chain of dense layers -/

theorem consistent_congr {s a : NetState} {n : Option ℕ} : ∀ {ids : List ℕ} {w : ℕ}, (∀ j ∈ ids, SameNode s a j) →
    (Consistent a n w ids ↔ Consistent s n w ids)
  | [], _, _ => Iff.rfl
  | j :: ids, w, h => by
    obtain ⟨h1, h2, -⟩ := h j (by simp)
    simp only [Consistent, h1, h2]
    refine and_congr Iff.rfl (exists_congr fun o => and_congr Iff.rfl ?_)
    exact consistent_congr fun k hk => h k (by simp [hk])

theorem inferred_congr {s a s' a' : NetState} {n : Option ℕ} : ∀ {ids : List ℕ} {w : ℕ}, (∀ j ∈ ids, SameNode s a j) →
    (∀ j ∈ ids, SameNode s' a' j) → (Inferred a a' n w ids ↔ Inferred s s' n w ids)
  | [], _, _, _ => Iff.rfl
  | j :: ids, w, h, h' => by
    obtain ⟨h1, h2, -⟩ := h j (by simp)
    obtain ⟨h3, h4, -⟩ := h' j (by simp)
    simp only [Inferred, h1, h3, h4]
    refine and_congr Iff.rfl (exists_congr fun o => and_congr Iff.rfl (and_congr Iff.rfl ?_))
    exact inferred_congr (fun k hk => h k (by simp [hk])) (fun k hk => h' k (by simp [hk]))

theorem lastWidth_congr {s a : NetState} : ∀ {ids : List ℕ} {w v : ℕ}, (∀ j ∈ ids, SameNode s a j) →
    (LastWidth a w ids v ↔ LastWidth s w ids v)
  | [], _, _, _ => Iff.rfl
  | j :: ids, w, v, h => by
    obtain ⟨h1, -⟩ := h j (by simp)
    simp only [LastWidth, h1]
    exact exists_congr fun o => and_congr Iff.rfl (lastWidth_congr fun k hk => h k (by simp [hk]))

theorem idsOf_leaves : ∀ ids : List ℕ, idsOf (ids.map .leaf) = ids
  | [] => rfl
  | j :: ids => by
    simp only [List.map_cons, idsOf, NetNode.ids, idsOf_leaves ids]
    rfl

theorem plainOkAll_leaves : ∀ ids : List ℕ, plainOkAll (ids.map .leaf)
  | [] => by simp [plainOkAll]
  | j :: ids => by simp [plainOkAll, NetNode.PlainOk, plainOkAll_leaves ids]

theorem setI_of {s : NetState} {id v : ℕ} (h : s.nI id = some none ∨ s.nI id = some (some v)) :
    s.setI id v = .ok { s with nI := fun i => if i = id then some (some v) else s.nI i } := by
  unfold NetState.setI newDim
  rcases h with h | h <;> rw [h]
  · rfl
  · simp only [if_true]
    rfl

theorem setO_of {s : NetState} {id v : ℕ} (h : s.nO id = some none ∨ s.nO id = some (some v)) :
    s.setO id v = .ok { s with nO := fun i => if i = id then some (some v) else s.nO i } := by
  unfold NetState.setO newDim
  rcases h with h | h <;> rw [h]
  · rfl
  · simp only [if_true]
    rfl

theorem targetFor_outputDim {s : NetState} {id : ℕ} {Y : Option Val} {n : Option ℕ} (hY : WidthOf Y n) {o : ℕ} :
    OutputDim (s.nO id) n o ↔ TargetDim (targetFor s (.leaf id) Y) (s.nO id) o := by
  by_cases h : s.nO id = some none
  · rw [show targetFor s (.leaf id) Y = Y from if_pos h, h]
    cases Y with
    | none =>
      simp only [WidthOf] at hY
      subst hY
      simp [OutputDim, TargetDim]
    | some y =>
      obtain ⟨k, hk, rfl⟩ := hY
      simp [OutputDim, TargetDim, hk]
  · rw [show targetFor s (.leaf id) Y = none from if_neg h]
    simp [OutputDim, TargetDim, h]

theorem denseInit_of {E : NetEnv} {s : NetState} {id : ℕ} {X : Mat ℝ} {Y : Option Val} {o : ℕ}
    (hI : s.nI id = some none ∨ s.nI id = some (some X.cols)) (hO : TargetDim Y (s.nO id) o) :
    ∃ s', denseInit E id (some (.arr X)) Y s = .ok s' := by
  unfold denseInit
  simp only [NetState.inferI, getWidth, bind, Except.bind]
  rw [setI_of hI]
  cases Y with
  | none =>
    simp only [TargetDim] at hO
    simp only [NetState.inferO, NetState.alloc, hO, dimValue, bind, Except.bind, if_true]
    exact ⟨_, rfl⟩
  | some y =>
    simp only [TargetDim] at hO
    simp only [NetState.inferO, hO.1, bind, Except.bind]
    rw [setO_of (by exact hO.2)]
    simp only [NetState.alloc, dimValue, bind, Except.bind, if_true]
    exact ⟨_, rfl⟩

theorem initChain_infers {E : NetEnv} {Y : Option Val} {n : Option ℕ} (hY : WidthOf Y n) : ∀ {ids : List ℕ} {s : NetState}
    {X : Mat ℝ} {r : Option Val × NetState}, Sane E s → ids.Nodup → (∀ j ∈ ids, IsDense (E.kind j)) →
    NetNode.initChain E (ids.map .leaf) (some (.arr X)) Y s = .ok r →
    Consistent s n X.cols ids ∧ Inferred s r.2 n X.cols ids ∧ ∃ Z : Mat ℝ, r.1 = some (.arr Z) ∧ LastWidth r.2 X.cols ids Z.cols
  | [], s, X, r, _, _, _, h => by
    rw [List.map_nil, NetNode.initChain] at h
    cases h
    exact ⟨trivial, trivial, X, rfl, rfl⟩
  | j :: ids, s, X, r, hs, hn, hk, h => by
    obtain ⟨hj, hn⟩ := List.nodup_cons.1 hn
    rw [List.map_cons, NetNode.initChain] at h
    obtain ⟨a, ha, h1⟩ := bind_ok h
    obtain ⟨c, hc, h2⟩ := bind_ok h1
    have hsa : Sane E a := (initialize_grows _ ha).1.sane hs
    have hfa := initialize_frame _ ha
    have hsame : ∀ k ∈ ids, SameNode s a k := fun k hk' => hfa k (by
      simp only [NetNode.ids, List.mem_singleton]
      rintro rfl
      exact hj hk')
    have hfr := initChain_frame _ h2
    rw [idsOf_leaves] at hfr
    obtain ⟨k1, k2, -⟩ := hfr j hj
    rw [NetNode.initialize, leafInit_dense (hk j (by simp))] at ha
    obtain ⟨d1, d2, d3, o, d4, d5⟩ := denseInit_ok ha
    have ho : OutputDim (s.nO j) n o := (targetFor_outputDim hY).2 d5
    obtain ⟨Z, eZ, z1, z2⟩ := predict_of_width hsa (t := .leaf j) (by simp only [NetNode.PlainOk])
      (width_dense (hk j (by simp)) d1 d2 d4)
    simp only [nextInput, eZ, bind, Except.bind, pure, Except.pure] at hc
    cases hc
    obtain ⟨t1, t2, W, eW, t3⟩ := initChain_infers hY hsa hn (fun k hk' => hk k (by simp [hk'])) h2
    rw [z2] at t1 t2 t3
    refine ⟨⟨d3, o, ho, (consistent_congr hsame).1 t1⟩, ⟨k2.trans d2, o, k1.trans d4, ho, ?_⟩, W, eW, o, k1.trans d4, t3⟩
    exact (inferred_congr hsame (fun _ _ => ⟨rfl, rfl, rfl, rfl, rfl⟩)).1 t2

theorem initChain_succeeds {E : NetEnv} {Y : Option Val} {n : Option ℕ} (hY : WidthOf Y n) : ∀ {ids : List ℕ} {s : NetState}
    {X : Mat ℝ}, Sane E s → ids.Nodup → (∀ j ∈ ids, IsDense (E.kind j)) → Consistent s n X.cols ids →
    ∃ r, NetNode.initChain E (ids.map .leaf) (some (.arr X)) Y s = .ok r
  | [], s, X, _, _, _, _ => by
    rw [List.map_nil, NetNode.initChain]
    exact ⟨_, rfl⟩
  | j :: ids, s, X, hs, hn, hk, h => by
    obtain ⟨hj, hn⟩ := List.nodup_cons.1 hn
    obtain ⟨h1, o, h2, h3⟩ := h
    obtain ⟨a, ha⟩ := denseInit_of (E := E) h1 ((targetFor_outputDim hY).1 h2)
    have ha' : NetNode.initialize E (.leaf j) (some (.arr X)) (targetFor s (.leaf j) Y) s = .ok a := by
      rw [NetNode.initialize, leafInit_dense (hk j (by simp))]
      exact ha
    have hsa : Sane E a := (initialize_grows _ ha').1.sane hs
    have hfa := initialize_frame _ ha'
    have hsame : ∀ k ∈ ids, SameNode s a k := fun k hk' => hfa k (by
      simp only [NetNode.ids, List.mem_singleton]
      rintro rfl
      exact hj hk')
    obtain ⟨d1, d2, d3, o', d4, d5⟩ := denseInit_ok ha
    have ho' : OutputDim (s.nO j) n o' := (targetFor_outputDim hY).2 d5
    have : o' = o := by
      unfold OutputDim at h2 ho'
      rcases h2 with h2 | ⟨h2, h2'⟩ <;> rcases ho' with ho' | ⟨ho', ho''⟩
      · rw [h2] at ho'; simpa using ho'.symm
      · rw [h2] at ho'; simp at ho'
      · rw [h2] at ho'; simp at ho'
      · rw [h2'] at ho''; simpa using ho''.symm
    subst this
    obtain ⟨Z, eZ, z1, z2⟩ := predict_of_width hsa (t := .leaf j) (by simp only [NetNode.PlainOk])
      (width_dense (hk j (by simp)) d1 d2 d4)
    obtain ⟨r, hr⟩ := initChain_succeeds hY (X := Z) hsa hn (fun k hk' => hk k (by simp [hk'])) (by
      rw [z2]
      exact (consistent_congr hsame).2 h3)
    refine ⟨r, ?_⟩
    rw [List.map_cons, NetNode.initChain]
    simp only [ha', nextInput, eZ, bind, Except.bind, pure, Except.pure, hr]

/-- **C79.**  Shape inference in a chain of dense layers: given an example of the input, and perhaps one of the output,
`initialize` succeeds exactly if the dimensions that are set agree with each other and with the examples, and every unset nO
can be filled in.  Then nI of the first layer is the width of the input, nI of every other layer is nO of the layer before it,
and an unset nO is the width of the output. -/
theorem C79_inference {E : NetEnv} {s : NetState} {id : ℕ} {ids : List ℕ} {X : Mat ℝ} {Y : Option Val} {n : Option ℕ}
    (hs : Sane E s) (hne : ids ≠ []) (hn : (id :: ids).Nodup) (hk : ∀ j ∈ ids, IsDense (E.kind j)) (hY : WidthOf Y n) :
    ((∃ s', (NetNode.chain id (ids.map .leaf)).initialize E (some (.arr X)) Y s = .ok s') ↔
      (s.nI id = some none ∨ s.nI id = some (some X.cols)) ∧ Consistent s n X.cols ids) ∧
    ∀ s', (NetNode.chain id (ids.map .leaf)).initialize E (some (.arr X)) Y s = .ok s' →
      Inferred s s' n X.cols ids ∧ s'.nI id = some (some X.cols) ∧
      (s.nO id = some none → ∃ v, s'.nO id = some (some v) ∧ LastWidth s' X.cols ids v) := by
  obtain ⟨hid, hn⟩ := List.nodup_cons.1 hn
  obtain ⟨j, rest, rfl⟩ : ∃ j rest, ids = j :: rest := by
    cases ids with
    | nil => exact absurd rfl hne
    | cons j rest => exact ⟨j, rest, rfl⟩
  have hji : j ≠ id := fun h => hid (by simp [h])
  -- the end of `init`
  have fin1 : ∀ {r : Option Val × NetState} {s' : NetState} {Z : Mat ℝ}, r.2.nI j = some (some X.cols) → r.1 = some (.arr Z) →
      chainFinish id (List.map .leaf (j :: rest)) r.1 r.2 = .ok s' →
      (r.2.nI id = some none ∨ r.2.nI id = some (some X.cols)) ∧ s'.nI id = some (some X.cols) ∧
      (r.2.nO id = some none → s'.nO id = some (some Z.cols)) ∧ ∀ k ∈ j :: rest, SameNode r.2 s' k := by
    intro r s' Z hr hZ h
    have hfr := chainFinish_frame h
    unfold chainFinish at h
    obtain ⟨b, hb, h1⟩ := bind_ok h
    simp only [NetState.copyI, List.map_cons, List.head?_cons, NetNode.dimI, hr] at hb
    obtain ⟨rfl, hI, hI'⟩ := setI_ok hb
    refine ⟨?_, ?_, fun hO => ?_, fun k hk => hfr k (by simp only [List.mem_singleton]; rintro rfl; exact hid hk)⟩
    · cases e : r.2.nI id with
      | none => exact absurd e hI'
      | some d => cases d with
        | none => exact .inl rfl
        | some w => exact .inr (by rw [hI w e])
    · split at h1
      · rw [hZ] at h1
        simp only [chainSetO, getWidth] at h1
        obtain ⟨rfl, -⟩ := setO_ok h1
        simp
      · cases h1
        simp
    · rw [if_pos (by exact hO), hZ] at h1
      simp only [chainSetO, getWidth] at h1
      obtain ⟨rfl, -⟩ := setO_ok h1
      simp
  have fin2 : ∀ {r : Option Val × NetState} {Z : Mat ℝ}, r.2.nI j = some (some X.cols) → r.1 = some (.arr Z) →
      (r.2.nI id = some none ∨ r.2.nI id = some (some X.cols)) → ∃ s', chainFinish id (List.map .leaf (j :: rest)) r.1 r.2 = .ok s' := by
    intro r Z hr hZ hI
    unfold chainFinish
    simp only [NetState.copyI, List.map_cons, List.head?_cons, NetNode.dimI, hr]
    rw [setI_of hI]
    simp only [bind, Except.bind]
    split
    · rename_i hO
      rw [hZ]
      simp only [chainSetO, getWidth]
      rw [setO_of (.inl (by exact hO))]
      exact ⟨_, rfl⟩
    · exact ⟨_, rfl⟩
  have main : ∀ s', (NetNode.chain id (List.map .leaf (j :: rest))).initialize E (some (.arr X)) Y s = .ok s' →
      ((s.nI id = some none ∨ s.nI id = some (some X.cols)) ∧ Consistent s n X.cols (j :: rest)) ∧
      Inferred s s' n X.cols (j :: rest) ∧ s'.nI id = some (some X.cols) ∧
      (s.nO id = some none → ∃ v, s'.nO id = some (some v) ∧ LastWidth s' X.cols (j :: rest) v) := by
    intro s' h
    obtain ⟨r, hr, hf⟩ := chain_initialize h
    obtain ⟨t1, t2, Z, eZ, t3⟩ := initChain_infers hY hs hn hk hr
    have hfr := initChain_frame _ hr
    rw [idsOf_leaves] at hfr
    obtain ⟨f1, f2, -⟩ := hfr id hid
    obtain ⟨g1, g2, g3, g4⟩ := fin1 t2.1 eZ hf
    rw [f2] at g1
    rw [f1] at g3
    refine ⟨⟨g1, t1⟩, (inferred_congr (fun _ _ => ⟨rfl, rfl, rfl, rfl, rfl⟩) g4).2 t2, g2, fun hO => ⟨Z.cols, g3 hO, ?_⟩⟩
    exact (lastWidth_congr g4).2 t3
  refine ⟨⟨fun ⟨s', h⟩ => (main s' h).1, fun ⟨h1, h2⟩ => ?_⟩, fun s' h => (main s' h).2⟩
  obtain ⟨r, hr⟩ := initChain_succeeds hY hs hn hk h2
  obtain ⟨t1, t2, Z, eZ, t3⟩ := initChain_infers hY hs hn hk hr
  have hfr := initChain_frame _ hr
  rw [idsOf_leaves] at hfr
  obtain ⟨f1, f2, -⟩ := hfr id hid
  obtain ⟨s', hs'⟩ := fin2 t2.1 eZ (by rw [f2]; exact h1)
  refine ⟨s', ?_⟩
  rw [NetNode.initialize]
  simp only [chainStart, Option.isNone_some, Bool.false_and, Bool.false_eq_true, if_false, bind, Except.bind, hr, hs']

theorem consistent_of_inferred {s s' : NetState} {n : Option ℕ} : ∀ {ids : List ℕ} {w : ℕ}, Inferred s s' n w ids →
    Consistent s' n w ids
  | [], _, _ => trivial
  | _ :: _, _, ⟨h1, o, h2, _, h4⟩ => ⟨.inr h1, o, .inl h2, consistent_of_inferred h4⟩

/-- **C79.**  A chain of dense layers that has been initialized can be initialized again with data of the same widths. -/
theorem C79_again {E : NetEnv} {s s' : NetState} {id : ℕ} {ids : List ℕ} {X X' : Mat ℝ} {Y Y' : Option Val} {n : Option ℕ}
    (hs : Sane E s) (hne : ids ≠ []) (hn : (id :: ids).Nodup) (hk : ∀ j ∈ ids, IsDense (E.kind j)) (hY : WidthOf Y n)
    (hY' : WidthOf Y' n) (hX : X'.cols = X.cols)
    (h : (NetNode.chain id (ids.map .leaf)).initialize E (some (.arr X)) Y s = .ok s') :
    ∃ s'', (NetNode.chain id (ids.map .leaf)).initialize E (some (.arr X')) Y' s' = .ok s'' ∧ KeepsDims s' s'' := by
  obtain ⟨h1, h2, -⟩ := (C79_inference hs hne hn hk hY).2 s' h
  have hs' := (initialize_grows _ h).1.sane hs
  obtain ⟨s'', h''⟩ := (C79_inference (X := X') hs' hne hn hk hY').1.2 ⟨.inr (by rw [hX]; exact h2), by
    rw [hX]; exact consistent_of_inferred h1⟩
  exact ⟨s'', h'', (initialize_grows _ h'').1.dims⟩

/-! ### Widths -/

theorem foldl_max_isGreatest : ∀ (ks : List ℤ) (k : ℤ), ks.foldl max k ∈ k :: ks ∧ ∀ j ∈ k :: ks, j ≤ ks.foldl max k
  | [], k => by simp
  | a :: ks, k => by
    obtain ⟨h1, h2⟩ := foldl_max_isGreatest ks (max k a)
    rw [List.foldl_cons]
    constructor
    · rcases List.mem_cons.1 h1 with h | h
      · rw [h]
        rcases max_choice k a with h | h <;> simp [h]
      · simp [h]
    · intro j hj
      have hm := h2 (max k a) (by simp)
      rcases List.mem_cons.1 hj with rfl | hj
      · exact (le_max_left _ _).trans hm
      · rcases List.mem_cons.1 hj with rfl | hj
        · exact (le_max_right _ _).trans hm
        · exact h2 j (by simp [hj])

/-- **C79.**  The width of a batch: the number of columns of an array, `Ragged` or `Padded`; for identifiers one more than the
largest of them, the width of their one-hot encoding; for a list or tuple that of its first member, and 0 if it has none.  An
array without identifiers raises. -/
theorem C79_get_width :
    (∀ A : Mat ℝ, getWidth (.arr A) = .ok A.cols) ∧ (∀ (A : Mat ℝ) ls, getWidth (.ragged A ls) = .ok A.cols) ∧
    (∀ (A : Mat ℝ) n s l i, getWidth (.padded A n s l i) = .ok A.cols) ∧ (∀ A : Mat ℤ, getWidth (.intMat A) = .ok A.cols) ∧
    (∀ (ks : List ℤ) (w : ℕ), (w : ℤ) - 1 ∈ ks → (∀ k ∈ ks, k < w) → getWidth (.ints ks) = .ok w) ∧
    (∀ v vs, getWidth (.list (v :: vs)) = getWidth v) ∧ (∀ v vs, getWidth (.tup (v :: vs)) = getWidth v) ∧
    getWidth (.list []) = .ok 0 ∧ getWidth (.tup []) = .ok 0 ∧ getWidth (.ints []) = .error .valueError := by
  refine ⟨fun _ => by rw [getWidth], fun _ _ => by rw [getWidth], fun _ _ _ _ _ => by rw [getWidth], fun _ => by rw [getWidth], ?_,
    fun _ _ => by rw [getWidth], fun _ _ => by rw [getWidth], by rw [getWidth], by rw [getWidth], by rw [getWidth]⟩
  intro ks w hw hlt
  cases ks with
  | nil => simp at hw
  | cons k ks =>
    obtain ⟨h1, h2⟩ := foldl_max_isGreatest ks k
    have a := h2 _ hw
    have b := hlt _ h1
    rw [getWidth]
    congr 1
    omega

theorem sumDims_eq {s : NetState} : ∀ {ls : List NetNode} {vs : List ℕ},
    List.Forall₂ (fun l v => NetNode.dimO s l = some (some v)) ls vs → sumDims s ls = some vs.sum
  | _, _, .nil => by rw [sumDims]; rfl
  | _, _, .cons h hs => by rw [sumDims, h]; simp [sumDims_eq hs]

theorem dimO_congr {s s' : NetState} {l : NetNode} (h : ∀ i ∈ NetNode.ids l, s'.nO i = s.nO i) : l.dimO s' = l.dimO s := by
  cases l <;> simp only [NetNode.dimO] <;> first | rfl | exact h _ (by simp [NetNode.ids])

theorem mem_idsOf : ∀ {ls : List NetNode} {l : NetNode} {i : ℕ}, l ∈ ls → i ∈ NetNode.ids l → i ∈ idsOf ls
  | [], _, _, h, _ => by simp at h
  | l' :: ls, l, i, hl, hi => by
    rw [idsOf, List.mem_append]
    rcases List.mem_cons.1 hl with rfl | hl
    · exact .inl hi
    · exact .inr (mem_idsOf hl hi)

theorem dims_congr {s s' : NetState} : ∀ {ls : List NetNode} {vs : List ℕ},
    List.Forall₂ (fun l v => NetNode.dimO s l = some (some v)) ls vs → (∀ l ∈ ls, NetNode.dimO s' l = NetNode.dimO s l) →
    List.Forall₂ (fun l v => NetNode.dimO s' l = some (some v)) ls vs
  | _, _, .nil, _ => .nil
  | _, _, .cons h hs, hc => .cons ((hc _ (by simp)).trans h) (dims_congr hs fun l hl => hc l (by simp [hl]))

/-- **C79.**  After the initialization of a concatenation whose layers all have the dimension nO, its own nO is the sum of
theirs. -/
theorem C79_concatenate {E : NetEnv} {s s' : NetState} {id : ℕ} {ls : List NetNode} {X Y : Option Val} (hid : id ∉ idsOf ls)
    (h : (NetNode.concatenate id ls).initialize E X Y s = .ok s') {vs : List ℕ}
    (hvs : List.Forall₂ (fun l v => NetNode.dimO s' l = some (some v)) ls vs) : s'.nO id = some (some vs.sum) := by
  rw [NetNode.initialize] at h
  obtain ⟨a, _, h⟩ := bind_ok h
  obtain ⟨b, _, h⟩ := bind_ok h
  have hmem : ∀ l ∈ ls, ∀ i ∈ NetNode.ids l, i ≠ id := by
    intro l hl i hi
    rintro rfl
    exact hid (mem_idsOf hl hi)
  have hsame : ∀ i, i ≠ id → s'.nO i = b.nO i := by
    intro i hi
    unfold concatFinish at h
    split at h
    · unfold NetState.setO at h
      obtain ⟨d, _, h⟩ := bind_ok h
      cases h
      simp [hi]
    · cases h; rfl
  have hvs' : List.Forall₂ (fun l v => NetNode.dimO b l = some (some v)) ls vs :=
    dims_congr hvs fun l hl => (dimO_congr fun i hi => hsame i (hmem l hl i hi)).symm
  unfold concatFinish at h
  rw [sumDims_eq hvs'] at h
  dsimp only at h
  unfold NetState.setO at h
  obtain ⟨d, hd, h⟩ := bind_ok h
  cases h
  simp only [if_true]
  unfold newDim at hd
  split at hd
  · cases hd
  · cases hd; rfl
  · split at hd
    · cases hd; rfl
    · cases hd

theorem NetNode.setI_sets {l : NetNode} {s s' : NetState} {w : ℕ} (h : l.setI s w = .ok s') :
    l.dimI s' = some (some w) ∧ s'.nO = s.nO ∧ ∀ i, s.nI i ≠ none → s'.nI i ≠ none := by
  have key : ∀ {id : ℕ}, s.setI id w = .ok s' → s'.nI id = some (some w) ∧ s'.nO = s.nO ∧ ∀ i, s.nI i ≠ none → s'.nI i ≠ none := by
    intro id h
    obtain ⟨rfl, -, -⟩ := setI_ok h
    refine ⟨by simp, rfl, fun i hi => ?_⟩
    by_cases e : i = id <;> simp [e] <;> simpa [e] using hi
  cases l with
  | plain L => cases h
  | _ => exact key h

theorem NetNode.setO_sets {l : NetNode} {s s' : NetState} {w : ℕ} (h : l.setO s w = .ok s') :
    l.dimO s' = some (some w) ∧ ∀ i, s.nO i ≠ none → s'.nO i ≠ none := by
  have key : ∀ {id : ℕ}, s.setO id w = .ok s' → s'.nO id = some (some w) ∧ ∀ i, s.nO i ≠ none → s'.nO i ≠ none := by
    intro id h
    obtain ⟨rfl, -, -⟩ := setO_ok h
    refine ⟨by simp, fun i hi => ?_⟩
    by_cases e : i = id <;> simp [e] <;> simpa [e] using hi
  cases l with
  | plain L => cases h
  | _ => exact key h

theorem dimI_keeps {E : NetEnv} {s s' : NetState} (h : Grows E s s') {l : NetNode} {w : ℕ} (e : l.dimI s = some (some w)) :
    l.dimI s' = some (some w) := by
  cases l with
  | plain L => cases e
  | _ => exact (h.dims _ _).2 e

theorem dimO_keeps {E : NetEnv} {s s' : NetState} (h : Grows E s s') {l : NetNode} {w : ℕ} (e : l.dimO s = some (some w)) :
    l.dimO s' = some (some w) := by
  cases l with
  | plain L => cases e
  | _ => exact (h.dims _ _).1 e

theorem dimI_some {s s' : NetState} (h : ∀ i, s.nI i ≠ none → s'.nI i ≠ none) {l : NetNode} (e : l.dimI s ≠ none) : l.dimI s' ≠ none := by
  cases l with
  | plain L => exact absurd rfl e
  | _ => exact h _ e

theorem dimO_some {s s' : NetState} (h : ∀ i, s.nO i ≠ none → s'.nO i ≠ none) {l : NetNode} (e : l.dimO s ≠ none) : l.dimO s' ≠ none := by
  cases l with
  | plain L => exact absurd rfl e
  | _ => exact h _ e

theorem setAllI_sets (E : NetEnv) {w : ℕ} : ∀ {ls : List NetNode} {s s' : NetState}, setAllI w ls s = .ok s' →
    s'.nO = s.nO ∧ ∀ l ∈ ls, l.dimI s ≠ none → l.dimI s' = some (some w)
  | [], s, s', h => by cases h; exact ⟨rfl, by simp⟩
  | l :: ls, s, s', h => by
    unfold setAllI at h
    obtain ⟨a, ha, h⟩ := bind_ok h
    obtain ⟨i1, i2⟩ := setAllI_sets E h
    have hg : Grows E a s' := setAllI_grows h
    unfold NetNode.setIIfAny at ha
    split at ha
    · rename_i hn
      cases ha
      refine ⟨i1, fun l' hl' hd => ?_⟩
      rcases List.mem_cons.1 hl' with rfl | hl'
      · exact absurd hn hd
      · exact i2 l' hl' hd
    · obtain ⟨j1, j2, j3⟩ := NetNode.setI_sets ha
      refine ⟨i1.trans j2, fun l' hl' hd => ?_⟩
      rcases List.mem_cons.1 hl' with rfl | hl'
      · exact dimI_keeps hg j1
      · exact i2 l' hl' (dimI_some j3 hd)

theorem setAllO_sets (E : NetEnv) {w : ℕ} : ∀ {ls : List NetNode} {s s' : NetState}, setAllO w ls s = .ok s' →
    ∀ l ∈ ls, l.dimO s ≠ none → l.dimO s' = some (some w)
  | [], s, s', h => by simp
  | l :: ls, s, s', h => by
    unfold setAllO at h
    obtain ⟨a, ha, h⟩ := bind_ok h
    have i2 := setAllO_sets E h
    have hg : Grows E a s' := setAllO_grows h
    unfold NetNode.setOIfAny at ha
    split at ha
    · rename_i hn
      cases ha
      intro l' hl' hd
      rcases List.mem_cons.1 hl' with rfl | hl'
      · exact absurd hn hd
      · exact i2 l' hl' hd
    · obtain ⟨j1, j3⟩ := NetNode.setO_sets ha
      intro l' hl' hd
      rcases List.mem_cons.1 hl' with rfl | hl'
      · exact dimO_keeps hg j1
      · exact i2 l' hl' (dimO_some j3 hd)

theorem combInferI_sets (E : NetEnv) {s s' : NetState} {id : ℕ} {ls : List NetNode} {X : Mat ℝ}
    (h : combInferI id ls (some (.arr X)) s = .ok s') :
    s'.nO = s.nO ∧ (∀ l ∈ ls, l.dimI s ≠ none → l.dimI s' = some (some X.cols)) ∧ (s.nI id ≠ none → s'.nI id = some (some X.cols)) := by
  unfold combInferI at h
  obtain ⟨w, hw, h⟩ := bind_ok h
  obtain rfl : X.cols = w := by simpa [getWidth] using hw
  obtain ⟨a, ha, h⟩ := bind_ok h
  obtain ⟨i1, i2⟩ := setAllI_sets E h
  have hg : Grows E a s' := setAllI_grows h
  unfold NetState.setIIfAny at ha
  split at ha
  · rename_i hn
    cases ha
    exact ⟨i1, i2, fun hd => absurd hn hd⟩
  · obtain ⟨j1, j2, j3⟩ := NetNode.setI_sets (l := .leaf id) ha
    exact ⟨i1.trans j2, fun l hl hd => i2 l hl (dimI_some j3 hd), fun _ => (hg.dims _ _).2 j1⟩

theorem addInferO_sets (E : NetEnv) {s s' : NetState} {id : ℕ} {ls : List NetNode} {Y : Mat ℝ}
    (h : addInferO id ls (some (.arr Y)) s = .ok s') :
    (∀ l ∈ ls, l.dimO s ≠ none → l.dimO s' = some (some Y.cols)) ∧ (s.nO id ≠ none → s'.nO id = some (some Y.cols)) := by
  unfold addInferO at h
  obtain ⟨w, hw, h⟩ := bind_ok h
  obtain rfl : Y.cols = w := by simpa [getWidth] using hw
  obtain ⟨a, ha, h⟩ := bind_ok h
  have i2 := setAllO_sets E h
  have hg : Grows E a s' := setAllO_grows h
  unfold NetState.setOIfAny at ha
  split at ha
  · rename_i hn
    cases ha
    exact ⟨i2, fun hd => absurd hn hd⟩
  · obtain ⟨j1, j3⟩ := NetNode.setO_sets (l := .leaf id) ha
    exact ⟨fun l hl hd => i2 l hl (dimO_some j3 hd), fun _ => (hg.dims _ _).1 j1⟩

/-- **C79.**  After the initialization of a sum or a concatenation with an input, the sum or concatenation and all of its layers that
have the dimension nI have it set to the width of the input. -/
theorem C79_layers_input {E : NetEnv} {s s' : NetState} {id : ℕ} {ls : List NetNode} {X : Mat ℝ} {Y : Option Val} {t : NetNode}
    (ht : t = .add id ls ∨ t = .concatenate id ls) (h : t.initialize E (some (.arr X)) Y s = .ok s') :
    (∀ l ∈ ls, l.dimI s ≠ none → l.dimI s' = some (some X.cols)) ∧ (s.nI id ≠ none → s'.nI id = some (some X.cols)) := by
  rcases ht with rfl | rfl
  · rw [NetNode.initialize] at h
    obtain ⟨a, ha, h⟩ := bind_ok h
    obtain ⟨b, hb, h⟩ := bind_ok h
    obtain ⟨c, hc, h⟩ := bind_ok h
    have hg : Grows E a s' := (addInferO_grows hb).trans ((initAll_grows ls hc).1.trans (addFinish_grows h))
    obtain ⟨-, i1, i2⟩ := combInferI_sets E ha
    exact ⟨fun l hl hd => dimI_keeps hg (i1 l hl hd), fun hd => (hg.dims _ _).2 (i2 hd)⟩
  · rw [NetNode.initialize] at h
    obtain ⟨a, ha, h⟩ := bind_ok h
    obtain ⟨c, hc, h⟩ := bind_ok h
    have hg : Grows E a s' := (initAll_grows ls hc).1.trans (concatFinish_grows h)
    obtain ⟨-, i1, i2⟩ := combInferI_sets E ha
    exact ⟨fun l hl hd => dimI_keeps hg (i1 l hl hd), fun hd => (hg.dims _ _).2 (i2 hd)⟩

/-- **C79.**  After the initialization of a sum with an input and an output, the sum and all of its layers that have the dimension nO
have it set to the width of the output. -/
theorem C79_layers_output {E : NetEnv} {s s' : NetState} {id : ℕ} {ls : List NetNode} {X Y : Mat ℝ}
    (h : (NetNode.add id ls).initialize E (some (.arr X)) (some (.arr Y)) s = .ok s') :
    (∀ l ∈ ls, l.dimO s ≠ none → l.dimO s' = some (some Y.cols)) ∧ (s.nO id ≠ none → s'.nO id = some (some Y.cols)) := by
  rw [NetNode.initialize] at h
  obtain ⟨a, ha, h⟩ := bind_ok h
  obtain ⟨b, hb, h⟩ := bind_ok h
  obtain ⟨c, hc, h⟩ := bind_ok h
  have hg : Grows E b s' := (initAll_grows ls hc).1.trans (addFinish_grows h)
  obtain ⟨i0, -, -⟩ := combInferI_sets E ha
  obtain ⟨i1, i2⟩ := addInferO_sets E hb
  have e : ∀ i, s.nO i ≠ none → a.nO i ≠ none := fun i hi => by rw [i0]; exact hi
  exact ⟨fun l hl hd => dimO_keeps hg (i1 l hl (dimO_some e hd)), fun hd => (hg.dims _ _).1 (i2 (e _ hd))⟩

/-! ### Examples, and what initialization does not check -/


theorem keepsShape_noop : KeepsShape noop := fun _ _ X => ⟨X, _, rfl, rfl, rfl⟩

theorem keepsShape_logistic : KeepsShape logisticLayer := fun _ _ X => ⟨_, _, rfl, rfl, rfl⟩

/-- Linear layers; the layers 5 and 6 are Softmax layers. -/
noncomputable def exNetEnv : NetEnv := ⟨fun id => if id = 5 ∨ id = 6 then .softmax 1 else .linear, fun _ _ _ => 1⟩

/-- Nothing is initialized; some nodes have nO. -/
noncomputable def exNetState (nO : ℕ → Option ℕ) : NetState := ⟨fun id => some (nO id), fun _ => some none, fun _ => Mat.ofFn 0 0 fun _ _ => 0, fun _ => false, 0⟩

theorem exNetState_sane (nO : ℕ → Option ℕ) : Sane exNetEnv (exNetState nO) := fun _ h => by cases h

/-- Two rows of width 3. -/
noncomputable def exNetX : Mat ℝ := Mat.ofFn 2 3 fun _ _ => 1

/-- chain(Linear(4), Linear(5), Linear()).initialize(X, Y) with X of width 3 and Y of width 7 -/
example : ∃ s', (NetNode.chain 9 ([0, 1, 2].map .leaf)).initialize exNetEnv (some (.arr exNetX)) (some (.arr (Mat.ofFn 2 7 fun _ _ => 0)))
      (exNetState fun id => if id = 0 then some 4 else if id = 1 then some 5 else none) = .ok s' ∧
    s'.nI 0 = some (some 3) ∧ s'.nI 1 = some (some 4) ∧ s'.nI 2 = some (some 5) ∧ s'.nO 2 = some (some 7) ∧ s'.nO 9 = some (some 7) := by
  obtain ⟨h1, h2⟩ := C79_inference (E := exNetEnv) (id := 9) (ids := [0, 1, 2]) (X := exNetX) (n := some 7)
    (Y := some (.arr (Mat.ofFn 2 7 fun _ _ => 0)))
    (exNetState_sane fun id => if id = 0 then some 4 else if id = 1 then some 5 else none) (by simp) (by simp)
    (fun j hj => by simp at hj; rcases hj with rfl | rfl | rfl <;> simp [exNetEnv, IsDense]) ⟨7, rfl, rfl⟩
  obtain ⟨s', h⟩ := h1.2 ⟨.inl rfl, .inl rfl, 4, .inl rfl, .inl rfl, 5, .inl rfl, .inl rfl, 7, .inr ⟨rfl, rfl⟩, trivial⟩
  obtain ⟨⟨k1, o1, k2, k3, k4, o2, k5, k6, k7, o3, k8, k9, -⟩, k10, k11⟩ := h2 s' h
  obtain rfl : o1 = 4 := by rcases k3 with k | ⟨k, -⟩ <;> simp [exNetState] at k; exact k.symm
  obtain rfl : o2 = 5 := by rcases k6 with k | ⟨k, -⟩ <;> simp [exNetState] at k; exact k.symm
  obtain rfl : o3 = 7 := by rcases k9 with k | ⟨-, k⟩ <;> simp [exNetState] at k; exact k.symm
  obtain ⟨v, hv, o1, e1, o2, e2, o3, e3, rfl⟩ := k11 rfl
  rw [k8] at e3
  exact ⟨s', h, k1, k4, k7, k8, by rw [hv]; exact e3.symm⟩

/-- Initialization without an example of the output does not succeed if the last layer has no nO. -/
example : ¬∃ s', (NetNode.chain 9 ([0, 1].map .leaf)).initialize exNetEnv (some (.arr exNetX)) none
      (exNetState fun id => if id = 0 then some 4 else none) = .ok s' := by
  intro h
  obtain ⟨-, -, o, -, -, o', h, -⟩ := (C79_inference (E := exNetEnv) (n := none) (exNetState_sane _) (by simp) (by simp)
    (fun j hj => by simp at hj; rcases hj with rfl | rfl <;> simp [exNetEnv, IsDense]) (show WidthOf none none from rfl)).1.1 h
  rcases h with h | ⟨-, h⟩ <;> simp [exNetState] at h

theorem okElim {α : Type} {r : Except PyErr α} {Q : α → Prop} (h : match r with
      | .ok a => Q a
      | .error _ => False) : ∃ a, r = .ok a ∧ Q a := by
  cases r with
  | ok a => exact ⟨a, rfl, h⟩
  | error e => exact h.elim

/-- No batch with at least one row is accepted. -/
def AcceptsNothing (E : NetEnv) (s : NetState) (t : NetNode) : Prop :=
  ∀ X : Mat ℝ, 0 < X.rows → ∃ e, t.predict E s (.arr X) = .error e

theorem acceptsNothing_of {E : NetEnv} {s : NetState} (hs : Sane E s) {t : NetNode} (ht : NetNode.PlainOk t)
    (h : ∀ w, NetNode.width E s t w = none) : AcceptsNothing E s t := by
  intro X hX
  obtain ⟨e, he⟩ := (net_hasWidth hs false t ht X.cols X rfl).2 (h _) hX
  exact ⟨e, by simp only [NetNode.predict, he, bind, Except.bind]⟩

/-- `add(Linear(3), Linear(4)).initialize(X)` succeeds, but the network accepts nothing. -/
theorem C79_add_unchecked : ∃ s', (NetNode.add 9 [.leaf 0, .leaf 1]).initialize exNetEnv (some (.arr exNetX)) none
      (exNetState fun id => if id = 0 then some 3 else if id = 1 then some 4 else none) = .ok s' ∧
    AcceptsNothing exNetEnv s' (.add 9 [.leaf 0, .leaf 1]) := by
  have h : ∃ s', (NetNode.add 9 [.leaf 0, .leaf 1]).initialize exNetEnv (some (.arr exNetX)) none
      (exNetState fun id => if id = 0 then some 3 else if id = 1 then some 4 else none) = .ok s' ∧
      leafDims s' 0 = some (3, 3) ∧ leafDims s' 1 = some (4, 3) := by
    refine okElim ?_
    exact ⟨rfl, rfl⟩
  obtain ⟨s', h, h1, h2⟩ := h
  refine ⟨s', h, acceptsNothing_of ((initialize_grows _ h).1.sane (exNetState_sane _)) (by simp [NetNode.PlainOk, plainOkAll]) fun w => ?_⟩
  simp only [NetNode.width, widths, h1, h2, exNetEnv, leafWidth]
  by_cases hw : w = 3 <;> simp [hw, sumWidth]

/-- `add(Linear(), Linear()).initialize(X, Y)` meets the hypotheses of `C79_layers_input` and `C79_layers_output`. -/
example : ∃ s', (NetNode.add 9 [.leaf 0, .leaf 1]).initialize exNetEnv (some (.arr exNetX)) (some (.arr (Mat.ofFn 2 7 fun _ _ => 0)))
    (exNetState fun _ => none) = .ok s' ∧ leafDims s' 0 = some (7, 3) ∧ leafDims s' 1 = some (7, 3) := by
  refine okElim ?_
  exact ⟨rfl, rfl⟩

/-- `residual(Linear(4)).initialize(X)` with X of width 3 succeeds, but the network does not accept X. -/
theorem C79_residual_unchecked : ∃ s', (NetNode.residual 9 (.leaf 0)).initialize exNetEnv (some (.arr exNetX)) none
      (exNetState fun id => if id = 0 then some 4 else none) = .ok s' ∧
    AcceptsNothing exNetEnv s' (.residual 9 (.leaf 0)) := by
  have h : ∃ s', (NetNode.residual 9 (.leaf 0)).initialize exNetEnv (some (.arr exNetX)) none
      (exNetState fun id => if id = 0 then some 4 else none) = .ok s' ∧ leafDims s' 0 = some (4, 3) := by
    refine okElim ?_
    exact rfl
  obtain ⟨s', h, h1⟩ := h
  refine ⟨s', h, acceptsNothing_of ((initialize_grows _ h).1.sane (exNetState_sane _)) (by simp [NetNode.PlainOk]) fun w => ?_⟩
  simp only [NetNode.width, h1, exNetEnv, leafWidth]
  by_cases hw : w = 3 <;> simp [hw, residualWidth]

/-- A Softmax layer whose dimension nI is set accepts an example of another width in `initialize`, but not in `predict`. -/
theorem C79_softmax_unchecked : ∃ s', (NetNode.leaf 5).initialize exNetEnv (some (.arr exNetX)) none
      { exNetState (fun _ => some 2) with nI := fun _ => some (some 8) } = .ok s' ∧
    ∃ e, (NetNode.leaf 5).predict exNetEnv s' (.arr exNetX) = .error e := by
  have h : ∃ s', (NetNode.leaf 5).initialize exNetEnv (some (.arr exNetX)) none
      { exNetState (fun _ => some 2) with nI := fun _ => some (some 8) } = .ok s' ∧ leafDims s' 5 = some (2, 8) := by
    refine okElim ?_
    exact rfl
  obtain ⟨s', h, h1⟩ := h
  refine ⟨s', h, ?_⟩
  obtain ⟨e, he⟩ := (net_hasWidth ((initialize_grows _ h).1.sane fun _ h => by cases h) false (.leaf 5)
    (by simp [NetNode.PlainOk]) 3 exNetX rfl).2 (by simp [NetNode.width, h1, exNetEnv, leafWidth]) Nat.two_pos
  exact ⟨e, by simp only [NetNode.predict, he, bind, Except.bind]⟩

/-- `add(chain(Linear(4), noop), Linear()).initialize(X, Y)` with Y of width 3: the chain gets the dimension nO = 3 although
its outputs have width 4, and the network accepts nothing. -/
theorem C79_chain_stale : ∃ s', (NetNode.add 9 [.chain 8 [.leaf 0, .plain noop], .leaf 1]).initialize exNetEnv
      (some (.arr exNetX)) (some (.arr (Mat.ofFn 2 3 fun _ _ => 0))) (exNetState fun id => if id = 0 then some 4 else none) = .ok s' ∧
    s'.nO 8 = some (some 3) ∧ (∀ w v, Accepts exNetEnv s' (.chain 8 [.leaf 0, .plain noop]) w v → v = 4) ∧
    AcceptsNothing exNetEnv s' (.add 9 [.chain 8 [.leaf 0, .plain noop], .leaf 1]) := by
  have h : ∃ s', (NetNode.add 9 [.chain 8 [.leaf 0, .plain noop], .leaf 1]).initialize exNetEnv
      (some (.arr exNetX)) (some (.arr (Mat.ofFn 2 3 fun _ _ => 0))) (exNetState fun id => if id = 0 then some 4 else none) = .ok s' ∧
      s'.nO 8 = some (some 3) ∧ leafDims s' 0 = some (4, 3) ∧ leafDims s' 1 = some (3, 3) := by
    have k : ((NetNode.add 9 [.chain 8 [.leaf 0, .plain noop], .leaf 1]).initialize exNetEnv
        (some (.arr exNetX)) (some (.arr (Mat.ofFn 2 3 fun _ _ => 0))) (exNetState fun id => if id = 0 then some 4 else none)).toOption.map
          (fun s' => (s'.nO 8, leafDims s' 0, leafDims s' 1)) = some (some (some 3), some (4, 3), some (3, 3)) := by
      decide +kernel
    revert k
    generalize NetNode.initialize _ _ _ _ _ = r
    intro k
    cases r with
    | error e => cases k
    | ok a =>
      simp only [Except.toOption, Option.map_some, Option.some.injEq, Prod.mk.injEq] at k
      exact ⟨a, rfl, k⟩
  obtain ⟨s', h, h1, h2, h3⟩ := h
  have hs := (initialize_grows _ h).1.sane (exNetState_sane _)
  refine ⟨s', h, h1, fun w v hv => ?_, acceptsNothing_of hs (by simp [NetNode.PlainOk, plainOkAll, keepsShape_noop]) fun w => ?_⟩
  · have hv := (accepts_iff hs (by simp [NetNode.PlainOk, plainOkAll, keepsShape_noop]) _ _).1 hv
    simp only [NetNode.width, chainWidth, h2, exNetEnv, leafWidth] at hv
    by_cases hw : w = 3 <;> simp [hw] at hv
    exact hv.symm
  · simp only [NetNode.width, chainWidth, widths, h2, h3, exNetEnv, leafWidth]
    by_cases hw : w = 3 <;> simp [hw, sumWidth]

/-- concatenate(chain(Linear(4), logistic), Linear(5)): the hypotheses of `C79_accepts_partial` are met. -/
example : ∃ s', (NetNode.concatenate 9 [.chain 8 [.leaf 0, .plain logisticLayer], .leaf 1]).initialize exNetEnv
      (some (.arr exNetX)) none (exNetState fun id => if id = 0 then some 4 else if id = 1 then some 5 else none) = .ok s' ∧
    ∃ v, Accepts exNetEnv s' (.concatenate 9 [.chain 8 [.leaf 0, .plain logisticLayer], .leaf 1]) 3 v := by
  have h : ∃ s', (NetNode.concatenate 9 [.chain 8 [.leaf 0, .plain logisticLayer], .leaf 1]).initialize exNetEnv
      (some (.arr exNetX)) none (exNetState fun id => if id = 0 then some 4 else if id = 1 then some 5 else none) = .ok s' ∧ True := by
    refine okElim ?_
    exact trivial
  obtain ⟨s', h, -⟩ := h
  refine ⟨s', h, C79_accepts_partial (exNetState_sane _) ?_ ?_ Nat.two_pos h⟩
  · simp [NetNode.Checked, checkedAll, exNetEnv, IsDense]
  · simp [NetNode.PlainOk, plainOkAll, keepsShape_logistic]

/-- concatenate(Linear(4), Linear(5)): the hypotheses of `C79_concatenate` are met, and nO becomes 9. -/
example : ∃ s', (NetNode.concatenate 9 [.leaf 0, .leaf 1]).initialize exNetEnv
      (some (.arr exNetX)) none (exNetState fun id => if id = 0 then some 4 else if id = 1 then some 5 else none) = .ok s' ∧
    s'.nO 9 = some (some 9) := by
  have h : ∃ s', (NetNode.concatenate 9 [.leaf 0, .leaf 1]).initialize exNetEnv
      (some (.arr exNetX)) none (exNetState fun id => if id = 0 then some 4 else if id = 1 then some 5 else none) = .ok s' ∧
      NetNode.dimO s' (.leaf 0) = some (some 4) ∧ NetNode.dimO s' (.leaf 1) = some (some 5) := by
    refine okElim ?_
    exact ⟨rfl, rfl⟩
  obtain ⟨s', h, h1, h2⟩ := h
  exact ⟨s', h, C79_concatenate (by simp [idsOf, NetNode.ids]) h (vs := [4, 5]) (.cons h1 (.cons h2 .nil))⟩

end Thinc
