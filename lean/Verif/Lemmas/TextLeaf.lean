import Verif.Lemmas.TextWrap
import Verif.Lemmas.InitFrame
import Verif.Props.Embed
import Verif.Props.Softmax
/-! # Layers with parameters: what they accept, and what `initialize` keeps -/
namespace Thinc
open Spec

/-! ### Later states -/

theorem Spec.Later.refl (T : TextEnv) (s : NetState) : Later T s s := ⟨fun _ _ => ⟨id, id⟩, fun _ => id, id⟩

theorem Spec.Later.trans {T : TextEnv} {a b c : NetState} (h : Later T a b) (k : Later T b c) : Later T a c :=
  ⟨fun id v => ⟨fun e => (k.dims id v).1 ((h.dims id v).1 e), fun e => (k.dims id v).2 ((h.dims id v).2 e)⟩,
    fun id e => k.ready id (h.ready id e), fun e => k.sane (h.sane e)⟩

theorem Spec.Later.positive {T : TextEnv} {s s' : NetState} (h : Later T s s') (hp : Positive T s') : Positive T s := fun id hr =>
  ⟨fun v hv => (hp id (h.ready id hr)).1 v ((h.dims id v).1 hv), fun v hv => (hp id (h.ready id hr)).2.1 v ((h.dims id v).2 hv),
    (hp id (h.ready id hr)).2.2⟩

theorem later_of_dims {T : TextEnv} {s s' : NetState} (hd : KeepsDims s s') (hr : s'.ready = s.ready) (hp : s'.params = s.params) :
    Later T s s' := by
  refine ⟨hd, fun id h => by rw [hr]; exact h, fun hs id hid => ?_⟩
  rw [hr] at hid
  have h := hs id hid
  unfold TextReady at h ⊢
  split <;> rename_i ek <;> simp only [ek] at h
  · obtain ⟨o, i, h2, h3, h4, h5⟩ := h
    exact ⟨o, i, (hd id o).1 h2, (hd id i).2 h3, by rw [hp]; exact h4, by rw [hp]; exact h5⟩
  · obtain ⟨o, h2, h3⟩ := h
    exact ⟨o, (hd id o).1 h2, by rw [hp]; exact h3⟩
  · obtain ⟨o, h2, h3⟩ := h
    exact ⟨o, (hd id o).1 h2, by rw [hp]; exact h3⟩

theorem setO_later {T : TextEnv} {s s' : NetState} {id v : ℕ} (h : s.setO id v = .ok s') : Later T s s' := by
  have hd := (setO_grows (E := T.net) h).dims
  obtain ⟨rfl, -⟩ := setO_ok h
  exact later_of_dims hd rfl rfl

theorem setI_later {T : TextEnv} {s s' : NetState} {id v : ℕ} (h : s.setI id v = .ok s') : Later T s s' := by
  have hd := (setI_grows (E := T.net) h).dims
  obtain ⟨rfl, -⟩ := setI_ok h
  exact later_of_dims hd rfl rfl

theorem later_of_frame {T : TextEnv} {s s' : NetState} {id : ℕ} (hd : KeepsDims s s') (hr : ∀ id, s.ready id = true → s'.ready id = true)
    (hf : Frame [id] s s') (hid : TextReady T s' id) : Later T s s' := by
  refine ⟨hd, hr, fun hs j hj => ?_⟩
  by_cases e : j = id
  · rw [e]; exact hid
  obtain ⟨f1, f2, f3, f4, f5⟩ := hf j (by simpa using e)
  rw [f3] at hj
  have h := hs j hj
  unfold TextReady at h ⊢
  split <;> rename_i ek <;> simp only [ek] at h
  · obtain ⟨o, i, h2, h3, h4, h5⟩ := h
    exact ⟨o, i, by rw [f1]; exact h2, by rw [f2]; exact h3, by rw [f4]; exact h4, by rw [f5]; exact h5⟩
  · obtain ⟨o, h2, h3⟩ := h
    exact ⟨o, by rw [f1]; exact h2, by rw [f4]; exact h3⟩
  · obtain ⟨o, h2, h3⟩ := h
    exact ⟨o, by rw [f1]; exact h2, by rw [f4]; exact h3⟩

theorem inferO_later {T : TextEnv} {s s' : NetState} {id : ℕ} {X : Option Val} (h : s.inferO id X = .ok s') : Later T s s' := by
  unfold NetState.inferO at h
  split at h
  · cases h; exact Later.refl _ _
  · obtain ⟨w, -, h⟩ := bind_ok h
    exact setO_later h

theorem setParam_frame (T : TextEnv) (s : NetState) (id : ℕ) (sh : ℕ × ℕ) : Frame [id] s (s.setParam T id sh) := by
  intro j hj
  have hj : j ≠ id := by simpa using hj
  refine ⟨rfl, rfl, if_neg hj, ?_, ?_⟩ <;>
  · simp only [NetState.setParam]
    rw [if_neg (by omega)]

theorem setParam_ready (T : TextEnv) (s : NetState) (id : ℕ) (sh : ℕ × ℕ) (j : ℕ) (h : s.ready j = true) :
    (s.setParam T id sh).ready j = true := by
  by_cases e : j = id <;> simp [NetState.setParam, e, h]

theorem setParam_shape (T : TextEnv) (s : NetState) (id : ℕ) (sh : ℕ × ℕ) : shapeOf ((s.setParam T id sh).params (2 * id)) = sh := by
  simp [NetState.setParam, shapeOf_ofFn]

theorem textInit_later {T : TextEnv} {s s' : NetState} {id : ℕ} {X Y : Option Val} (h : textInit T id X Y s = .ok s') :
    Later T s s' := by
  unfold textInit at h
  split at h
  · rename_i k ek
    obtain ⟨hg, o, i, h1, h2, h3, h4, h5⟩ := leafInit_ok h
    refine later_of_frame hg.dims hg.ready (leafInit_frame h) ?_
    have hk : T.net.kind id = k := by simp only [TextEnv.net, ek]
    rw [hk] at h4 h5
    unfold TextReady
    rw [ek]
    exact ⟨o, i, h2, h3, h4, h5⟩
  · rename_i nV seed dropout coinflips fast ek
    obtain ⟨o, ho, h⟩ := bind_ok h
    cases h
    refine later_of_frame (fun _ _ => ⟨fun e => e, fun e => e⟩) (setParam_ready T s id _) (setParam_frame T s id _) ?_
    unfold TextReady
    rw [ek]
    exact ⟨o, dimValue_ok ho, setParam_shape T s id _⟩
  · rename_i ek
    obtain ⟨a, ha, h⟩ := bind_ok h
    obtain ⟨o, ho, h⟩ := bind_ok h
    cases h
    refine (inferO_later ha).trans (later_of_frame (fun _ _ => ⟨fun e => e, fun e => e⟩) (setParam_ready T a id _) (setParam_frame T a id _) ?_)
    unfold TextReady
    rw [ek]
    exact ⟨o, dimValue_ok ho, setParam_shape T a id _⟩

/-! ### What the layers accept -/

/-- The states after `s`. -/
abbrev LaterState (T : TextEnv) (s : NetState) := { s' : NetState // Later T s s' }

theorem kind_hasWidth (k : LeafKind) {P : ParamVals} {W b o i : ℕ} (h4 : shapeOf (P W) = (leafShapes k o i).1)
    (h5 : shapeOf (P b) = (leafShapes k o i).2) (train : Bool) (w : ℕ) : HasWidth (k.layer W b o i) train P w (leafWidth k o i w) := by
  revert h4 h5
  cases k with
  | linear => exact fun h4 h5 => linear_hasWidth h4 h5 train w
  | dense bFirst act back => exact fun h4 h5 => dense_hasWidth h4 h5 train bFirst act back w
  | softmax T => exact fun h4 h5 => softmax_hasWidth h4 h5 train T w
  | maxout nP junk junkW => exact fun h4 h5 => maxout_hasWidth h4 h5 train junk junkW w
  | layerNorm => exact fun h4 h5 => layerNorm_hasWidth h4 h5 train w

theorem leafWidth_pos {k : LeafKind} {o i w v : ℕ} (h : leafWidth k o i w = some v) (ho : 0 < o) (hi : 0 < i) (hw : 0 < w) : 0 < v := by
  cases k <;> simp only [leafWidth] at h <;> split at h
  all_goals first
    | (cases h; assumption)
    | (split at h <;> cases h; assumption)
    | cases h

theorem kind_not_arr (k : LeafKind) (W b o i : ℕ) (train : Bool) (P : ParamVals) {v : Val} {e : PyErr} (h : v.asArr = .error e) :
    ∃ e, k.layer W b o i train P v = .error e := by
  cases k
  · exact ⟨e, by simp only [LeafKind.layer, linear, h, bind, Except.bind]⟩
  · exact ⟨e, by simp only [LeafKind.layer, dense, h, bind, Except.bind]⟩
  · exact ⟨e, by simp only [LeafKind.layer, softmaxLayer, h, bind, Except.bind]⟩
  · exact ⟨e, by simp only [LeafKind.layer, maxoutLayer, h, bind, Except.bind]⟩
  · exact ⟨e, by simp only [LeafKind.layer, layerNorm, h, bind, Except.bind]⟩

theorem leafForward_ready {E : NetEnv} {s : NetState} {id o i : ℕ} (h1 : s.ready id = true) (h2 : s.nO id = some (some o))
    (h3 : s.nI id = some (some i)) (train : Bool) (P : ParamVals) (v : Val) :
    leafForward E s id train P v = (E.kind id).layer (2 * id) (2 * id + 1) o i train P v := by
  simp only [leafForward, h1, h2, h3, dimValue, bind, Except.bind]
  rfl

theorem uniform_net {T : TextEnv} {s : NetState} (hs : TextSane T s) (hp : Positive T s) {id : ℕ} {k : LeafKind} (ek : T.kind id = .net k) :
    Uniform (fun j : LaterState T s => textForward T j.1 id) (fun j => j.1.params) ⟨s, Later.refl T s⟩ := by
  intro σ ls X r hl hX e
  have hf : ∀ s', textForward T s' id = leafForward T.net s' id := fun s' => by unfold textForward; rw [ek]
  have hk : T.net.kind id = k := by simp only [TextEnv.net, ek]
  simp only [hf] at e
  by_cases h1 : s.ready id = true
  · have hr := hs id h1
    unfold TextReady at hr
    rw [ek] at hr
    obtain ⟨o, i, h2, h3, h4, h5⟩ := hr
    rw [leafForward_ready h1 h2 h3, hk] at e
    by_cases hσ : ∃ per w, σ = .arr per w
    · obtain ⟨per, w, rfl⟩ := hσ
      obtain ⟨hw, A, rfl, r1, c1⟩ := hX
      obtain ⟨-, k2⟩ := kind_hasWidth k h4 h5 false w A c1
      have hA : 0 < A.rows := by
        rw [r1]
        cases per
        · exact hl.batch.sum_pos
        · exact hl.batch.length_pos
      cases ew : leafWidth k o i w with
      | none =>
        obtain ⟨e', he⟩ := k2 ew hA
        rw [he] at e
        cases e
      | some v =>
        have hv := leafWidth_pos ew ((hp id h1).1 o h2) ((hp id h1).2.1 i h3) hw
        refine ⟨.arr per v, fun j ls' hl' X' hX' => ?_⟩
        obtain ⟨-, A', rfl, r1', c1'⟩ := hX'
        have q1 := j.2.ready id h1
        have q2 := (j.2.dims id o).1 h2
        have q3 := (j.2.dims id i).2 h3
        have hr := j.2.sane hs id q1
        unfold TextReady at hr
        rw [ek] at hr
        obtain ⟨o', i', p2, p3, p4, p5⟩ := hr
        rw [q2] at p2
        rw [q3] at p3
        cases p2
        cases p3
        obtain ⟨Y, cb, eY, y1, y2⟩ := (kind_hasWidth k p4 p5 false w A' c1').1 v ew
        simp only [hf]
        rw [leafForward_ready q1 q2 q3, hk]
        exact ⟨_, cb, eY, hv, Y, rfl, y1.trans r1', y2⟩
    · obtain ⟨e', he⟩ := asArr_or (fun per w h => hσ ⟨per, w, h⟩) hX
      obtain ⟨e'', he⟩ := kind_not_arr k (2 * id) (2 * id + 1) o i false s.params he
      rw [he] at e
      cases e
  · have h1 : s.ready id = false := by simpa using h1
    simp only [leafForward, h1, if_true] at e
    cases e

theorem hashEmbed_accepts (E : ℕ) (seed : BitVec 32) (dropout : Option ℝ) (coinflips : ℕ → ℕ → ℝ) (fast : Bool) (P : ParamVals)
    (hV : 0 < (P E).rows) (hO : 0 < (P E).cols) (ks : List ℤ) (hn : ks ≠ []) :
    ∃ Y cb, hashEmbed E seed dropout coinflips fast false P (.ints ks) = .ok (.arr Y, cb) ∧ Y.rows = ks.length ∧ Y.cols = (P E).cols := by
  have hx := C58_hash_embed_partial (N := E + 1) (sh := fun p => shapeOf (P p)) hV hO ks hn ⟨E, Nat.lt_succ_self E⟩ rfl seed dropout
    coinflips fast false (fun p i j => (P p).at i j) (fun i => i.elim0)
  obtain ⟨_, cb, -, e, ⟨Y, rfl, hY⟩, -⟩ := hx P (.ints ks) (fun p => isMat_self (P p)) rfl
  exact ⟨Y, cb, e, hY.1, hY.2.1⟩

theorem uniform_hashEmbed {T : TextEnv} {s : NetState} (hs : TextSane T s) (hp : Positive T s) {id nV : ℕ} {seed : BitVec 32}
    {dropout : Option ℝ} {coinflips : ℕ → ℕ → ℝ} {fast : Bool} (ek : T.kind id = .hashEmbed nV seed dropout coinflips fast) :
    Uniform (fun j : LaterState T s => textForward T j.1 id) (fun j => j.1.params) ⟨s, Later.refl T s⟩ := by
  intro σ ls X r hl hX e
  have hf : ∀ s', textForward T s' id = whenReady s' id (hashEmbed (2 * id) seed dropout coinflips fast) := fun s' => by
    unfold textForward; rw [ek]
  simp only [hf] at e
  by_cases h1 : s.ready id = true
  · have hr := hs id h1
    unfold TextReady at hr
    rw [ek] at hr
    obtain ⟨o, h2, -⟩ := hr
    have ho := (hp id h1).1 o h2
    have hV := (hp id h1).2.2 _ _ _ _ _ ek
    simp only [whenReady, h1, Bool.true_eq_false, if_false] at e
    by_cases hσ : ∃ per, σ = .ints per
    · obtain ⟨per, rfl⟩ := hσ
      refine ⟨.arr per o, fun j ls' hl' X' hX' => ?_⟩
      obtain ⟨ks, rfl, hk⟩ := hX'
      have q1 := j.2.ready id h1
      have q2 := (j.2.dims id o).1 h2
      have hr := j.2.sane hs id q1
      unfold TextReady at hr
      rw [ek] at hr
      obtain ⟨o', p2, p3⟩ := hr
      rw [q2] at p2
      cases p2
      have r1 : (j.1.params (2 * id)).rows = nV := congrArg Prod.fst p3
      have c1 : (j.1.params (2 * id)).cols = o := congrArg Prod.snd p3
      have hn : ks ≠ [] := by
        rintro rfl
        cases per
        · exact absurd hk (ne_of_lt hl'.sum_pos)
        · exact absurd hk (ne_of_lt hl'.length_pos)
      obtain ⟨Y, cb, eY, y1, y2⟩ := hashEmbed_accepts (2 * id) seed dropout coinflips fast j.1.params (by rw [r1]; exact hV)
        (by rw [c1]; exact ho) ks hn
      simp only [hf, whenReady, q1, Bool.true_eq_false, if_false]
      exact ⟨_, cb, eY, ho, Y, rfl, y1.trans hk, y2.trans c1⟩
    · exfalso
      have : ∀ v, (∀ ks, v ≠ .ints ks) → Val.asInts v = .error .typeError := fun v hv => by
        cases v <;> first | rfl | exact absurd rfl (hv _)
      have hv : ∀ ks, X ≠ .ints ks := by
        rintro ks rfl
        cases σ with
        | arr per w => obtain ⟨-, A, h, -⟩ := hX; cases h
        | ids per w => obtain ⟨-, A, h, -⟩ := hX; cases h
        | ints per => exact hσ ⟨per, rfl⟩
        | ragged w => obtain ⟨-, A, h, -⟩ := hX; cases h
        | seqs w => obtain ⟨-, A, h, -⟩ := hX; cases h
        | idSeqs w => obtain ⟨-, A, h, -⟩ := hX; cases h
        | padded w => obtain ⟨-, A, ix, -, h, -⟩ := hX; cases h
      simp only [hashEmbed, this X hv, bind, Except.bind] at e
      cases e
  · have h1 : s.ready id = false := by simpa using h1
    simp only [whenReady, h1, if_true] at e
    cases e

theorem attention_accepts (Q : ℕ) (P : ParamVals) {ls : List ℕ} (hl : Nonvoid ls) {o : ℕ} (hQ : shapeOf (P Q) = (1, o)) {A : Mat ℝ}
    (hr : A.rows = ls.sum) (hc : A.cols = o) :
    ∃ Y cb, parametricAttention Q false P (.ragged A ls) = .ok (.ragged Y ls, cb) ∧ Y.rows = ls.sum ∧ Y.cols = o := by
  have q1 : (P Q).rows = 1 := congrArg Prod.fst hQ
  have q2 : (P Q).cols = o := congrArg Prod.snd hQ
  obtain ⟨K, e1, r0, c0⟩ : ∃ K, gemm A (P Q).transpose false false = .ok K ∧ K.rows = A.rows ∧ K.cols = 1 :=
    ⟨_, if_pos (hc.trans q2.symm), rfl, q1⟩
  obtain ⟨S, e2, r2, c2, -⟩ := softmaxSequences_spec K ls (by rw [r0, hr]; exact hl.sum_pos) (by rw [r0, hr])
  obtain ⟨Y, e3, r3, c3⟩ := npBinary_shape (· * ·) (A := A) (B := S) (r := ls.sum) (c := o)
    (by rw [r2, r0, hr]; exact broadcast_same _) (by rw [c2, hc, c0]; exact broadcast_right _)
  unfold asInts at e2
  exact ⟨Y, _, by
    simp only [parametricAttention, Val.raggedData, Val.lengths, attentionWeights, bind, Except.bind, e1, e2, e3, pure, Except.pure]; rfl,
    r3, c3⟩

theorem uniform_attention {T : TextEnv} {s : NetState} (hs : TextSane T s) {id : ℕ} (ek : T.kind id = .attention) :
    Uniform (fun j : LaterState T s => textForward T j.1 id) (fun j => j.1.params) ⟨s, Later.refl T s⟩ := by
  intro σ ls X r hl hX e
  have hf : ∀ s', textForward T s' id = whenReady s' id (parametricAttention (2 * id)) := fun s' => by
    unfold textForward; rw [ek]
  simp only [hf] at e
  by_cases h1 : s.ready id = true
  · have hr := hs id h1
    unfold TextReady at hr
    rw [ek] at hr
    obtain ⟨o, h2, h3⟩ := hr
    simp only [whenReady, h1, Bool.true_eq_false, if_false] at e
    cases σ with
    | arr per w => obtain ⟨-, A, rfl, -⟩ := hX; cases e
    | ids per w => obtain ⟨-, A, rfl, -⟩ := hX; cases e
    | ints per => obtain ⟨A, rfl, -⟩ := hX; cases e
    | seqs w => obtain ⟨-, A, rfl, -⟩ := hX; cases e
    | idSeqs w => obtain ⟨-, A, rfl, -⟩ := hX; cases e
    | padded w => obtain ⟨-, A, ix, -, rfl, -⟩ := hX; cases e
    | ragged w =>
      obtain ⟨hw, A, rfl, r1, c1⟩ := hX
      have hwo : w = o := by
        by_contra hne
        have q2 : (s.params (2 * id)).cols = o := congrArg Prod.snd h3
        have e1 : gemm A (s.params (2 * id)).transpose false false = .error .valueError :=
          if_neg fun h => hne (c1.symm.trans (h.trans q2))
        simp only [parametricAttention, Val.raggedData, Val.lengths, attentionWeights, bind, Except.bind, e1] at e
        cases e
      subst hwo
      refine ⟨.ragged w, fun j ls' hl' X' hX' => ?_⟩
      obtain ⟨-, A', rfl, r1', c1'⟩ := hX'
      have q1 := j.2.ready id h1
      have q2 := (j.2.dims id w).1 h2
      have hr := j.2.sane hs id q1
      unfold TextReady at hr
      rw [ek] at hr
      obtain ⟨o', p2, p3⟩ := hr
      rw [q2] at p2
      cases p2
      obtain ⟨Y, cb, eY, y1, y2⟩ := attention_accepts (2 * id) j.1.params hl' p3 r1' c1'
      simp only [hf, whenReady, q1, Bool.true_eq_false, if_false]
      exact ⟨_, cb, eY, hw, Y, rfl, y1, y2⟩
  · have h1 : s.ready id = false := by simpa using h1
    simp only [whenReady, h1, if_true] at e
    cases e

theorem uniform_leaf {T : TextEnv} {s : NetState} (hs : TextSane T s) (hp : Positive T s) (id : ℕ) :
    Uniform (fun j : LaterState T s => textForward T j.1 id) (fun j => j.1.params) ⟨s, Later.refl T s⟩ := by
  cases ek : T.kind id with
  | net k => exact uniform_net hs hp ek
  | hashEmbed nV seed dropout coinflips fast => exact uniform_hashEmbed hs hp ek
  | attention => exact uniform_attention hs ek

end Thinc
