import Verif.Lemmas.TextGood
/-! # A model for text gives an array for an array -/
namespace Thinc
open Spec

theorem kind_arr (k : LeafKind) {W b o i : ℕ} {P : ParamVals} {X Y : Val} {cb : Callback} (h : k.layer W b o i false P X = .ok (Y, cb)) :
    ∃ B, Y = .arr B := by
  cases k with
  | linear =>
    obtain ⟨A, -, h⟩ := bind_ok (show Except.bind _ _ = _ from h)
    obtain ⟨B, -, h⟩ := bind_ok h
    obtain ⟨C, -, h⟩ := bind_ok h
    cases h
    exact ⟨_, rfl⟩
  | dense bFirst act back =>
    obtain ⟨A, -, h⟩ := bind_ok (show Except.bind _ _ = _ from h)
    obtain ⟨B, -, h⟩ := bind_ok h
    cases h
    exact ⟨_, rfl⟩
  | softmax t =>
    obtain ⟨A, -, h⟩ := bind_ok (show Except.bind _ _ = _ from h)
    split at h
    · cases h
    · obtain ⟨B, -, h⟩ := bind_ok (show Except.bind _ _ = _ from h)
      simp only [Bool.true_or, if_true] at h
      obtain ⟨C, -, h⟩ := bind_ok (show Except.bind _ _ = _ from h)
      cases h
      exact ⟨_, rfl⟩
  | maxout nP junk junkW =>
    obtain ⟨A, -, h⟩ := bind_ok (show Except.bind _ _ = _ from h)
    obtain ⟨W2, -, h⟩ := bind_ok h
    obtain ⟨B, -, h⟩ := bind_ok h
    obtain ⟨b1, -, h⟩ := bind_ok h
    obtain ⟨C, -, h⟩ := bind_ok h
    obtain ⟨Z, -, h⟩ := bind_ok h
    obtain ⟨D, -, h⟩ := bind_ok h
    cases h
    exact ⟨_, rfl⟩
  | layerNorm =>
    obtain ⟨A, -, h⟩ := bind_ok (show Except.bind _ _ = _ from h)
    obtain ⟨B, -, h⟩ := bind_ok (show Except.bind _ _ = _ from h)
    obtain ⟨C, -, h⟩ := bind_ok h
    obtain ⟨D, -, h⟩ := bind_ok h
    cases h
    exact ⟨_, rfl⟩

theorem plain_arr {L : Layer} (hL : PlainLayer L) {P : ParamVals} {A : Mat ℝ} {Y : Val} {cb : Callback}
    (h : L false P (.arr A) = .ok (Y, cb)) : ∃ B, Y = .arr B := by
  cases hL with
  | noop => cases h; exact ⟨_, rfl⟩
  | dropout rate isEnabled draws =>
    simp only [dropout, Bool.and_false, or_true, if_true] at h
    cases h
    exact ⟨_, rfl⟩
  | list2ragged => cases h
  | ragged2list => cases h
  | list2array => cases h
  | list2padded => cases h
  | padded2list => cases h
  | column column => cases h
  | window nW =>
    obtain ⟨y, cb', e, z, B, rfl, -⟩ := exact_accepts P (C76_floats nW false _ _) ⟨A, rfl, isMat_self A⟩
    rw [e] at h
    cases h
    exact ⟨_, rfl⟩
  | reduceSum => cases h
  | reduceMean => cases h
  | reduceMax junk => cases h
  | reduceFirst => cases h
  | reduceLast => cases h
  | activation _ k k' =>
    obtain ⟨B, cb', e, -⟩ := k false P A
    rw [e] at h
    cases h
    exact ⟨_, rfl⟩

theorem chainLoop_arr {P : ParamVals} : ∀ {Ls : List Layer}, (∀ L ∈ Ls, ∀ A Y cb, L false P (.arr A) = .ok (Y, cb) → ∃ B, Y = .arr B) →
    ∀ {A : Mat ℝ} {cbs r}, chainLoop false P Ls (.arr A) cbs = .ok r → ∃ B, r.1 = .arr B
  | [], _, A, cbs, r, h => by cases h; exact ⟨A, rfl⟩
  | L :: Ls, hL, A, cbs, r, h => by
    obtain ⟨⟨Y, cb⟩, e, h⟩ := bind_ok (show Except.bind _ _ = _ from h)
    obtain ⟨B, rfl⟩ := hL L (by simp) A Y cb e
    exact chainLoop_arr (fun L h => hL L (by simp [h])) h

theorem iadd_arr {A : Mat ℝ} {Z R : Val} (h : (Val.arr A).iadd Z = .ok R) : ∃ B, R = .arr B := by
  cases Z with
  | arr B =>
    obtain ⟨C, -, h⟩ := bind_ok (show Except.bind _ _ = _ from h)
    cases h
    exact ⟨_, rfl⟩
  | _ => cases h

theorem addLoop_arr {P : ParamVals} {X : Val} : ∀ {Ls : List Layer} {A : Mat ℝ} {cbs r},
    forM' Ls (.arr A, cbs) (addForwardStep false P X) = .ok r → ∃ B, r.1 = .arr B
  | [], A, cbs, r, h => by cases h; exact ⟨A, rfl⟩
  | L :: Ls, A, cbs, r, h => by
    simp only [forM'] at h
    split at h
    · rename_i q eq
      obtain ⟨⟨Z, cb⟩, -, eq⟩ := bind_ok (show Except.bind _ _ = _ from eq)
      obtain ⟨R, eR, eq⟩ := bind_ok eq
      cases eq
      obtain ⟨B, rfl⟩ := iadd_arr eR
      exact addLoop_arr h
    · cases h

theorem model_arr {T : TextEnv} {c : Comp} (h : TextModel T c) : ∀ s P A Y cb, c.layer s false P (.arr A) = .ok (Y, cb) → ∃ B, Y = .arr B := by
  induction h with
  | leaf id =>
    intro s P A Y cb h
    simp only [leafC] at h
    rcases hk : T.kind id with k | ⟨nV, seed, dr, coin, fast⟩ | _
    · simp only [textForward, hk, leafForward] at h
      split at h
      · cases h
      · obtain ⟨o, -, h⟩ := bind_ok (show Except.bind _ _ = _ from h)
        obtain ⟨i, -, h⟩ := bind_ok h
        exact kind_arr _ h
    · simp only [textForward, hk, whenReady] at h
      split at h <;> cases h
    · simp only [textForward, hk, whenReady] at h
      split at h <;> cases h
  | plain L hL => exact fun s P A Y cb h => plain_arr hL h
  | withArray id pad c _ ih => exact fun s P A Y cb h => ih s P A Y cb h
  | withList id c _ ih => exact fun s P A Y cb h => ih s P A Y cb h
  | withRagged c _ ih => intro s P A Y cb h; cases h
  | withPadded id c _ ih => intro s P A Y cb h; cases h
  | chain id cs _ ih =>
    intro s P A Y cb h
    simp only [chainC, wrapper, chain] at h
    split at h
    · cases h
    · obtain ⟨r, e, h⟩ := bind_ok (show Except.bind _ _ = _ from h)
      cases h
      refine chainLoop_arr ?_ e
      intro L hL A Y cb h
      obtain ⟨c, hc, rfl⟩ := List.mem_map.1 hL
      exact ih c hc s P A Y cb h
  | add id cs _ _ ih =>
    intro s P A Y cb h
    cases cs with
    | nil => cases h; exact ⟨A, rfl⟩
    | cons c cs =>
      simp only [addC, wrapper, addLayers, List.map_cons] at h
      obtain ⟨⟨Z, cb'⟩, e, h⟩ := bind_ok (show Except.bind _ _ = _ from h)
      obtain ⟨B, rfl⟩ := ih c (by simp) s P A Z cb' e
      obtain ⟨r, er, h⟩ := bind_ok h
      cases h
      exact addLoop_arr er
  | concatenate id cs _ ih =>
    intro s P A Y cb h
    simp only [concatenateC, wrapper] at h
    obtain ⟨outs, e, h⟩ := bind_ok (show Except.bind _ _ = _ from h)
    cases cs with
    | nil => cases e; cases h
    | cons c cs =>
      obtain ⟨⟨Z, cb'⟩, outs', e1, -, rfl⟩ := mapM_cons_ok e
      obtain ⟨B, rfl⟩ := ih c (by simp) s P A Z cb' e1
      obtain ⟨Ys, -, h⟩ := bind_ok (show concatArrays _ _ = _ from h)
      obtain ⟨C, -, h⟩ := bind_ok h
      cases h
      exact ⟨_, rfl⟩
  | residual id c _ ih =>
    intro s P A Y cb h
    obtain ⟨⟨Z, cb'⟩, e, h⟩ := bind_ok (show Except.bind _ _ = _ from h)
    obtain ⟨B, rfl⟩ := ih s P A Z cb' e
    obtain ⟨R, eR, h⟩ := bind_ok (show Except.bind _ _ = _ from h)
    cases h
    obtain ⟨C, -, e⟩ := bind_ok (show Except.bind _ _ = _ from eR)
    cases e
    exact ⟨_, rfl⟩

end Thinc
