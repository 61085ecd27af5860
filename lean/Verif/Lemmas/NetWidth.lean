import Verif.Props.ConcatenateSeqs
import Verif.Lemmas.Initialize
import Verif.Props.Cauchy
import Verif.Props.MaxoutLayer
import Verif.Props.SoftmaxLayer
import Verif.Props.Dropout
/-!
# Which arrays a network accepts

A network accepts exactly the arrays of the widths that the dimensions of its leaves allow.
-/
namespace Thinc
open Spec

/-! ### Shapes of array operations -/

theorem isMat_self (A : Mat ℝ) : IsMat A (fun (i : Fin A.rows) (j : Fin A.cols) => A.at i j) := ⟨rfl, rfl, fun _ _ => rfl⟩

theorem isMat_of_shape {A : Mat ℝ} {r c : ℕ} (h : shapeOf A = (r, c)) : IsMat A (fun (i : Fin r) (j : Fin c) => A.at i j) := by
  have h1 : A.rows = r := congrArg Prod.fst h
  have h2 : A.cols = c := congrArg Prod.snd h
  exact ⟨h1, h2, fun _ _ => rfl⟩

theorem npBinary_shape (f : ℝ → ℝ → ℝ) {A B : Mat ℝ} {r c : ℕ} (hr : broadcastDim A.rows B.rows = .ok r)
    (hc : broadcastDim A.cols B.cols = .ok c) : ∃ C, npBinary f A B = .ok C ∧ C.rows = r ∧ C.cols = c := by
  unfold npBinary
  rw [hr, hc]
  exact ⟨_, rfl, rfl, rfl⟩

theorem npBinary_error (f : ℝ → ℝ → ℝ) {A B : Mat ℝ} {r : ℕ} {e : PyErr} (hr : broadcastDim A.rows B.rows = .ok r)
    (hc : broadcastDim A.cols B.cols = .error e) : npBinary f A B = .error e := by
  unfold npBinary
  rw [hr, hc]
  rfl

theorem npUpdate_shape (f : ℝ → ℝ → ℝ) {A B : Mat ℝ} (hr : B.rows = A.rows ∨ B.rows = 1) (hc : B.cols = A.cols ∨ B.cols = 1) :
    ∃ C, npUpdate f A B = .ok C ∧ C.rows = A.rows ∧ C.cols = A.cols := ⟨_, if_pos ⟨hr, hc⟩, rfl, rfl⟩

theorem npUpdate_error (f : ℝ → ℝ → ℝ) {A B : Mat ℝ} (hc : ¬(B.cols = A.cols ∨ B.cols = 1)) :
    npUpdate f A B = .error .valueError := if_neg fun h => hc h.2

theorem gemm_nt_error {X W : Mat ℝ} (h : X.cols ≠ W.cols) : gemm X W false true = .error .valueError := if_neg h

theorem opsAffine_shape {X W b : Mat ℝ} {nO nI : ℕ} (hW : shapeOf W = (nO, nI)) (hb : shapeOf b = (1, nO)) (hX : X.cols = nI) :
    ∃ Y, opsAffine X W b = .ok Y ∧ Y.rows = X.rows ∧ Y.cols = nO := by
  subst hX
  obtain ⟨Z, eZ, hZ⟩ := (isMat_self X).gemm_nt (isMat_of_shape hW)
  obtain ⟨Y, eY, hY⟩ := hZ.npUpdate_row (isMat_of_shape hb) (· + ·)
  refine ⟨Y, ?_, hY.1, hY.2.1⟩
  unfold opsAffine addBias
  rw [eZ]
  exact eY

/-! ### The leaves -/

/-- What a layer does with arrays of a given width: the width of the output, if any. -/
def HasWidth (L : Layer) (train : Bool) (P : ParamVals) (w : ℕ) (o : Option ℕ) : Prop :=
  ∀ X : Mat ℝ, X.cols = w →
    (∀ v, o = some v → ∃ Y callback, L train P (.arr X) = .ok (.arr Y, callback) ∧ Y.rows = X.rows ∧ Y.cols = v) ∧
    (o = none → 0 < X.rows → ∃ e, L train P (.arr X) = .error e)

theorem dense_hasWidth {P : ParamVals} {W b nO nI : ℕ} (hW : shapeOf (P W) = (nO, nI)) (hb : shapeOf (P b) = (1, nO))
    (train bFirst : Bool) (act : (ℕ → ℝ) → ℕ → ℝ) (back : Mat ℝ → Mat ℝ → Mat ℝ → Mat ℝ → Except PyErr (Mat ℝ)) (w : ℕ) :
    HasWidth (dense W b bFirst act back) train P w (if w = nI then some nO else none) := by
  rintro X rfl
  refine ⟨fun v hv => ?_, fun hv _ => ?_⟩
  · split at hv
    · rename_i h
      cases hv
      obtain ⟨Y, eY, h1, h2⟩ := opsAffine_shape hW hb h
      refine ⟨Y.lift act, _, by simp only [dense, Val.asArr, bind, Except.bind, eY, pure, Except.pure]; rfl, h1, h2⟩
    · cases hv
  · split at hv
    · cases hv
    · rename_i h
      refine ⟨.valueError, ?_⟩
      have h2 : (P W).cols = nI := congrArg Prod.snd hW
      have := gemm_nt_error (X := X) (W := P W) (by rw [h2]; exact h)
      simp only [dense, opsAffine, Val.asArr, bind, Except.bind, this]

theorem linear_hasWidth {P : ParamVals} {W b nO nI : ℕ} (hW : shapeOf (P W) = (nO, nI)) (hb : shapeOf (P b) = (1, nO))
    (train : Bool) (w : ℕ) : HasWidth (linear W b) train P w (if w = nI then some nO else none) := by
  rintro X rfl
  refine ⟨fun v hv => ?_, fun hv _ => ?_⟩
  · split at hv
    · rename_i h
      cases hv
      obtain ⟨Y, eY, h1, h2⟩ := opsAffine_shape hW hb h
      obtain ⟨Z, eZ, eY⟩ := bind_ok eY
      refine ⟨Y, _, by simp only [linear, Val.asArr, bind, Except.bind, eZ, eY, pure, Except.pure]; rfl, h1, h2⟩
    · cases hv
  · split at hv
    · cases hv
    · rename_i h
      refine ⟨.valueError, ?_⟩
      have h2 : (P W).cols = nI := congrArg Prod.snd hW
      have := gemm_nt_error (X := X) (W := P W) (by rw [h2]; exact h)
      simp only [linear, Val.asArr, bind, Except.bind, this]

theorem softmax_no_columns {Y : Mat ℝ} (hr : 0 < Y.rows) (hc : Y.cols = 0) (T : ℝ) : Y.softmax T = .error .valueError := by
  obtain ⟨r, c, v⟩ := Y
  simp only at hr hc
  subst hc
  have : Fintype.card (Fin r) ≠ 0 := by simp; omega
  simp only [Mat.softmax, Thinc.softmax, npMax, if_neg this, bind, Except.bind]

theorem softmax_hasWidth {P : ParamVals} {W b nO nI : ℕ} (hW : shapeOf (P W) = (nO, nI)) (hb : shapeOf (P b) = (1, nO))
    (train : Bool) (T : ℝ) (w : ℕ) :
    HasWidth (softmaxLayer W b true T) train P w (if w = nI ∧ 0 < nO ∧ 0 < T then some nO else none) := by
  rintro X rfl
  refine ⟨fun v hv => ?_, fun hv hX => ?_⟩
  · split at hv
    · rename_i h
      cases hv
      obtain ⟨Y, eY, h1, h2⟩ := opsAffine_shape hW hb h.1
      obtain ⟨S, eS, hS⟩ := (isMat_self Y).softmax (by rw [h2]; exact h.2.1) T
      refine ⟨S, _, by
        simp only [softmaxLayer, Val.asArr, bind, Except.bind, if_neg (not_le.2 h.2.2), eY, Bool.true_or, if_true, eS, pure, Except.pure]; rfl,
        hS.1.trans h1, hS.2.1.trans h2⟩
    · cases hv
  · split at hv
    · cases hv
    · rename_i h
      by_cases hT : T ≤ 0
      · exact ⟨.valueError, by simp only [softmaxLayer, Val.asArr, bind, Except.bind, if_pos hT]⟩
      refine ⟨.valueError, ?_⟩
      by_cases hw : X.cols = nI
      · obtain ⟨Y, eY, h1, h2⟩ := opsAffine_shape hW hb hw
        have h0 : nO = 0 := by
          by_contra h0
          exact h ⟨hw, Nat.pos_of_ne_zero h0, not_le.1 hT⟩
        have eS := softmax_no_columns (Y := Y) (by omega) (by omega) T
        simp only [softmaxLayer, Val.asArr, bind, Except.bind, if_neg hT, eY, Bool.true_or, if_true, eS]
      · have h2 : (P W).cols = nI := congrArg Prod.snd hW
        have := gemm_nt_error (X := X) (W := P W) (by rw [h2]; exact hw)
        simp only [softmaxLayer, opsAffine, Val.asArr, bind, Except.bind, if_neg hT, this]

theorem maxout_hasWidth {P : ParamVals} {W b nO nI nP : ℕ} (hW : shapeOf (P W) = (nO * nP, nI)) (hb : shapeOf (P b) = (nO, nP))
    (train : Bool) (junk : ℕ → ℝ) (junkW : ℕ → ℤ) (w : ℕ) :
    HasWidth (maxoutLayer junk junkW W b nO nP nI) train P w (if w = nI ∧ 0 < nO ∧ 0 < nP then some nO else none) := by
  rintro X rfl
  obtain ⟨W2, eW2, hW2⟩ := (isMat_of_shape hW).reshape_self
  obtain ⟨b1, eb1, hb1⟩ := (isMat_of_shape hb).reshape_row
  have run : X.cols = nI → ∃ Y, gemm X W2 false true = .ok Y ∧ ∃ Z, npUpdate (· + ·) Y b1 = .ok Z ∧
      Z.reshape3 Z.rows nO nP = .ok ⟨X.rows, nO, nP, Z.val⟩ := by
    rintro rfl
    obtain ⟨Y, eY, hY⟩ := (isMat_self X).gemm_nt hW2
    obtain ⟨Z, eZ, hZ⟩ := hY.npUpdate_row hb1 (· + ·)
    refine ⟨Y, eY, Z, eZ, ?_⟩
    unfold Mat.reshape3
    rw [hZ.1, hZ.2.1, if_pos (by ring)]
  refine ⟨fun v hv => ?_, fun hv hX => ?_⟩
  · split at hv
    · rename_i h
      cases hv
      obtain ⟨Y, eY, Z, eZ, e3⟩ := run h.1
      obtain ⟨best, which, eM, r1, r2, -⟩ := C41_maxout junk junkW ⟨X.rows, nO, nP, Z.val⟩ h.2.1 h.2.2
      refine ⟨best, _, by
        simp only [maxoutLayer, Val.asArr, bind, Except.bind, eW2, eY, eb1, eZ, e3, eM, pure, Except.pure]; rfl, r1, r2⟩
    · cases hv
  · split at hv
    · cases hv
    · rename_i h
      by_cases hw : X.cols = nI
      · obtain ⟨Y, eY, Z, eZ, e3⟩ := run hw
        have eM : maxout junk junkW ⟨X.rows, nO, nP, Z.val⟩ = .error .indexError := by
          unfold maxout
          rw [if_pos hX]
          have : ¬(0 < X.rows ∧ 0 < nO ∧ 0 < nP) := fun k => h ⟨hw, k.2⟩
          simp only [Cube.pointer, if_neg this, bind, Except.bind]
        exact ⟨.indexError, by
          simp only [maxoutLayer, Val.asArr, bind, Except.bind, eW2, eY, eb1, eZ, e3, eM]⟩
      · have := gemm_nt_error (X := X) (W := W2) (by rw [hW2.2.1]; exact hw)
        exact ⟨.valueError, by simp only [maxoutLayer, Val.asArr, bind, Except.bind, eW2, this]⟩

theorem layerNorm_hasWidth {P : ParamVals} {G b nI : ℕ} (hG : shapeOf (P G) = (1, nI)) (hb : shapeOf (P b) = (1, nI))
    (train : Bool) (w : ℕ) :
    HasWidth (layerNorm G b) train P w (if w = nI ∨ w = 1 then some nI else if nI = 1 then some w else none) := by
  rintro X rfl
  have hXm := isMat_self X
  obtain ⟨C, eC, hC⟩ := hXm.npBinary_col hXm.rowMeans (· - ·)
  obtain ⟨H, eH, hH⟩ := hC.npBinary_col ((hXm.rowVars.mapEntries (· + 1e-08)).mapEntries (· ^ (-1.0 / 2.0 : ℝ))) (· * ·)
  have gr : (P G).rows = 1 := congrArg Prod.fst hG
  have gc : (P G).cols = nI := congrArg Prod.snd hG
  have br : (P b).rows = 1 := congrArg Prod.fst hb
  have bc : (P b).cols = nI := congrArg Prod.snd hb
  have hr : broadcastDim H.rows (P G).rows = .ok X.rows := by rw [hH.1, gr]; exact broadcast_right _
  have key : ∀ v, broadcastDim X.cols nI = .ok v → (nI = v ∨ nI = 1) →
      ∃ Y callback, layerNorm G b train P (.arr X) = .ok (.arr Y, callback) ∧ Y.rows = X.rows ∧ Y.cols = v := by
    intro v hv hv'
    obtain ⟨S, eS, s1, s2⟩ := npBinary_shape (· * ·) hr (by rw [hH.2.1, gc]; exact hv)
    obtain ⟨Y, eY, y1, y2⟩ := npUpdate_shape (· + ·) (A := S) (B := P b) (Or.inr br) (by rw [s2, bc]; exact hv')
    refine ⟨Y, _, by
      simp only [layerNorm, lnMoments, lnScaleShift, Val.asArr, bind, Except.bind, eC, eH, eS, eY, pure, Except.pure]; rfl,
      y1.trans s1, y2.trans s2⟩
  refine ⟨fun v hv => ?_, fun hv _ => ?_⟩
  · split at hv
    · rename_i h
      cases hv
      rcases h with h | h
      · exact key nI (by rw [h]; exact broadcast_same _) (Or.inl rfl)
      · exact key nI (by rw [h]; exact broadcast_left _) (Or.inl rfl)
    · split at hv
      · rename_i h1 h2
        cases hv
        exact key X.cols (by rw [h2]; exact broadcast_right _) (Or.inr h2)
      · cases hv
  · split at hv
    · cases hv
    · split at hv
      · cases hv
      · rename_i h1 h2
        rw [not_or] at h1
        have : npBinary (· * ·) H (P G) = .error .valueError := by
          refine npBinary_error _ hr ?_
          rw [hH.2.1, gc]
          simp only [broadcastDim, if_neg h1.1, if_neg h1.2, if_neg h2]
        exact ⟨.valueError, by
          simp only [layerNorm, lnMoments, lnScaleShift, Val.asArr, bind, Except.bind, eC, eH, this]⟩

theorem leaf_hasWidth {E : NetEnv} {s : NetState} (hs : Sane E s) (id : ℕ) (train : Bool) (w : ℕ) :
    HasWidth (leafForward E s id) train s.params w (NetNode.width E s (.leaf id) w) := by
  by_cases hr : s.ready id = true
  · obtain ⟨o, i, h1, h2, h3, h4, h5⟩ := hs id hr
    have e1 : NetNode.width E s (.leaf id) w = leafWidth (E.kind id) o i w := by
      simp only [NetNode.width, leafDims, h1, h2, h3]
    have e2 : ∀ v, leafForward E s id train s.params v = (E.kind id).layer (2 * id) (2 * id + 1) o i train s.params v := by
      intro v
      simp only [leafForward, h1, h2, h3, dimValue, bind, Except.bind]
      rfl
    rw [e1]
    have : HasWidth ((E.kind id).layer (2 * id) (2 * id + 1) o i) train s.params w (leafWidth (E.kind id) o i w) := by
      revert h4 h5
      cases E.kind id with
      | linear => exact fun h4 h5 => linear_hasWidth h4 h5 train w
      | dense bFirst act back => exact fun h4 h5 => dense_hasWidth h4 h5 train bFirst act back w
      | softmax T => exact fun h4 h5 => softmax_hasWidth h4 h5 train T w
      | maxout nP junk junkW => exact fun h4 h5 => maxout_hasWidth h4 h5 train junk junkW w
      | layerNorm => exact fun h4 h5 => layerNorm_hasWidth h4 h5 train w
    intro X hX
    obtain ⟨k1, k2⟩ := this X hX
    simp only [e2]
    exact ⟨k1, k2⟩
  · have hr : s.ready id = false := by simpa using hr
    have e1 : NetNode.width E s (.leaf id) w = none := by simp only [NetNode.width, leafDims, hr]
    rw [e1]
    exact fun X hX => ⟨fun v hv => (by cases hv), fun _ _ => ⟨.keyError, by simp only [leafForward, hr, if_true]⟩⟩

/-! ### The combinators -/

/-- All or nothing. -/
def allOf : List (Option ℕ) → Option (List ℕ)
  | [] => some []
  | o :: os => match o, allOf os with
    | some v, some vs => some (v :: vs)
    | _, _ => none

theorem widths_eq (E : NetEnv) (s : NetState) (w : ℕ) : ∀ ls : List NetNode,
    widths E s ls w = allOf (ls.map fun l => NetNode.width E s l w)
  | [] => by rw [widths]; rfl
  | l :: ls => by
    rw [widths, widths_eq E s w ls]
    rfl

theorem addStep_error {train : Bool} {P : ParamVals} {X : Val} {L : Layer} {e : PyErr} (s : Val × List Callback)
    (h : L train P X = .error e) : addForwardStep train P X s L = .error e := by
  simp only [addForwardStep, h, bind, Except.bind]

theorem addStep_ok {train : Bool} {P : ParamVals} {X : Val} {L : Layer} {Y Z : Mat ℝ} {cb : Callback} (cbs : List Callback)
    (h : L train P X = .ok (.arr Z, cb)) (hr : Z.rows = Y.rows) (hc : Z.cols = Y.cols ∨ Z.cols = 1) :
    ∃ Y', addForwardStep train P X (.arr Y, cbs) L = .ok (.arr Y', cbs ++ [cb]) ∧ Y'.rows = Y.rows ∧ Y'.cols = Y.cols := by
  obtain ⟨Y', e, h1, h2⟩ := npUpdate_shape (· + ·) (A := Y) (B := Z) (Or.inl hr) hc
  exact ⟨Y', by simp only [addForwardStep, h, Val.iadd, e, bind, Except.bind, pure, Except.pure], h1, h2⟩

theorem addStep_mismatch {train : Bool} {P : ParamVals} {X : Val} {L : Layer} {Y Z : Mat ℝ} {cb : Callback} (cbs : List Callback)
    (h : L train P X = .ok (.arr Z, cb)) (hc : ¬(Z.cols = Y.cols ∨ Z.cols = 1)) :
    addForwardStep train P X (.arr Y, cbs) L = .error .valueError := by
  simp only [addForwardStep, h, Val.iadd, npUpdate_error (· + ·) hc, bind, Except.bind]

/-- The sum of the outputs. -/
theorem addLoop_hasWidth {train : Bool} {P : ParamVals} {X : Mat ℝ} : ∀ {Ls : List Layer} {os : List (Option ℕ)},
    List.Forall₂ (fun L o => HasWidth L train P X.cols o) Ls os → ∀ (Y : Mat ℝ) (cbs : List Callback), Y.rows = X.rows →
    (∀ vs, allOf os = some vs → (∀ v ∈ vs, v = Y.cols ∨ v = 1) →
      ∃ Z cbs', forM' Ls (.arr Y, cbs) (addForwardStep train P (.arr X)) = .ok (.arr Z, cbs') ∧ Z.rows = Y.rows ∧ Z.cols = Y.cols) ∧
    ((∀ vs, allOf os = some vs → ¬∀ v ∈ vs, v = Y.cols ∨ v = 1) → 0 < X.rows →
      ∃ e, forM' Ls (.arr Y, cbs) (addForwardStep train P (.arr X)) = .error e)
  | _, _, .nil, Y, cbs, hY => by
    refine ⟨fun vs _ _ => ⟨Y, cbs, rfl, rfl, rfl⟩, fun h => ?_⟩
    exact absurd (fun v hv => by simp at hv) (h [] rfl)
  | _, _, .cons (a := L) (b := o) (l₁ := Ls) (l₂ := os) h t, Y, cbs, hY => by
    obtain ⟨h1, h2⟩ := h X rfl
    refine ⟨fun vs hvs hv => ?_, fun hvs hX => ?_⟩
    · obtain ⟨v, vs, rfl, hos, rfl⟩ : ∃ v vs', o = some v ∧ allOf os = some vs' ∧ vs = v :: vs' := by
        simp only [allOf] at hvs
        split at hvs
        · rename_i v' vs' e
          exact ⟨v', vs', rfl, e, by cases hvs; rfl⟩
        · cases hvs
      obtain ⟨Z, cb, eZ, r1, r2⟩ := h1 v rfl
      obtain ⟨Y', eY', r3, r4⟩ := addStep_ok (Y := Y) cbs eZ (r1.trans hY.symm) (by rw [r2]; exact hv v (by simp))
      obtain ⟨Z', cbs', e', r5, r6⟩ := (addLoop_hasWidth t Y' (cbs ++ [cb]) (r3.trans hY)).1 vs hos
        (fun u hu => by rw [r4]; exact hv u (by simp [hu]))
      exact ⟨Z', cbs', by simp only [forM', eY', e'], r5.trans r3, r6.trans r4⟩
    · cases o with
      | none =>
        obtain ⟨e, he⟩ := h2 rfl hX
        exact ⟨e, by simp only [forM', addStep_error _ he]⟩
      | some v =>
        obtain ⟨Z, cb, eZ, r1, r2⟩ := h1 v rfl
        by_cases hv : v = Y.cols ∨ v = 1
        · obtain ⟨Y', eY', r3, r4⟩ := addStep_ok (Y := Y) cbs eZ (r1.trans hY.symm) (by rw [r2]; exact hv)
          obtain ⟨e, he⟩ := (addLoop_hasWidth t Y' (cbs ++ [cb]) (r3.trans hY)).2 (fun vs hos k => by
            refine hvs (v :: vs) (by simp only [allOf, hos]) fun u hu => ?_
            rcases List.mem_cons.1 hu with rfl | hu
            · exact hv
            · rw [← r4]; exact k u hu) hX
          exact ⟨e, by simp only [forM', eY', he]⟩
        · exact ⟨.valueError, by simp only [forM', addStep_mismatch (Y := Y) cbs eZ (by rw [r2]; exact hv)]⟩

theorem addLayers_hasWidth {train : Bool} {P : ParamVals} {w : ℕ} {Ls : List Layer} {os : List (Option ℕ)}
    (h : List.Forall₂ (fun L o => HasWidth L train P w o) Ls os) :
    HasWidth (addLayers Ls) train P w (match allOf os with
      | some (a :: bs) => sumWidth a bs
      | some [] => some w
      | none => none) := by
  rintro X rfl
  cases h with
  | nil => exact ⟨fun v hv => ⟨X, _, rfl, rfl, by cases hv; rfl⟩, fun hv => by cases hv⟩
  | @cons L o Ls os h t =>
    obtain ⟨h1, h2⟩ := h X rfl
    cases o with
    | none =>
      refine ⟨fun v hv => by simp [allOf] at hv, fun _ hX => ?_⟩
      obtain ⟨e, he⟩ := h2 rfl hX
      exact ⟨e, by simp only [addLayers, he, bind, Except.bind]⟩
    | some a =>
      obtain ⟨Y, cb, eY, r1, r2⟩ := h1 a rfl
      obtain ⟨k1, k2⟩ := addLoop_hasWidth t Y [] r1
      refine ⟨fun v hv => ?_, fun hv hX => ?_⟩
      · cases hos : allOf os with
        | none => simp [allOf, hos] at hv
        | some bs =>
          simp only [allOf, hos, sumWidth] at hv
          split at hv
          · rename_i hb
            cases hv
            obtain ⟨Z, cbs, eZ, r3, r4⟩ := k1 bs hos (by rw [r2]; exact hb)
            exact ⟨Z, _, by simp only [addLayers, eY, eZ, bind, Except.bind, pure, Except.pure]; rfl, r3.trans r1, r4.trans r2⟩
          · cases hv
      · obtain ⟨e, he⟩ := k2 (fun bs hos hb => by
          rw [r2] at hb
          simp only [allOf, hos, sumWidth, if_pos hb] at hv
          cases hv) hX
        exact ⟨e, by simp only [addLayers, eY, he, bind, Except.bind]⟩

/-- All outputs. -/
theorem mapM_hasWidth {train : Bool} {P : ParamVals} {X : Mat ℝ} : ∀ {Ls : List Layer} {os : List (Option ℕ)},
    List.Forall₂ (fun L o => HasWidth L train P X.cols o) Ls os →
    (∀ vs, allOf os = some vs → ∃ (Ys : List (Mat ℝ)) (cbs : List Callback),
      Ls.mapM (fun L => L train P (.arr X)) = .ok (List.zip (Ys.map .arr) cbs) ∧ cbs.length = Ys.length ∧
      (∀ Y ∈ Ys, Y.rows = X.rows) ∧ Ys.map Mat.cols = vs) ∧
    (allOf os = none → 0 < X.rows → ∃ e, Ls.mapM (fun L => L train P (.arr X)) = .error e)
  | _, _, .nil => ⟨fun vs hvs => ⟨[], [], rfl, rfl, by simp, by cases hvs; rfl⟩, fun h => by cases h⟩
  | _, _, .cons (a := L) (b := o) (l₁ := Ls) (l₂ := os) h t => by
    obtain ⟨h1, h2⟩ := h X rfl
    obtain ⟨t1, t2⟩ := mapM_hasWidth t
    rw [List.mapM_cons]
    refine ⟨fun vs hvs => ?_, fun hvs hX => ?_⟩
    · obtain ⟨v, vs, rfl, hos, rfl⟩ : ∃ v vs', o = some v ∧ allOf os = some vs' ∧ vs = v :: vs' := by
        simp only [allOf] at hvs
        split at hvs
        · rename_i v' vs' e
          exact ⟨v', vs', rfl, e, by cases hvs; rfl⟩
        · cases hvs
      obtain ⟨Y, cb, eY, r1, r2⟩ := h1 v rfl
      obtain ⟨Ys, cbs, e, l, r3, r4⟩ := t1 vs hos
      refine ⟨Y :: Ys, cb :: cbs, ?_, by simp [l], ?_, by simp [r2, r4]⟩
      · simp only [eY, e, bind, Except.bind, pure, Except.pure, List.map_cons, List.zip_cons_cons]
      · intro Z hZ
        rcases List.mem_cons.1 hZ with rfl | hZ
        · exact r1
        · exact r3 Z hZ
    · cases o with
      | none =>
        obtain ⟨e, he⟩ := h2 rfl hX
        exact ⟨e, by simp only [he, bind, Except.bind]⟩
      | some v =>
        obtain ⟨Y, cb, eY, r1, r2⟩ := h1 v rfl
        obtain ⟨e, he⟩ := t2 (by
          cases hos : allOf os with
          | none => rfl
          | some vs => simp [allOf, hos] at hvs) hX
        exact ⟨e, by simp only [eY, he, bind, Except.bind]⟩

theorem hstack_shape : ∀ (Ys : List (Mat ℝ)) (A : Mat ℝ) (r : ℕ), A.rows = r → (∀ Y ∈ Ys, Y.rows = r) →
    ∃ C, forM' Ys A hstack2 = .ok C ∧ C.rows = r ∧ C.cols = A.cols + (Ys.map Mat.cols).sum
  | [], A, r, hA, _ => ⟨A, rfl, hA, by simp⟩
  | Y :: Ys, A, r, hA, h => by
    have e : hstack2 A Y = .ok _ := if_pos (hA.trans (h Y (by simp)).symm)
    obtain ⟨C, eC, h1, h2⟩ := hstack_shape Ys (Mat.ofFn A.rows (A.cols + Y.cols) (fun i j => if j < A.cols then A.at i j else Y.at i (j - A.cols)))
      r hA (fun Z hZ => h Z (by simp [hZ]))
    refine ⟨C, by simp only [forM', e, eC], h1, ?_⟩
    rw [h2, List.map_cons, List.sum_cons]
    exact Nat.add_assoc _ _ _

theorem concatenate_hasWidth {train : Bool} {P : ParamVals} {w : ℕ} {L : Layer} {Ls : List Layer} {os : List (Option ℕ)}
    (h : List.Forall₂ (fun L o => HasWidth L train P w o) (L :: Ls) os) :
    HasWidth (concatenateForward (L :: Ls)) train P w ((allOf os).map List.sum) := by
  rintro X rfl
  obtain ⟨t1, t2⟩ := mapM_hasWidth h
  refine ⟨fun v hv => ?_, fun hv hX => ?_⟩
  · obtain ⟨vs, hvs, rfl⟩ := Option.map_eq_some_iff.1 hv
    obtain ⟨Ys, cbs, e, l, r1, r2⟩ := t1 vs hvs
    have hne : vs ≠ [] := by
      cases h with
      | cons h t =>
        rename_i o os
        intro e
        subst e
        simp only [allOf] at hvs
        split at hvs <;> cases hvs
    cases Ys with
    | nil => exact absurd r2.symm hne
    | cons Y Ys =>
      obtain ⟨C, eC, c1, c2⟩ := hstack_shape Ys Y X.rows (r1 Y (by simp)) (fun Z hZ => r1 Z (by simp [hZ]))
      have hm : (Val.arr Y :: Ys.map Val.arr).mapM Val.asArr = .ok (Y :: Ys) := mapM_asArr (Y :: Ys)
      have hf : (List.zip ((Y :: Ys).map Val.arr) cbs).map Prod.fst = Val.arr Y :: Ys.map Val.arr := by
        rw [List.map_fst_zip (by simp [l])]
        rfl
      have ef : ∃ cb, concatenateForward (L :: Ls) train P (.arr X) = .ok (.arr C, cb) := by
        simp only [concatenateForward, e, bind, Except.bind, hf, concatOutputs, List.head?_cons, concatArrays, hm, hstack, eC, pure,
          Except.pure]
        exact ⟨_, rfl⟩
      obtain ⟨cb, ecb⟩ := ef
      refine ⟨C, cb, ecb, c1, ?_⟩
      · rw [c2, ← r2, List.map_cons, List.sum_cons]
  · obtain ⟨e, he⟩ := t2 (by
      cases ho : allOf os with
      | none => rfl
      | some vs => simp [ho] at hv) hX
    exact ⟨e, by simp only [concatenateForward, he, bind, Except.bind]⟩

/-- `residualWidth` of the width of the output. -/
def residualOf (w : ℕ) : Option ℕ → Option ℕ
  | some v => residualWidth w v
  | none => none

theorem residual_hasWidth {train : Bool} {P : ParamVals} {w : ℕ} {L : Layer} {o : Option ℕ} (h : HasWidth L train P w o) :
    HasWidth (residual L) train P w (residualOf w o) := by
  rintro X rfl
  obtain ⟨h1, h2⟩ := h X rfl
  cases o with
  | none =>
    refine ⟨fun v hv => (by cases hv), fun _ hX => ?_⟩
    obtain ⟨e, he⟩ := h2 rfl hX
    exact ⟨e, by simp only [residual, he, bind, Except.bind]⟩
  | some u =>
    obtain ⟨Y, cb, eY, r1, r2⟩ := h1 u rfl
    have hr : broadcastDim X.rows Y.rows = .ok X.rows := by rw [r1]; exact broadcast_same _
    have key : ∀ v, broadcastDim X.cols u = .ok v →
        ∃ Z callback, residual L train P (.arr X) = .ok (.arr Z, callback) ∧ Z.rows = X.rows ∧ Z.cols = v := by
      intro v hv
      obtain ⟨Z, eZ, z1, z2⟩ := npBinary_shape (· + ·) hr (by rw [r2]; exact hv)
      exact ⟨Z, _, by simp only [residual, eY, Val.add, eZ, bind, Except.bind, pure, Except.pure]; rfl, z1, z2⟩
    refine ⟨fun v hv => ?_, fun hv _ => ?_⟩
    · simp only [residualOf, residualWidth] at hv
      split at hv
      · rename_i h
        cases hv
        rcases h with h | h
        · exact key _ (by rw [h]; exact broadcast_same _)
        · exact key _ (by rw [h]; exact broadcast_right _)
      · split at hv
        · rename_i h
          cases hv
          exact key _ (by rw [h]; exact broadcast_left _)
        · cases hv
    · simp only [residualOf, residualWidth] at hv
      split at hv
      · cases hv
      · split at hv
        · cases hv
        · rename_i k1 k2
          rw [not_or] at k1
          have : npBinary (· + ·) X Y = .error .valueError := by
            refine npBinary_error _ hr ?_
            rw [r2]
            simp only [broadcastDim, if_neg k1.1, if_neg k1.2, if_neg k2]
          exact ⟨.valueError, by simp only [residual, eY, Val.add, this, bind, Except.bind]⟩

/-- One layer after the other. -/
def ChainHasWidth (Ls : List Layer) (train : Bool) (P : ParamVals) (w : ℕ) (o : Option ℕ) : Prop :=
  ∀ (X : Mat ℝ) (cbs : List Callback), X.cols = w →
    (∀ v, o = some v → ∃ Y cbs', chainLoop train P Ls (.arr X) cbs = .ok (.arr Y, cbs') ∧ Y.rows = X.rows ∧ Y.cols = v) ∧
    (o = none → 0 < X.rows → ∃ e, chainLoop train P Ls (.arr X) cbs = .error e)

theorem chain_hasWidth {train : Bool} {P : ParamVals} {w : ℕ} {L : Layer} {Ls : List Layer} {o : Option ℕ}
    (h : ChainHasWidth (L :: Ls) train P w o) : HasWidth (chain (L :: Ls)) train P w o := by
  intro X hX
  obtain ⟨h1, h2⟩ := h X [] hX
  refine ⟨fun v hv => ?_, fun hv hr => ?_⟩
  · obtain ⟨Y, cbs, e, r⟩ := h1 v hv
    exact ⟨Y, _, by simp only [chain, List.isEmpty_cons, Bool.false_eq_true, if_false, e, bind, Except.bind, pure, Except.pure]; rfl, r⟩
  · obtain ⟨e, he⟩ := h2 hv hr
    exact ⟨e, by simp only [chain, List.isEmpty_cons, Bool.false_eq_true, if_false, he, bind, Except.bind]⟩

mutual
/-- A network accepts the arrays of the widths that its shape gives, and no others. -/
theorem net_hasWidth {E : NetEnv} {s : NetState} (hs : Sane E s) (train : Bool) : ∀ (t : NetNode), NetNode.PlainOk t → ∀ w,
    HasWidth (t.layer E s) train s.params w (NetNode.width E s t w)
  | .leaf id, _, w => by
    rw [NetNode.layer]
    exact leaf_hasWidth hs id train w
  | .plain L, h, w => by
    rw [NetNode.layer, NetNode.width]
    simp only [NetNode.PlainOk] at h
    rintro X rfl
    refine ⟨fun v hv => ?_, fun hv => by cases hv⟩
    cases hv
    exact h train s.params X
  | .chain id [], _, w => by
    rw [NetNode.layer, NetNode.width, NetNode.layersOf]
    exact fun X _ => ⟨fun v hv => (by cases hv), fun _ _ => ⟨.unboundLocalError, by simp [chain]⟩⟩
  | .chain id (l :: ls), h, w => by
    rw [NetNode.layer, NetNode.width, NetNode.layersOf]
    refine chain_hasWidth ?_
    have := netChain_hasWidth hs train (l :: ls) (by simpa only [NetNode.PlainOk] using h) w
    rwa [NetNode.layersOf] at this
  | .add id ls, h, w => by
    rw [NetNode.layer, NetNode.width, widths_eq]
    exact addLayers_hasWidth (netAll_hasWidth hs train ls (by simpa only [NetNode.PlainOk] using h) w)
  | .concatenate id [], _, w => by
    rw [NetNode.layer, NetNode.width, NetNode.layersOf]
    exact fun X _ => ⟨fun v hv => (by cases hv), fun _ _ => ⟨.valueError, by
      simp [concatenateForward, concatOutputs, bind, Except.bind, pure, Except.pure]⟩⟩
  | .concatenate id (l :: ls), h, w => by
    have := netAll_hasWidth hs train (l :: ls) (by simpa only [NetNode.PlainOk] using h) w
    rw [NetNode.layersOf] at this
    rw [NetNode.layer, NetNode.width, widths_eq, NetNode.layersOf]
    exact concatenate_hasWidth this
  | .residual id l, h, w => by
    rw [NetNode.layer, NetNode.width]
    have k := residual_hasWidth (net_hasWidth hs train l (by simpa only [NetNode.PlainOk] using h) w)
    cases hw : NetNode.width E s l w with
    | none => rw [hw] at k; exact k
    | some v => rw [hw] at k; exact k
theorem netChain_hasWidth {E : NetEnv} {s : NetState} (hs : Sane E s) (train : Bool) : ∀ (ls : List NetNode), plainOkAll ls → ∀ w,
    ChainHasWidth (NetNode.layersOf E s ls) train s.params w (chainWidth E s ls w)
  | [], _, w => by
    rw [NetNode.layersOf, chainWidth]
    rintro X cbs rfl
    exact ⟨fun v hv => ⟨X, cbs, rfl, rfl, by cases hv; rfl⟩, fun hv => by cases hv⟩
  | l :: ls, h, w => by
    simp only [plainOkAll] at h
    rw [NetNode.layersOf, chainWidth]
    rintro X cbs rfl
    obtain ⟨h1, h2⟩ := net_hasWidth hs train l h.1 X.cols X rfl
    cases hw : NetNode.width E s l X.cols with
    | none =>
      refine ⟨fun v hv => (by cases hv), fun _ hX => ?_⟩
      obtain ⟨e, he⟩ := h2 hw hX
      exact ⟨e, by simp only [chainLoop, he, bind, Except.bind]⟩
    | some u =>
      obtain ⟨Y, cb, eY, r1, r2⟩ := h1 u hw
      obtain ⟨t1, t2⟩ := netChain_hasWidth hs train ls h.2 u Y (cbs ++ [cb]) r2
      refine ⟨fun v hv => ?_, fun hv hX => ?_⟩
      · obtain ⟨Z, cbs', e, r3, r4⟩ := t1 v hv
        exact ⟨Z, cbs', by simp only [chainLoop, eY, e, bind, Except.bind], r3.trans r1, r4⟩
      · obtain ⟨e, he⟩ := t2 hv (by rw [r1]; exact hX)
        exact ⟨e, by simp only [chainLoop, eY, he, bind, Except.bind]⟩
theorem netAll_hasWidth {E : NetEnv} {s : NetState} (hs : Sane E s) (train : Bool) : ∀ (ls : List NetNode), plainOkAll ls → ∀ w,
    List.Forall₂ (fun L o => HasWidth L train s.params w o) (NetNode.layersOf E s ls) (ls.map fun l => NetNode.width E s l w)
  | [], _, w => by
    rw [NetNode.layersOf]
    exact .nil
  | l :: ls, h, w => by
    simp only [plainOkAll] at h
    rw [NetNode.layersOf]
    exact .cons (net_hasWidth hs train l h.1 w) (netAll_hasWidth hs train ls h.2 w)
end

end Thinc
