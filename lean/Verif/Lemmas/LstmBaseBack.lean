import Verif.Model.LstmBase
import Verif.Lemmas.LstmBackProps
/-!
# The backward pass of the base class computes zeros
-/
namespace Thinc
open Spec

/-- All gradients of one cell are zero. -/
structure ZeroGrads (g : GateWeights) (nI nO : ℕ) : Prop where
  shape : WeightShape g nI nO
  Wx : ∀ m < 4 * nO, ∀ k < nI, g.Wx.at m k = 0
  Wh : ∀ m < 4 * nO, ∀ k < nO, g.Wh.at m k = 0
  bias : ∀ m < 4 * nO, g.bias.at 0 m = 0

theorem zeroGrads_of {g : GateWeights} {start nI nO : ℕ} (h : GatesOf g (cellWeights (fun _ => 0) start nI nO) nI nO)
    (hs : WeightShape g nI nO) : ZeroGrads g nI nO := by
  have hm : ∀ m, 4 * (m / 4) + m % 4 = m := fun m => Nat.div_add_mod m 4
  refine ⟨hs, fun m hm' k hk => ?_, fun m hm' k hk => ?_, fun m hm' => ?_⟩
  · have := h.Wx (m % 4) (by omega) (m / 4) (by omega) k hk
    rw [hm] at this
    show g.Wx.val (m * g.Wx.cols + k) = 0
    rw [hs.xc]
    exact this
  · have := h.Wh (m % 4) (by omega) (m / 4) (by omega) k hk
    rw [hm] at this
    show g.Wh.val (m * g.Wh.cols + k) = 0
    rw [hs.hc]
    exact this
  · have := h.bias (m % 4) (by omega) (m / 4) (by omega)
    rw [hm] at this
    rw [this]
    show (0 : ℝ) + 0 = 0
    ring

theorem ZeroGrads.untranspose {g : GateWeights} {nI nO : ℕ} (h : ZeroGrads g nI nO) :
    (untranspose g).length = cellSize nI nO ∧ ∀ x ∈ Thinc.untranspose g, x = 0 := by
  refine ⟨untranspose_length g nI nO h.shape, fun x hx => ?_⟩
  unfold Thinc.untranspose at hx
  rw [unGate_eq g.Wx nI nO h.shape.xr h.shape.xc (fun _ => 0) fun q hq o ho k hk => h.Wx _ (by omega) k hk,
    unGate_eq g.Wh nO nO h.shape.hr h.shape.hc (fun _ => 0) fun q hq o ho k hk => h.Wh _ (by omega) k hk,
    unGateBias_eq g.bias nO h.shape.bc (fun _ => 0) fun q hq o ho => h.bias _ (by omega)] at hx
  simp only [List.mem_append, List.mem_map, List.mem_replicate] at hx
  rcases hx with ((⟨_, _, rfl⟩ | ⟨_, _, rfl⟩) | ⟨_, _, rfl⟩) | ⟨_, rfl⟩ <;> rfl

theorem zeros_at (r c i j : ℕ) : (Mat.zeros r c : Mat ℝ).at i j = 0 := rfl

/-- A zero matrix. -/
def IsZero (M : Mat ℝ) (r c : ℕ) : Prop := M.rows = r ∧ M.cols = c ∧ ∀ i, ∀ j < c, M.at i j = 0

theorem baseBackDirection_ok (rev : Bool) (N nI nO : ℕ) (dX dYd dC : Mat ℝ) (T : LstmTrace) (X : Mat ℝ) (w grad : GateWeights) (sizes : List ℕ)
    (hne : sizes ≠ []) (hdX : IsZero dX N nI) (hg : ZeroGrads grad nI nO) :
    ∃ dX' dC' g', baseBackDirection rev N nO (Mat.zeros N (nO * 4)) dX dYd dC T X w grad sizes = .ok (dX', dC', g') ∧
      IsZero dX' N nI ∧ ZeroGrads g' nI nO := by
  obtain ⟨e, es, he⟩ : ∃ e es, lstmBackOrder rev sizes = e :: es := by
    cases h : lstmBackOrder rev sizes with
    | nil =>
      have := lstmBackOrder_length rev sizes
      rw [h] at this
      exact absurd (List.length_eq_zero_iff.1 this.symm) hne
    | cons e es => exact ⟨e, es, rfl⟩
  apply Exists.intro
  apply Exists.intro
  apply Exists.intro
  refine ⟨?_, ?_, ?_⟩
  · unfold baseBackDirection
    simp only [he, List.head?_cons, Option.elim_some, bind, Except.bind, pure, Except.pure]
    rfl
  · refine ⟨hdX.1, hdX.2.1, fun i j hj => ?_⟩
    rw [ofFn_at _ _ _ _ _ (by rw [hdX.2.1]; exact hj), hdX.2.2 i j hj]
    simp [zeros_at]
  · refine ⟨⟨hg.shape.xr, hg.shape.xc, hg.shape.hr, hg.shape.hc, rfl, hg.shape.bc⟩, fun m hm k hk => ?_, fun m hm k hk => ?_, fun m hm => ?_⟩
    · simp only
      rw [ofFn_at _ _ _ _ _ (by rw [hg.shape.xc]; exact hk), hg.Wx m hm k hk]
      simp [zeros_at]
    · simp only
      rw [ofFn_at _ _ _ _ _ (by rw [hg.shape.hc]; exact hk), hg.Wh m hm k hk]
      simp [zeros_at]
    · simp only
      rw [ofFn_at _ _ _ _ _ (by rw [hg.shape.bc]; exact hm), hg.bias m hm]
      simp [zeros_at]

theorem baseBackDirs_ok (N nI nO dirs : ℕ) (dY dC : Mat ℝ) (Ts : List LstmTrace) (X : Mat ℝ) (ws grads : List GateWeights) (sizes : List ℕ)
    (hne : sizes ≠ []) (hX : X.cols = nI) (hT : Ts.length = dirs) (hws : ws.length = dirs) (hgl : grads.length = dirs)
    (hg : ∀ d (hd : d < grads.length), ZeroGrads grads[d] nI nO) :
    ∃ dX dC' gs, forM' (List.range dirs) (Mat.zeros N X.cols, dC, []) (baseBackDir N dirs nO (Mat.zeros N (nO * 4)) dY Ts X ws grads sizes) =
        .ok (dX, dC', gs) ∧ IsZero dX N nI ∧ gs.length = dirs ∧ ∀ g ∈ gs, ZeroGrads g nI nO := by
  obtain ⟨s, es, h1, h2, h3⟩ := forM'_inv (List.range dirs) (baseBackDir N dirs nO (Mat.zeros N (nO * 4)) dY Ts X ws grads sizes)
    (fun d s => IsZero s.1 N nI ∧ s.2.2.length = d ∧ ∀ g ∈ s.2.2, ZeroGrads g nI nO) (Mat.zeros N X.cols, dC, [])
    ⟨⟨rfl, hX, fun _ _ _ => rfl⟩, rfl, fun g hg => absurd hg (by simp)⟩ (by
      rintro d hd ⟨dX, dC, gs⟩ ⟨h1, h2, h3⟩
      rw [List.length_range] at hd
      rw [List.getElem_range]
      simp only at h1 h2 h3
      obtain ⟨dX', dC', g', e, z, zg⟩ := baseBackDirection_ok (d ≠ 0) N nI nO dX ((dirGrad N dirs nO d dY).toMat N nO) dC
        (Ts[d]'(by omega)) X (ws[d]'(by omega)) (grads[d]'(by omega)) sizes hne h1 (hg d (by omega))
      refine ⟨(dX', dC', gs ++ [g']), ?_, z, by simp [h2], fun g hg => ?_⟩
      · unfold baseBackDir
        rw [List.getElem?_eq_getElem (show d < ws.length by omega), List.getElem?_eq_getElem (show d < grads.length by omega),
          List.getElem?_eq_getElem (show d < Ts.length by omega)]
        simp only [Option.elim_some, bind, Except.bind, pure, Except.pure, e]
      · rcases List.mem_append.1 hg with h | h
        · exact h3 g h
        · rw [List.mem_singleton.1 h]
          exact zg)
  rw [List.length_range] at h2
  exact ⟨s.1, s.2.1, s.2.2, es, h1, h2, h3⟩

theorem flatMap_untranspose (gs : List GateWeights) (nI nO : ℕ) (h : ∀ g ∈ gs, ZeroGrads g nI nO) :
    (gs.flatMap untranspose).length = gs.length * cellSize nI nO ∧ ∀ x ∈ gs.flatMap untranspose, x = 0 := by
  induction gs with
  | nil => simp
  | cons g gs ih =>
    obtain ⟨h1, h2⟩ := ih fun g' hg' => h g' (List.mem_cons_of_mem _ hg')
    obtain ⟨h3, h4⟩ := (h g List.mem_cons_self).untranspose
    refine ⟨?_, fun x hx => ?_⟩
    · rw [List.flatMap_cons, List.length_append, h1, h3, List.length_cons]
      ring
    · rw [List.flatMap_cons, List.mem_append] at hx
      rcases hx with hx | hx
      · exact h4 x hx
      · exact h2 x hx

theorem cellStart_full (nI nO dirs i : ℕ) :
    cellStart nI nO dirs (i + 1) 0 = cellStart nI nO dirs i 0 + dirs * cellSize (layerWidth nI nO dirs i) nO := by
  rw [cellStart_next]
  cases i with
  | zero => simp [cellStart, layerWidth]
  | succ i => simp only [cellStart, layerWidth, Nat.succ_ne_zero, if_false]; ring

theorem sideBySides_ok (N nO dirs : ℕ) (hN : 0 < N) (all : List (List LstmTrace)) (h : ∀ Ts ∈ all, Ts.length = dirs) :
    ∃ Hs, all.mapM (sideBySide N nO) = .ok Hs ∧ Hs.length = all.length ∧ ∀ H ∈ Hs, H.cols = dirs * nO := by
  induction all with
  | nil => exact ⟨[], rfl, rfl, fun H hH => absurd hH (by simp)⟩
  | cons Ts all ih =>
    obtain ⟨Hs, e, hl, hc⟩ := ih fun Ts hT => h Ts (List.mem_cons_of_mem _ hT)
    obtain ⟨H0, e1, hH0⟩ : ∃ H0, sideBySide N nO Ts = .ok H0 ∧ H0.cols = Ts.length * nO := by
      unfold sideBySide
      rw [if_neg (by omega)]
      exact ⟨_, rfl, rfl⟩
    refine ⟨H0 :: Hs, ?_, by rw [List.length_cons, List.length_cons, hl], ?_⟩
    · rw [List.mapM_cons, e1, e]
      rfl
    · intro H hH
      rcases List.mem_cons.1 hH with rfl | hH
      · rw [hH0, h Ts List.mem_cons_self]
      · exact hc H hH

theorem baseBackward_ok (params : Buf ℝ) (depth dirs nO nI : ℕ) (dY : Mat ℝ) (sizes : List ℕ) (X : Mat ℝ) (all : List (List LstmTrace))
    (hI : 0 < nI) (hO : 0 < nO) (hd : 0 < dirs) (hdep : 0 < depth) (hX : X.cols = nI) (hpos : 0 < X.rows) (hne : sizes ≠ [])
    (hsize : cellStart nI nO dirs depth 0 ≤ params.size) (hall : all.length = depth) (hT : ∀ Ts ∈ all, Ts.length = dirs)
    (hr : dY.rows = X.rows) (hc : dY.cols = dirs * nO) :
    ∃ dX dparams, baseBackward params depth dirs nO dY sizes X all = .ok (dX, dparams) ∧ IsZero dX X.rows nI ∧
      dparams.length = cellStart nI nO dirs depth 0 ∧ ∀ x ∈ dparams, x = 0 := by
  subst hX
  obtain ⟨ws, ew, hwl, hws⟩ := collectWeights_ok params X.cols nO dirs depth hI hO hd hsize
  obtain ⟨gs, eg, hgl, hgs⟩ := collectWeights_ok ⟨params.size, fun _ => 0⟩ X.cols nO dirs depth hI hO hd hsize
  obtain ⟨Hs, eH, hHl, hHc⟩ := sideBySides_ok X.rows nO dirs hpos (all.take (depth - 1)) fun Ts h => hT Ts (List.mem_of_mem_take h)
  rw [List.length_take] at hHl
  have hfirst : ∃ n, firstLength sizes = .ok n := by
    cases sizes with
    | nil => exact absurd rfl hne
    | cons n _ => exact ⟨n, rfl⟩
  obtain ⟨n0, e0⟩ := hfirst
  have hXs : ∀ i < depth, ∃ Z : Mat ℝ, (X :: Hs)[i]? = some Z ∧ Z.cols = layerWidth X.cols nO dirs i := by
    intro i hi
    cases i with
    | zero => exact ⟨X, rfl, by simp [layerWidth]⟩
    | succ i =>
      have hlt : i < Hs.length := by omega
      exact ⟨Hs[i], by rw [List.getElem?_cons_succ, List.getElem?_eq_getElem hlt], by
        rw [hHc _ (List.getElem_mem hlt), layerWidth_succ]⟩
  obtain ⟨s, es, h1, h2, h3, h4⟩ := forM'_inv (List.range depth).reverse
    (baseBackLayer X.rows dirs nO (Mat.zeros X.rows (nO * 4)) all (X :: Hs) ws gs sizes)
    (fun k s => s.1.rows * s.1.cols = X.rows * layerWidth X.cols nO dirs (depth - k) ∧ (0 < k → IsZero s.1 X.rows (layerWidth X.cols nO dirs (depth - k))) ∧
      (s.2.2.flatten.flatMap untranspose).length + cellStart X.cols nO dirs (depth - k) 0 = cellStart X.cols nO dirs depth 0 ∧
      ∀ x ∈ s.2.2.flatten.flatMap untranspose, x = 0) (dY, Mat.zeros X.rows nO, [])
    ⟨by
      simp only [Nat.sub_zero]
      obtain ⟨k, rfl⟩ : ∃ k, depth = k + 1 := ⟨depth - 1, by omega⟩
      rw [hr, hc, layerWidth_succ], fun h => absurd h (Nat.lt_irrefl 0), by simp, fun x hx => absurd hx (by simp)⟩ (by
      rintro k hk ⟨dY', dC, done⟩ ⟨h1, _, h3, h4⟩
      rw [List.length_reverse, List.length_range] at hk
      have hidx : (List.range depth).reverse[k]'(by simpa using hk) = depth - 1 - k := by
        rw [List.getElem_reverse, List.getElem_range, List.length_range]
      rw [hidx]
      simp only at h1 h3 h4
      set i := depth - 1 - k with hi
      have hik : depth - k = i + 1 := by omega
      have hik' : depth - (k + 1) = i := by omega
      have hid : i < depth := by omega
      rw [hik] at h1 h3
      rw [hik']
      obtain ⟨Z, eZ, hZ⟩ := hXs i hid
      have hTl : i < all.length := by omega
      have hwi : i < ws.length := by omega
      have hgi : i < gs.length := by omega
      obtain ⟨dX, dC', g', e, z, hl, zg⟩ := baseBackDirs_ok X.rows (layerWidth X.cols nO dirs i) nO dirs dY' dC all[i] Z ws[i] gs[i] sizes hne hZ
        (hT _ (List.getElem_mem hTl)) (hws i hwi).1 (hgs i hgi).1 fun d hd => by
          obtain ⟨a, b⟩ := (hgs i hgi).2 d hd
          exact zeroGrads_of a b
      obtain ⟨f1, f2⟩ := flatMap_untranspose g' _ nO zg
      refine ⟨(dX, dC', g' :: done), ?_, ?_, fun _ => z, ?_, ?_⟩
      · unfold baseBackLayer checkReshape
        rw [if_pos (by simp only; rw [h1, layerWidth_succ]; ring), eZ, List.getElem?_eq_getElem hTl, List.getElem?_eq_getElem hwi,
          List.getElem?_eq_getElem hgi]
        simp only [Option.elim_some, bind, Except.bind, pure, Except.pure, e]
      · simp only
        rw [z.1, z.2.1]
      · simp only [List.flatten_cons, List.flatMap_append, List.length_append, f1, hl]
        rw [cellStart_full] at h3
        omega
      · intro x hx
        simp only [List.flatten_cons, List.flatMap_append, List.mem_append] at hx
        rcases hx with hx | hx
        · exact f2 x hx
        · exact h4 x hx)
  rw [List.length_reverse, List.length_range, Nat.sub_self] at h2 h3
  have hw0 : layerWidth X.cols nO dirs 0 = X.cols := by simp [layerWidth]
  rw [hw0] at h2
  refine ⟨s.1, s.2.2.flatten.flatMap untranspose, ?_, h2 hdep, by simpa [cellStart] using h3, h4⟩
  unfold baseBackward
  simp only [bind, Except.bind, pure, Except.pure, e0, ew, eg, eH, es]

end Thinc
