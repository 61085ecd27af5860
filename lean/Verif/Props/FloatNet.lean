import Verif.Lemmas.FloatNet
import Verif.Props.FloatAcc
import Verif.Lemmas.NetWidth
import Verif.Props.Chain
/-!
# C134: feed-forward networks in floating point
-/
namespace Thinc
open Spec FloatLib BigOperators
variable {L : FloatLib} {count : ℕ} {u η v : ℝ}

theorem hidden_near (ok : IsFloatLib L count) (ac : Accurate L u η v) {cpu : Bool} : ∀ {ds : List FlDense} {ls : List DenseReal},
    List.Forall₂ (IsFlDense L) ds ls → ∀ {X Y : Mat Fl}, L.ReluChain cpu ds X Y → ∀ {x : ℕ → ℕ → ℝ} {M e : ℝ}, 0 ≤ M → 0 ≤ e → NearMat L X x M e →
    ∀ {last : DenseReal}, NoOverflow u η L.big (ls ++ [last]) M e →
    Y.rows = X.rows ∧ ∃ M' e', 0 ≤ M' ∧ 0 ≤ e' ∧ NearMat L Y (fun i => hiddenReal ls (x i)) M' e' ∧ NoOverflow u η L.big [last] M' e' ∧
      netError u η (ls ++ [last]) M e = netError u η [last] M' e' := by
  intro ds ls h
  induction h with
  | nil =>
    intro X Y hY x M e hM he hX last hb
    cases hY
    exact ⟨rfl, M, e, hM, he, hX, hb, rfl⟩
  | @cons d l ds ls hd _ ih =>
    intro X Y hY x M e hM he hX last hb
    obtain ⟨Z, ⟨A, hA, z1, z2, z3⟩, hZ⟩ := hY
    obtain ⟨a1, a2, a3⟩ := affine_near ok ac hd hA hM he hX hb.1
    have hs := outSize_nonneg hd.size hM
    have hz := relu_near ok hs z1 z2 z3 a3
    obtain ⟨r, rest⟩ := ih hZ hs (outError_nonneg ac hd.size hM he) hz hb.2
    exact ⟨r.trans (z1.trans a1), rest⟩

/-- **C134.**  The scores of a network of `Relu` layers that ends with `Linear`, computed in floating point, are near those of real numbers,
for every number and width of the layers, every batch and every order of the additions, unless a layer may overflow.  The inputs are at most `M`,
and may themselves be off by `e`. -/
theorem C134_scores (ok : IsFloatLib L count) (ac : Accurate L u η v) {cpu : Bool} {ds : List FlDense} {ls : List DenseReal} {d : FlDense}
    {last : DenseReal} (hs : List.Forall₂ (IsFlDense L) ds ls) (hd : IsFlDense L d last) {X Y : Mat Fl} (h : L.Scores cpu ds d X Y) {x : ℕ → ℕ → ℝ} {M e : ℝ}
    (hM : 0 ≤ M) (he : 0 ≤ e) (hX : NearMat L X x M e) (hb : NoOverflow u η L.big (ls ++ [last]) M e) :
    Y.rows = X.rows ∧ Y.cols = last.nO ∧ ∀ i < X.rows, ∀ j < last.nO, ∃ r, Y.at i j = .fin r ∧ IsFinite L (Y.at i j) ∧
      |r - scoresReal ls last (x i) j| ≤ netError u η (ls ++ [last]) M e := by
  obtain ⟨Z, hZ, hY⟩ := h
  obtain ⟨r1, M', e', hM', he', hN, hb', hE⟩ := hidden_near ok ac hs hZ hM he hX hb
  obtain ⟨a1, a2, a3⟩ := affine_near ok ac hd hY hM' he' hN hb'.1
  refine ⟨a1.trans r1, a2, fun i hi j hj => ?_⟩
  rw [hE]
  exact (a3 i (by rw [a1, r1]; exact hi) j (by rw [a2]; exact hj)).2

/-- The predicted class does not depend on the backend, the batch or the order of the additions, and is that of the real numbers, if its score is
ahead by more than twice the error. -/
theorem C134_class (ok : IsFloatLib L count) (ac : Accurate L u η v) {cpu : Bool} {ds : List FlDense} {ls : List DenseReal} {d : FlDense}
    {last : DenseReal} (hs : List.Forall₂ (IsFlDense L) ds ls) (hd : IsFlDense L d last) {X Y : Mat Fl} (h : L.Scores cpu ds d X Y) {x : ℕ → ℕ → ℝ} {M e : ℝ}
    (hM : 0 ≤ M) (he : 0 ≤ e) (hX : NearMat L X x M e) (hb : NoOverflow u η L.big (ls ++ [last]) M e) {i : ℕ} (hi : i < X.rows) {best : ℕ}
    (hbest : best < last.nO) (hahead : ∀ j < last.nO, j ≠ best →
      scoresReal ls last (x i) j + 2 * netError u η (ls ++ [last]) M e < scoresReal ls last (x i) best) :
    ∀ j < last.nO, j ≠ best → (Y.at i j).lt (Y.at i best) := by
  intro j hj hne
  obtain ⟨-, -, h3⟩ := C134_scores ok ac hs hd h hM he hX hb
  obtain ⟨r, r1, -, r2⟩ := h3 i hi j hj
  obtain ⟨s, s1, -, s2⟩ := h3 i hi best hbest
  rw [r1, s1]
  show r < s
  have := hahead j hj hne
  rw [abs_le] at r2 s2
  linarith [r2.1, r2.2, s2.1, s2.2]

/-- Two runs (on different backends, in batches of different sizes, with different orders of the additions) differ by at most twice the error. -/
theorem C134_backends (ok : IsFloatLib L count) (ac : Accurate L u η v) {cpu cpu' : Bool} {ds : List FlDense} {ls : List DenseReal} {d : FlDense}
    {last : DenseReal} (hs : List.Forall₂ (IsFlDense L) ds ls) (hd : IsFlDense L d last) {X X' Y Y' : Mat Fl} (h : L.Scores cpu ds d X Y)
    (h' : L.Scores cpu' ds d X' Y') {M : ℝ} (hM : 0 ≤ M)
    (hX : ∀ i < X.rows, ∀ k < X.cols, IsFinite L (X.at i k) ∧ |(X.at i k).val| ≤ M)
    (hX' : ∀ i < X'.rows, ∀ k < X'.cols, IsFinite L (X'.at i k) ∧ |(X'.at i k).val| ≤ M)
    (hb : NoOverflow u η L.big (ls ++ [last]) M 0) {i i' : ℕ} (hi : i < X.rows) (hi' : i' < X'.rows) (hsame : ∀ k, X.at i k = X'.at i' k)
    {j : ℕ} (hj : j < last.nO) :
    ∃ r s, Y.at i j = .fin r ∧ Y'.at i' j = .fin s ∧ |r - s| ≤ 2 * netError u η (ls ++ [last]) M 0 := by
  have near : ∀ {Z : Mat Fl}, (∀ i < Z.rows, ∀ k < Z.cols, IsFinite L (Z.at i k) ∧ |(Z.at i k).val| ≤ M) →
      NearMat L Z (fun i k => (Z.at i k).val) M 0 := by
    intro Z hZ i hi k hk
    obtain ⟨⟨r, h1, h2, h3⟩, h4⟩ := hZ i hi k hk
    refine ⟨h4, r, h1, ⟨r, h1, h2, h3⟩, ?_⟩
    simp only [h1, Fl.val, sub_self, abs_zero, le_refl]
  obtain ⟨-, -, h3⟩ := C134_scores ok ac hs hd h hM le_rfl (near hX) hb
  obtain ⟨-, -, h3'⟩ := C134_scores ok ac hs hd h' hM le_rfl (near hX') hb
  obtain ⟨r, r1, -, r2⟩ := h3 i hi j hj
  obtain ⟨s, s1, -, s2⟩ := h3' i' hi' j hj
  refine ⟨r, s, r1, s1, ?_⟩
  have : (fun k => (X.at i k).val) = fun k => (X'.at i' k).val := funext fun k => by rw [hsame]
  simp only [this] at r2
  rw [abs_le] at *
  constructor <;> linarith [r2.1, r2.2, s2.1, s2.2]

/-! ### Softmax -/

theorem softmax_shift {xs ys : List ℝ} {e : ℝ} (h : List.Forall₂ (fun x y => |x - y| ≤ e) xs ys) :
    (xs.map Real.exp).sum ≤ Real.exp e * (ys.map Real.exp).sum := by
  induction h with
  | nil => simp
  | @cons x y xs ys hxy _ ih =>
    simp only [List.map_cons, List.sum_cons, mul_add]
    have : Real.exp x ≤ Real.exp e * Real.exp y := by
      rw [← Real.exp_add]
      exact Real.exp_le_exp.2 (by rw [abs_le] at hxy; linarith [hxy.2])
    linarith

theorem softmax_lipschitz_one {xs ys : List ℝ} {e : ℝ} (he : 0 ≤ e) (h : List.Forall₂ (fun x y => |x - y| ≤ e) xs ys) {i : ℕ} {p q : ℝ}
    (hp : (softmaxReal xs)[i]? = some p) (hq : (softmaxReal ys)[i]? = some q) : p ≤ q + (Real.exp (2 * e) - 1) := by
  unfold softmaxReal at hp hq
  rw [List.getElem?_map, Option.map_eq_some_iff] at hp hq
  obtain ⟨x, hx, rfl⟩ := hp
  obtain ⟨y, hy, rfl⟩ := hq
  have hsym : List.Forall₂ (fun x y => |x - y| ≤ e) ys xs := h.flip.imp fun a b hab => by rw [abs_sub_comm]; exact hab
  have h1 := softmax_shift hsym
  have hxy : |x - y| ≤ e := by
    obtain ⟨hxl, rfl⟩ := List.getElem?_eq_some_iff.1 hx
    obtain ⟨hyl, rfl⟩ := List.getElem?_eq_some_iff.1 hy
    exact (List.forall₂_iff_get.1 h).2 i hxl hyl
  have hpos : ∀ {zs : List ℝ} {z : ℝ}, z ∈ zs → Real.exp z ≤ (zs.map Real.exp).sum := by
    intro zs z hz
    exact List.single_le_sum (fun y hy => by obtain ⟨w, _, rfl⟩ := List.mem_map.1 hy; exact (Real.exp_pos _).le) _ (List.mem_map_of_mem hz)
  have sx : 0 < (xs.map Real.exp).sum := (Real.exp_pos x).trans_le (hpos (List.mem_of_getElem? hx))
  have sy : 0 < (ys.map Real.exp).sum := (Real.exp_pos y).trans_le (hpos (List.mem_of_getElem? hy))
  have hq1 : Real.exp y / (ys.map Real.exp).sum ≤ 1 := (div_le_one sy).2 (hpos (List.mem_of_getElem? hy))
  have hxe : Real.exp x ≤ Real.exp e * Real.exp y := by
    rw [← Real.exp_add]
    exact Real.exp_le_exp.2 (by rw [abs_le] at hxy; linarith [hxy.2])
  have he2 : Real.exp (2 * e) = Real.exp e * Real.exp e := by rw [← Real.exp_add]; congr 1; ring
  have h2 : Real.exp x / (xs.map Real.exp).sum ≤ Real.exp (2 * e) * (Real.exp y / (ys.map Real.exp).sum) := by
    rw [← mul_div_assoc, div_le_div_iff₀ sx sy, he2]
    calc Real.exp x * (ys.map Real.exp).sum ≤ (Real.exp e * Real.exp y) * (Real.exp e * (xs.map Real.exp).sum) :=
          mul_le_mul hxe h1 sy.le (by positivity)
      _ = _ := by ring
  have h3 : (1 : ℝ) ≤ Real.exp (2 * e) := Real.one_le_exp (by linarith)
  nlinarith

theorem softmax_lipschitz {xs ys : List ℝ} {e : ℝ} (he : 0 ≤ e) (h : List.Forall₂ (fun x y => |x - y| ≤ e) xs ys) {i : ℕ} {p q : ℝ}
    (hp : (softmaxReal xs)[i]? = some p) (hq : (softmaxReal ys)[i]? = some q) : |p - q| ≤ Real.exp (2 * e) - 1 := by
  have h1 := softmax_lipschitz_one he h hp hq
  have h2 := softmax_lipschitz_one he (h.flip.imp fun a b hab => by rw [abs_sub_comm]; exact hab) hq hp
  rw [abs_le]
  constructor <;> linarith

/-- The error of a network, and of the computation of `softmax` itself (C127). -/
noncomputable def softmaxNetError (u η v E : ℝ) (n : ℕ) : ℝ :=
  (u + η + (1 / (1 - u) ^ n - 1) + (n + 1) * (2 * u + v + 3 * η)) + (Real.exp (2 * E) - 1)

/-- With `Softmax` at the end, the network returns probabilities near those of real numbers. -/
theorem C134_probabilities (ok : IsFloatLib L count) (ac : Accurate L u η v) {cpu : Bool} {ds : List FlDense} {ls : List DenseReal} {d : FlDense}
    {last : DenseReal} (hs : List.Forall₂ (IsFlDense L) ds ls) (hd : IsFlDense L d last) (hO : 0 < last.nO) (hcount : last.nO ≤ count) {X : Mat Fl}
    {P : ℕ → Except PyErr (List Fl)} (h : L.Probabilities cpu ds d X P) {x : ℕ → ℕ → ℝ} {M e : ℝ} (hM : 0 ≤ M) (he : 0 ≤ e)
    (hX : NearMat L X x M e) (hb : NoOverflow u η L.big (ls ++ [last]) M e) {i : ℕ} (hi : i < X.rows) :
    ∃ ps : List ℝ, P i = .ok (ps.map .fin) ∧ ps.length = last.nO ∧
      ∀ (j : ℕ) p q, ps[j]? = some p → (softmaxReal ((List.range last.nO).map (scoresReal ls last (x i))))[j]? = some q →
        |p - q| ≤ softmaxNetError u η v (netError u η (ls ++ [last]) M e) last.nO := by
  obtain ⟨Y, hY, hr, hP⟩ := h
  obtain ⟨-, c2, c3⟩ := C134_scores ok ac hs hd hY hM he hX hb
  have hval : ∀ j < last.nO, Y.at i j = .fin (Y.at i j).val ∧ IsFinite L (Y.at i j) ∧
      |(Y.at i j).val - scoresReal ls last (x i) j| ≤ netError u η (ls ++ [last]) M e := by
    intro j hj
    obtain ⟨r, r1, r2, r3⟩ := c3 i hi j hj
    rw [r1] at r2 ⊢
    exact ⟨rfl, r2, r3⟩
  have hrow : flRow Y i = ((List.range last.nO).map fun j => (Y.at i j).val).map .fin := by
    unfold flRow
    rw [c2, List.map_map]
    exact List.map_congr_left fun j hj => (hval j (List.mem_range.1 hj)).1
  obtain ⟨ps, p1, p2, p3⟩ := C127_softmax_accurate ok ac ((List.range last.nO).map fun j => (Y.at i j).val)
    (by intro hc; rw [List.map_eq_nil_iff, List.range_eq_nil] at hc; omega) (by simpa using hcount) (by
      intro z hz
      obtain ⟨j, hj, rfl⟩ := List.mem_map.1 hz
      have := hval j (List.mem_range.1 hj)
      rw [← this.1]
      exact this.2.1)
  rw [List.length_map, List.length_range] at p2 p3
  refine ⟨ps, by rw [hP i (hr ▸ hi), hrow, p1], p2, fun j p q hp hq => ?_⟩
  have hE : 0 ≤ netError u η (ls ++ [last]) M e := by
    obtain ⟨-, -, h3⟩ := hval 0 hO
    exact (abs_nonneg _).trans h3
  have hj : j < last.nO := by
    obtain ⟨hl, -⟩ := List.getElem?_eq_some_iff.1 hp
    omega
  obtain ⟨q', hq'⟩ : ∃ q', (softmaxReal ((List.range last.nO).map fun j => (Y.at i j).val))[j]? = some q' := by
    unfold softmaxReal
    rw [List.getElem?_map, List.getElem?_map, List.getElem?_range hj]
    exact ⟨_, rfl⟩
  have h1 := p3 j p q' hp hq'
  have h2 := softmax_lipschitz hE (xs := (List.range last.nO).map fun j => (Y.at i j).val)
    (ys := (List.range last.nO).map (scoresReal ls last (x i))) (by
      rw [List.forall₂_map_left_iff, List.forall₂_map_right_iff, List.forall₂_same]
      exact fun j hj => (hval j (List.mem_range.1 hj)).2.2) hq' hq
  unfold softmaxNetError
  rw [abs_le] at *
  constructor <;> linarith [h1.1, h1.2, h2.1, h2.2]

/-! ### The same network in the model with real numbers -/

/-- The parameters `W` and `b` with these ids are those of the layer. -/
structure HasParams (P : ParamVals) (p : ℕ × ℕ) (l : DenseReal) : Prop where
  W : shapeOf (P p.1) = (l.nO, l.nI)
  b : shapeOf (P p.2) = (1, l.nO)
  w : ∀ j < l.nO, ∀ k < l.nI, (P p.1).at j k = l.w j k
  c : ∀ j < l.nO, (P p.2).at 0 j = l.c j

/-- Each layer has as many inputs as the one before has outputs. -/
def Widths : ℕ → List DenseReal → ℕ → Prop
  | n, [], m => n = m
  | n, l :: ls, m => l.nI = n ∧ Widths l.nO ls m

theorem opsAffine_out {P : ParamVals} {p : ℕ × ℕ} {l : DenseReal} (h : HasParams P p l) {X : Mat ℝ} {x : ℕ → ℕ → ℝ} (hc : X.cols = l.nI)
    (hX : ∀ i < X.rows, ∀ k < X.cols, X.at i k = x i k) :
    ∃ Y, opsAffine X (P p.1) (P p.2) = .ok Y ∧ Y.rows = X.rows ∧ Y.cols = l.nO ∧ ∀ i < X.rows, ∀ j < l.nO, Y.at i j = l.out (x i) j := by
  obtain ⟨Z, eZ, hZ⟩ := (isMat_self X).gemm_nt (B := P p.1) (k := X.cols) (m := l.nO) (y := fun j k => l.w j k)
    ⟨(Prod.mk.inj h.W).1, ((Prod.mk.inj h.W).2).trans hc.symm, fun j k => h.w j j.2 k (hc ▸ k.2)⟩
  obtain ⟨Y, eY, hY⟩ := hZ.npUpdate_row (isMat_of_shape h.b) (· + ·)
  refine ⟨Y, ?_, hY.1, hY.2.1, fun i hi j hj => ?_⟩
  · unfold opsAffine addBias
    rw [eZ]
    exact eY
  · have := hY.2.2 ⟨i, hi⟩ ⟨j, hj⟩
    have e2 : (P p.2).at 0 j = l.c j := h.c j hj
    have e3 : l.out (x i) j = ∑ k : Fin X.cols, X.at i k * l.w j k + (P p.2).at 0 j := by
      unfold DenseReal.out
      rw [← hc, Finset.sum_range, e2]
      congr 1
      exact Finset.sum_congr rfl fun (k : Fin X.cols) _ => by rw [hX i hi k k.2]
    rw [e3]
    exact this

theorem cpuRelu_max (r : ℝ) : (if r ≤ 0 then 0 else r) = max 0 r := by
  split
  · rename_i h; rw [max_eq_left h]
  · rename_i h; rw [max_eq_right (not_le.1 h).le]

theorem linear_ok {train : Bool} {P : ParamVals} {W b : ℕ} {X Y Z : Mat ℝ} (h1 : gemm X (P W) false true = .ok Z) (h2 : addBias Z (P b) = .ok Y) :
    ∃ cb, linear W b train P (.arr X) = .ok (.arr Y, cb) := by
  unfold linear
  simp only [Val.asArr, bind, Except.bind, h1, h2, pure, Except.pure]
  exact ⟨_, rfl⟩

theorem real_loop {train : Bool} {P : ParamVals} {p : ℕ × ℕ} {last : DenseReal} (hl : HasParams P p last) : ∀ {ps : List (ℕ × ℕ)} {ls : List DenseReal},
    List.Forall₂ (HasParams P) ps ls → ∀ (X : Mat ℝ) (x : ℕ → ℕ → ℝ) (acc : List Callback), (∀ i < X.rows, ∀ k < X.cols, X.at i k = x i k) →
    Widths X.cols ls last.nI →
    ∃ Y cs, chainLoop train P (ps.map (fun p => reluLayer p.1 p.2) ++ [linear p.1 p.2]) (.arr X) acc = .ok (.arr Y, cs) ∧ Y.rows = X.rows ∧
      Y.cols = last.nO ∧ ∀ i < X.rows, ∀ j < last.nO, Y.at i j = scoresReal ls last (x i) j := by
  intro ps ls h
  induction h with
  | nil =>
    intro X x acc hX hw
    obtain ⟨Y, e, h1, h2, h3⟩ := opsAffine_out hl hw hX
    unfold opsAffine at e
    cases hg : gemm X (P p.1) false true with
    | error _ => rw [hg] at e; exact absurd e nofun
    | ok Z =>
      rw [hg] at e
      obtain ⟨cb, hcb⟩ := linear_ok (train := train) hg (show addBias Z (P p.2) = .ok Y from e)
      refine ⟨Y, acc ++ [cb], ?_, h1, h2, h3⟩
      show (do
        let (Y, cb) ← linear p.1 p.2 train P (.arr X)
        chainLoop train P [] Y (acc ++ [cb])) = _
      rw [hcb]
      rfl
  | @cons q l ps ls hq _ ih =>
    intro X x acc hX hw
    obtain ⟨Z, e, h1, h2, h3⟩ := opsAffine_out hq hw.1.symm hX
    have hZ : ∀ i < (Z.lift cpuRelu).rows, ∀ k < (Z.lift cpuRelu).cols, (Z.lift cpuRelu).at i k = max 0 (l.out (x i) k) := by
      intro i hi k hk
      rw [← h3 i (h1 ▸ hi) k (h2 ▸ hk), ← cpuRelu_max]
      rfl
    obtain ⟨Y, cs, c1, c2, c3, c4⟩ := ih (Z.lift cpuRelu) (fun i j => max 0 (l.out (x i) j))
      (acc ++ [fun dY G => do
        let dY ← dY.asArr
        let dY ← Mat.lift₂ cpuBackpropRelu dY (Z.lift cpuRelu)
        denseBackprop q.1 q.2 true P X dY G]) hZ (by
          show Widths Z.cols _ _
          rw [h2]; exact hw.2)
    refine ⟨Y, cs, ?_, c2.trans h1, c3, fun i hi j hj => c4 i (by show i < Z.rows; rw [h1]; exact hi) j hj⟩
    rw [← c1]
    show (do
      let (Y, cb) ← reluLayer q.1 q.2 train P (.arr X)
      chainLoop train P _ Y (acc ++ [cb])) = _
    unfold reluLayer dense
    show (do
      let (Y, cb) ← (do
        let preact ← opsAffine X (P q.1) (P q.2)
        _)
      chainLoop train P _ Y (acc ++ [cb])) = _
    rw [e]
    rfl

/-- What these networks compute in the model with real numbers, in which the other properties are stated: `scoresReal`. -/
theorem C134_real {P : ParamVals} {ps : List (ℕ × ℕ)} {ls : List DenseReal} {p : ℕ × ℕ} {last : DenseReal} (hs : List.Forall₂ (HasParams P) ps ls)
    (hl : HasParams P p last) (X : Mat ℝ) (hw : Widths X.cols ls last.nI) (train : Bool) :
    ∃ Y callback, chain (ps.map (fun p => reluLayer p.1 p.2) ++ [linear p.1 p.2]) train P (.arr X) = .ok (.arr Y, callback) ∧ Y.rows = X.rows ∧
      Y.cols = last.nO ∧ ∀ i < X.rows, ∀ j < last.nO, Y.at i j = scoresReal ls last (X.at i) j := by
  obtain ⟨Y, cs, h1, h2⟩ := real_loop (train := train) hl hs X (fun i => X.at i) [] (fun _ _ _ _ => rfl) hw
  refine ⟨Y, fun dY G => forM' cs.reverse (dY, G) (fun (dY, G) callback => callback dY G), ?_, h2⟩
  unfold chain
  rw [if_neg (by simp), h1]
  rfl

/-- So a prediction in floating point is near the prediction of the model with real numbers, with the same parameters and inputs. -/
theorem C134_model (ok : IsFloatLib L count) (ac : Accurate L u η v) {cpu : Bool} {ds : List FlDense} {ls : List DenseReal} {d : FlDense}
    {last : DenseReal} (hs : List.Forall₂ (IsFlDense L) ds ls) (hd : IsFlDense L d last) {X Y : Mat Fl} (h : L.Scores cpu ds d X Y) {M : ℝ} (hM : 0 ≤ M)
    (hb : NoOverflow u η L.big (ls ++ [last]) M 0) {P : ParamVals} {ps : List (ℕ × ℕ)} {p : ℕ × ℕ} (hps : List.Forall₂ (HasParams P) ps ls)
    (hp : HasParams P p last) {Xr : Mat ℝ} (hshape : Xr.rows = X.rows ∧ Xr.cols = X.cols)
    (hX : ∀ i < X.rows, ∀ k < X.cols, X.at i k = .fin (Xr.at i k) ∧ IsFinite L (X.at i k) ∧ |Xr.at i k| ≤ M) (hw : Widths Xr.cols ls last.nI) :
    ∃ Yr callback, chain (ps.map (fun p => reluLayer p.1 p.2) ++ [linear p.1 p.2]) false P (.arr Xr) = .ok (.arr Yr, callback) ∧ Y.rows = Yr.rows ∧
      Y.cols = Yr.cols ∧ ∀ i < Yr.rows, ∀ j < Yr.cols, ∃ r, Y.at i j = .fin r ∧ |r - Yr.at i j| ≤ netError u η (ls ++ [last]) M 0 := by
  obtain ⟨Yr, cb, h1, h2, h3, h4⟩ := C134_real hps hp Xr hw false
  obtain ⟨c1, c2, c3⟩ := C134_scores ok ac hs hd h (x := fun i => Xr.at i) hM le_rfl (by
    intro i hi k hk
    obtain ⟨a1, a2, a3⟩ := hX i hi k hk
    exact ⟨a3, _, a1, a2, by simp⟩) hb
  refine ⟨Yr, cb, h1, by rw [c1, h2, hshape.1], by rw [c2, h3], fun i hi j hj => ?_⟩
  rw [h2] at hi
  rw [h3] at hj
  obtain ⟨r, r1, -, r2⟩ := c3 i (hshape.1 ▸ hi) j hj
  exact ⟨r, r1, by rw [h4 i hi j hj]; exact r2⟩

/-- Overflow has different consequences on the backends: for minus infinity the kernel of `NumpyOps` returns zero, and the other backends NaN.
For finite numbers they agree. -/
theorem C134_relu (ok : IsFloatLib L count) :
    (∀ x, IsFinite L x → L.reluFl true x = L.reluFl false x) ∧ L.reluFl true (.inf true) = .fin 0 ∧ L.reluFl false (.inf true) = .nan := by
  refine ⟨fun x hx => ?_, ?_, ?_⟩
  · obtain ⟨r, rfl, h1, h2⟩ := hx
    rw [relu_fin ok ⟨r, rfl, h1, h2⟩, relu_fin ok ⟨r, rfl, h1, h2⟩]
  · show cpuReluFl _ = _
    exact if_pos trivial
  · show L.opsReluFl _ = _
    unfold opsReluFl
    rw [if_neg (show ¬ (Fl.fin 0).lt (.inf true) from id)]
    exact if_pos rfl

/-! ### A concrete case: float32, the row (1, 2), a hidden layer with the weights (1, 2) and the bias 3, and two classes with the weights 3 and 4
and the biases 1 and 1: the scores are 25 and 33 -/

theorem affine_exists (L : FloatLib) (X W : Mat Fl) (b : ℕ → Fl) (h : X.cols = W.cols) : ∃ Y, L.Affine X W b Y := by
  obtain ⟨Z, hZ⟩ := gemm_exists L X (flTranspose W) h
  refine ⟨⟨Z.rows, Z.cols, fun k => L.add (Z.at (k / Z.cols) (k % Z.cols)) (b (k % Z.cols))⟩, Z, hZ, rfl, rfl, fun i hi j hj => ?_⟩
  have hj : j < Z.cols := hj
  have e1 : (i * Z.cols + j) / Z.cols = i := by rw [Nat.add_comm, Nat.add_mul_div_right _ _ (by omega), Nat.div_eq_of_lt hj, Nat.zero_add]
  have e2 : (i * Z.cols + j) % Z.cols = j := by rw [Nat.add_comm, Nat.add_mul_mod_self_right, Nat.mod_eq_of_lt hj]
  show L.add (Z.at ((i * Z.cols + j) / Z.cols) ((i * Z.cols + j) % Z.cols)) (b ((i * Z.cols + j) % Z.cols)) = _
  rw [e1, e2]

theorem relu_exists (L : FloatLib) (cpu : Bool) (d : FlDense) (X : Mat Fl) (h : X.cols = d.W.cols) :
    ∃ Y, L.ReluForward cpu d X Y ∧ Y.rows = X.rows ∧ Y.cols = d.W.rows := by
  obtain ⟨Z, hZ⟩ := affine_exists L X d.W d.b h
  obtain ⟨-, s2, s3⟩ := affine_shape hZ
  exact ⟨⟨Z.rows, Z.cols, fun k => L.reluFl cpu (Z.val k)⟩, ⟨Z, hZ, rfl, rfl, fun _ _ _ _ => rfl⟩, s2, s3⟩

/-- Networks whose widths fit together have a result. -/
theorem scores_exist (L : FloatLib) (cpu : Bool) : ∀ (ds : List FlDense) (d : FlDense) (X : Mat Fl),
    (ds ++ [d]).IsChain (fun a b => a.W.rows = b.W.cols) → (∀ a, (ds ++ [d]).head? = some a → X.cols = a.W.cols) → ∃ Y, L.Scores cpu ds d X Y
  | [], d, X, _, h => by
    obtain ⟨Y, hY⟩ := affine_exists L X d.W d.b (h d rfl)
    exact ⟨Y, X, rfl, hY⟩
  | a :: ds, d, X, hc, h => by
    obtain ⟨Z, h1, -, h3⟩ := relu_exists L cpu a X (h a rfl)
    obtain ⟨Y, W, hW, hY⟩ := scores_exist L cpu ds d Z (List.IsChain.tail hc) (by
      intro b hb
      rw [h3]
      exact (List.isChain_cons.1 hc).1 b hb)
    exact ⟨Y, W, ⟨Z, h1, hW⟩, hY⟩

def netHidden : FlDense := ⟨flA, fun _ => .fin 3⟩
def netLast : FlDense := ⟨flB, fun _ => .fin 1⟩
def realHidden : DenseReal := ⟨2, 1, fun _ k => (k : ℝ) + 1, fun _ => 3, 3, 3⟩
def realLast : DenseReal := ⟨1, 2, fun j _ => (j : ℝ) + 3, fun _ => 1, 4, 1⟩

theorem netHidden_dense (ok : IsFloatLib L count) : IsFlDense L netHidden realHidden where
  rows := rfl
  cols := rfl
  W := flA_mat ok
  b := fun _ _ => ⟨rfl, by simpa [netHidden] using fl_small ok 3 (by decide)⟩
  size := ⟨by norm_num [realHidden], fun j _ => by
    have : |(1 : ℝ) + 1| = 2 := by norm_num
    simp [realHidden, Finset.sum_range_succ, this]; norm_num, fun j _ => by norm_num [realHidden]⟩

theorem netLast_dense (ok : IsFloatLib L count) : IsFlDense L netLast realLast where
  rows := rfl
  cols := rfl
  W := flB_mat ok
  b := fun _ _ => ⟨rfl, by simpa [netLast] using fl_small ok 1 (by decide)⟩
  size := ⟨by norm_num [realLast], fun j hj => by
    have hj : j < 2 := hj
    have : (j : ℝ) ≤ 1 := by exact_mod_cast (by omega : j ≤ 1)
    simp [realLast]
    rw [abs_of_nonneg (by positivity)]
    linarith, fun j _ => by norm_num [realLast]⟩

theorem net_input (ok : IsFloatLib L count) : NearMat L flA (fun _ k => (k : ℝ) + 1) 2 0 := by
  intro i hi k hk
  obtain ⟨h1, h2⟩ := flA_mat ok i hi k hk
  have hk : k < 2 := hk
  have : (k : ℝ) ≤ 1 := by exact_mod_cast (by omega : k ≤ 1)
  exact ⟨by rw [abs_of_nonneg (by positivity)]; linarith, _, h1, h2, by simp⟩

theorem net_score (j : ℕ) : scoresReal [realHidden] realLast (fun k => (k : ℝ) + 1) j = 8 * (j + 3) + 1 := by
  simp [scoresReal, hiddenReal, DenseReal.out, realHidden, realLast, Finset.sum_range_succ]
  norm_num

theorem net_error : netError (1 / 2 ^ 23) (1 / 2 ^ 149) [realHidden, realLast] 2 0 ≤ 1 / 10000 := by
  simp only [netError, DenseReal.outError, DenseReal.outSize, dotError, realHidden, realLast]
  norm_num

theorem net_fits : NoOverflow (1 / 2 ^ 23) (1 / 2 ^ 149) float32Lib.big ([realHidden] ++ [realLast]) 2 0 := by
  have hb := float32Lib_ok.bigBound
  simp only [List.cons_append, List.nil_append, NoOverflow, DenseReal.outError, DenseReal.outSize, dotError, realHidden, realLast, and_true]
  constructor <;> refine le_trans ?_ (show (100 : ℝ) ≤ _ by linarith) <;> norm_num

/-- A result exists on every backend, and every result is near 25 and 33. -/
example (cpu : Bool) : (∃ Y, float32Lib.Scores cpu [netHidden] netLast flA Y) ∧ ∀ Y, float32Lib.Scores cpu [netHidden] netLast flA Y →
    ∃ r s, Y.at 0 0 = .fin r ∧ Y.at 0 1 = .fin s ∧ |r - 25| ≤ 1 / 10000 ∧ |s - 33| ≤ 1 / 10000 := by
  refine ⟨scores_exist _ _ _ _ _ (by simp [netHidden, netLast, flA, flB]) (by intro a h; cases h; rfl), fun Y hY => ?_⟩
  obtain ⟨-, -, h3⟩ := C134_scores float32Lib_ok float32_accurate (.cons (netHidden_dense float32Lib_ok) .nil) (netLast_dense float32Lib_ok) hY
    (by norm_num) le_rfl (net_input float32Lib_ok) net_fits
  obtain ⟨r, r1, -, r2⟩ := h3 0 (by decide) 0 (by decide)
  obtain ⟨s, s1, -, s2⟩ := h3 0 (by decide) 1 (by decide)
  rw [net_score] at r2 s2
  have r2 := r2.trans net_error
  have s2 := s2.trans net_error
  rw [show (8 : ℝ) * ((0 : ℕ) + 3) + 1 = 25 by norm_num] at r2
  rw [show (8 : ℝ) * ((1 : ℕ) + 3) + 1 = 33 by norm_num] at s2
  exact ⟨r, s, r1, s1, r2, s2⟩

/-- The second class always wins. -/
example (cpu : Bool) (Y : Mat Fl) (hY : float32Lib.Scores cpu [netHidden] netLast flA Y) : (Y.at 0 0).lt (Y.at 0 1) := by
  refine C134_class float32Lib_ok float32_accurate (.cons (netHidden_dense float32Lib_ok) .nil) (netLast_dense float32Lib_ok) hY
    (by norm_num) le_rfl (net_input float32Lib_ok) net_fits (i := 0) (by decide) (best := 1) (by decide) (fun j hj hne => ?_) 0 (by decide) (by decide)
  have hj : j < 2 := hj
  obtain rfl : j = 0 := by omega
  rw [net_score, net_score]
  have : netError (1 / 2 ^ 23) (1 / 2 ^ 149) ([realHidden] ++ [realLast]) 2 0 ≤ 1 / 10000 := net_error
  norm_num at this ⊢
  linarith

/-- The probabilities, with `Softmax` instead of `Linear`. -/
example (cpu : Bool) : ∃ P, float32Lib.Probabilities cpu [netHidden] netLast flA P ∧
    ∃ ps : List ℝ, P 0 = .ok (ps.map .fin) ∧ ps.length = 2 := by
  obtain ⟨Y, hY⟩ := scores_exist float32Lib cpu [netHidden] netLast flA (by simp [netHidden, netLast, flA, flB]) (by intro a h; cases h; rfl)
  obtain ⟨h1, -, -⟩ := C134_scores float32Lib_ok float32_accurate (.cons (netHidden_dense float32Lib_ok) .nil) (netLast_dense float32Lib_ok) hY
    (by norm_num) le_rfl (net_input float32Lib_ok) net_fits
  have hP : float32Lib.Probabilities cpu [netHidden] netLast flA fun i => float32Lib.softmaxRow (.fin 1) (flRow Y i) := ⟨Y, hY, h1, fun _ _ => rfl⟩
  obtain ⟨ps, p1, p2, -⟩ := C134_probabilities float32Lib_ok float32_accurate (.cons (netHidden_dense float32Lib_ok) .nil) (netLast_dense float32Lib_ok)
    (by decide) (by norm_num [realLast]) hP (by norm_num) le_rfl (net_input float32Lib_ok) net_fits (i := 0) (by decide)
  exact ⟨_, hP, ps, p1, p2⟩

/-- The same parameters and the same input in the model with real numbers. -/
noncomputable def netParams : ParamVals := fun p =>
  if p = 0 then ⟨1, 2, fun k => (k : ℝ) + 1⟩ else if p = 1 then ⟨1, 1, fun _ => 3⟩ else if p = 2 then ⟨2, 1, fun k => (k : ℝ) + 3⟩ else ⟨1, 2, fun _ => 1⟩

theorem netParams_hidden : HasParams netParams (0, 1) realHidden where
  W := rfl
  b := rfl
  w := fun j hj k hk => by
    obtain rfl : j = 0 := by have : j < 1 := hj; omega
    simp [netParams, realHidden, Mat.at]
  c := fun j _ => by simp [netParams, realHidden, Mat.at]

theorem netParams_last : HasParams netParams (2, 3) realLast where
  W := rfl
  b := rfl
  w := fun j hj k hk => by
    obtain rfl : k = 0 := by have : k < 1 := hk; omega
    simp [netParams, realLast, Mat.at]
  c := fun j _ => by simp [netParams, realLast, Mat.at]

example (cpu : Bool) (Y : Mat Fl) (hY : float32Lib.Scores cpu [netHidden] netLast flA Y) :
    ∃ Yr callback, chain [reluLayer 0 1, linear 2 3] false netParams (.arr ⟨1, 2, fun k => (k : ℝ) + 1⟩) = .ok (.arr Yr, callback) ∧
      ∀ i < Yr.rows, ∀ j < Yr.cols, ∃ r, Y.at i j = .fin r ∧ |r - Yr.at i j| ≤ 1 / 10000 := by
  obtain ⟨Yr, cb, h1, -, -, h4⟩ := C134_model float32Lib_ok float32_accurate (.cons (netHidden_dense float32Lib_ok) .nil) (netLast_dense float32Lib_ok) hY
    (by norm_num : (0 : ℝ) ≤ 2) net_fits (.cons netParams_hidden .nil) netParams_last (Xr := ⟨1, 2, fun k => (k : ℝ) + 1⟩) ⟨rfl, rfl⟩
    (by
      intro i hi k hk
      obtain ⟨a1, r, a2, a3, -⟩ := net_input float32Lib_ok i hi k hk
      obtain rfl : i = 0 := by have : i < 1 := hi; omega
      refine ⟨by simp [flA, Mat.at], a3, by simpa [Mat.at] using a1⟩)
    ⟨rfl, rfl⟩
  refine ⟨Yr, cb, h1, fun i hi j hj => ?_⟩
  obtain ⟨r, r1, r2⟩ := h4 i hi j hj
  exact ⟨r, r1, r2.trans net_error⟩

/-- Two backends. -/
example (Y Y' : Mat Fl) (hY : float32Lib.Scores true [netHidden] netLast flA Y) (hY' : float32Lib.Scores false [netHidden] netLast flA Y') :
    ∃ r s, Y.at 0 1 = .fin r ∧ Y'.at 0 1 = .fin s ∧ |r - s| ≤ 1 / 1000 := by
  have hin : ∀ i < flA.rows, ∀ k < flA.cols, IsFinite float32Lib (flA.at i k) ∧ |(flA.at i k).val| ≤ 2 := by
    intro i hi k hk
    obtain ⟨a1, r, a2, a3, a4⟩ := net_input float32Lib_ok i hi k hk
    have := near_size (net_input float32Lib_ok) hi hk
    exact ⟨a3, by simpa using this.1⟩
  obtain ⟨r, s, h1, h2, h3⟩ := C134_backends float32Lib_ok float32_accurate (.cons (netHidden_dense float32Lib_ok) .nil) (netLast_dense float32Lib_ok) hY hY'
    (by norm_num : (0 : ℝ) ≤ 2) hin hin net_fits (i := 0) (i' := 0) (by decide) (by decide) (fun _ => rfl) (j := 1) (by decide)
  refine ⟨r, s, h1, h2, h3.trans ?_⟩
  have : netError (1 / 2 ^ 23) (1 / 2 ^ 149) ([realHidden] ++ [realLast]) 2 0 ≤ 1 / 10000 := net_error
  linarith

example := C134_relu float32Lib_ok

end Thinc
