import Verif.Lemmas.FloatMaxout
import Verif.Props.FloatNet
import Verif.Props.MaxoutLayer
/-!
# C136: networks of Relu and Maxout layers in floating point
-/
namespace Thinc
open Spec FloatLib BigOperators
variable {L : FloatLib} {count : ℕ} {u η v : ℝ}

theorem hiddenForward_near (ok : IsFloatLib L count) (ac : Accurate L u η v) {backend : FlBackend} {h : FlHidden} {l : HiddenReal} (hh : IsFlHidden L h l)
    {X Y : Mat Fl} (hY : L.HiddenForward backend h X Y) {x : ℕ → ℕ → ℝ} {M e : ℝ} (hM : 0 ≤ M) (he : 0 ≤ e) (hX : NearMat L X x M e)
    (hb : l.dense.outSize (M + e) + dotError u η (l.dense.nI + 1) (l.dense.outSize (M + e)) ≤ L.big) :
    Y.rows = X.rows ∧ NearMat L Y (fun i => l.out (x i)) (l.dense.outSize M) (l.dense.outError u η M e) ∧ 0 ≤ l.dense.outSize M ∧
      0 ≤ l.dense.outError u η M e := by
  cases hh with
  | relu hd =>
    obtain ⟨A, hA, z1, z2, z3⟩ := hY
    obtain ⟨a1, a2, a3⟩ := affine_near ok ac hd hA hM he hX hb
    have hs := outSize_nonneg hd.size hM
    exact ⟨z1.trans a1, relu_near ok hs z1 z2 z3 a3, hs, outError_nonneg ac hd.size hM he⟩
  | maxout hd hn =>
    obtain ⟨A, hA, z0, z1, z2, z3⟩ := hY
    obtain ⟨a1, a2, a3⟩ := affine_near ok ac hd hA hM he hX hb
    exact ⟨z1.trans a1, maxout_near z1 z2 z0 z3 a3, outSize_nonneg hd.size hM, outError_nonneg ac hd.size hM he⟩

theorem mixed_near (ok : IsFloatLib L count) (ac : Accurate L u η v) {backend : FlBackend} : ∀ {hs : List FlHidden} {ls : List HiddenReal},
    List.Forall₂ (IsFlHidden L) hs ls → ∀ {X Y : Mat Fl}, L.HiddenChain backend hs X Y → ∀ {x : ℕ → ℕ → ℝ} {M e : ℝ}, 0 ≤ M → 0 ≤ e →
    NearMat L X x M e → ∀ {last : DenseReal}, NoOverflow u η L.big (denseParts ls last) M e →
    Y.rows = X.rows ∧ ∃ M' e', 0 ≤ M' ∧ 0 ≤ e' ∧ NearMat L Y (fun i => mixedHidden ls (x i)) M' e' ∧ NoOverflow u η L.big [last] M' e' ∧
      netError u η (denseParts ls last) M e = netError u η [last] M' e' := by
  intro hs ls h
  induction h with
  | nil =>
    intro X Y hY x M e hM he hX last hb
    cases hY
    exact ⟨rfl, M, e, hM, he, hX, hb, rfl⟩
  | @cons d l ds ls hd _ ih =>
    intro X Y hY x M e hM he hX last hb
    obtain ⟨Z, hZ, hrest⟩ := hY
    obtain ⟨a1, a2, a3, a4⟩ := hiddenForward_near ok ac hd hZ hM he hX hb.1
    obtain ⟨r, rest⟩ := ih hrest a3 a4 a2 hb.2
    exact ⟨r.trans a1, rest⟩

/-- **C136.**  The scores of a network of `Relu` and `Maxout` layers that ends with `Linear`, computed in floating point, are near those of real
numbers, for every number, width and order of the layers, every number of pieces, every batch and every order of the additions, unless a layer may
overflow.  The inputs are at most `M`, and may themselves be off by `e`. -/
theorem C136_scores (ok : IsFloatLib L count) (ac : Accurate L u η v) {backend : FlBackend} {hs : List FlHidden} {ls : List HiddenReal} {d : FlDense}
    {last : DenseReal} (hh : List.Forall₂ (IsFlHidden L) hs ls) (hd : IsFlDense L d last) {X Y : Mat Fl} (h : L.MixedScores backend hs d X Y)
    {x : ℕ → ℕ → ℝ} {M e : ℝ} (hM : 0 ≤ M) (he : 0 ≤ e) (hX : NearMat L X x M e) (hb : NoOverflow u η L.big (denseParts ls last) M e) :
    Y.rows = X.rows ∧ Y.cols = last.nO ∧ ∀ i < X.rows, ∀ j < last.nO, ∃ r, Y.at i j = .fin r ∧ IsFinite L (Y.at i j) ∧
      |r - mixedScores ls last (x i) j| ≤ netError u η (denseParts ls last) M e := by
  obtain ⟨Z, hZ, hY⟩ := h
  obtain ⟨r1, M', e', hM', he', hN, hb', hE⟩ := mixed_near ok ac hh hZ hM he hX hb
  obtain ⟨a1, a2, a3⟩ := affine_near ok ac hd hY hM' he' hN hb'.1
  refine ⟨a1.trans r1, a2, fun i hi j hj => ?_⟩
  rw [hE]
  exact (a3 i (by rw [a1, r1]; exact hi) j (by rw [a2]; exact hj)).2

/-- The predicted class does not depend on the backend, the batch or the order of the additions, and is that of the real numbers, if its score is
ahead by more than twice the error. -/
theorem C136_class (ok : IsFloatLib L count) (ac : Accurate L u η v) {backend : FlBackend} {hs : List FlHidden} {ls : List HiddenReal} {d : FlDense}
    {last : DenseReal} (hh : List.Forall₂ (IsFlHidden L) hs ls) (hd : IsFlDense L d last) {X Y : Mat Fl} (h : L.MixedScores backend hs d X Y)
    {x : ℕ → ℕ → ℝ} {M e : ℝ} (hM : 0 ≤ M) (he : 0 ≤ e) (hX : NearMat L X x M e) (hb : NoOverflow u η L.big (denseParts ls last) M e) {i : ℕ}
    (hi : i < X.rows) {best : ℕ} (hbest : best < last.nO) (hahead : ∀ j < last.nO, j ≠ best →
      mixedScores ls last (x i) j + 2 * netError u η (denseParts ls last) M e < mixedScores ls last (x i) best) :
    ∀ j < last.nO, j ≠ best → (Y.at i j).lt (Y.at i best) := by
  intro j hj hne
  obtain ⟨-, -, h3⟩ := C136_scores ok ac hh hd h hM he hX hb
  obtain ⟨r, r1, -, r2⟩ := h3 i hi j hj
  obtain ⟨s, s1, -, s2⟩ := h3 i hi best hbest
  rw [r1, s1]
  show r < s
  have := hahead j hj hne
  rw [abs_le] at r2 s2
  linarith [r2.1, r2.2, s2.1, s2.2]

/-- Two runs (on different backends, in batches of different sizes, with different orders of the additions) differ by at most twice the error. -/
theorem C136_backends (ok : IsFloatLib L count) (ac : Accurate L u η v) {backend backend' : FlBackend} {hs : List FlHidden} {ls : List HiddenReal}
    {d : FlDense} {last : DenseReal} (hh : List.Forall₂ (IsFlHidden L) hs ls) (hd : IsFlDense L d last) {X X' Y Y' : Mat Fl}
    (h : L.MixedScores backend hs d X Y) (h' : L.MixedScores backend' hs d X' Y') {M : ℝ} (hM : 0 ≤ M)
    (hX : ∀ i < X.rows, ∀ k < X.cols, IsFinite L (X.at i k) ∧ |(X.at i k).val| ≤ M)
    (hX' : ∀ i < X'.rows, ∀ k < X'.cols, IsFinite L (X'.at i k) ∧ |(X'.at i k).val| ≤ M)
    (hb : NoOverflow u η L.big (denseParts ls last) M 0) {i i' : ℕ} (hi : i < X.rows) (hi' : i' < X'.rows) (hsame : ∀ k, X.at i k = X'.at i' k)
    {j : ℕ} (hj : j < last.nO) :
    ∃ r s, Y.at i j = .fin r ∧ Y'.at i' j = .fin s ∧ |r - s| ≤ 2 * netError u η (denseParts ls last) M 0 := by
  have near : ∀ {Z : Mat Fl}, (∀ i < Z.rows, ∀ k < Z.cols, IsFinite L (Z.at i k) ∧ |(Z.at i k).val| ≤ M) →
      NearMat L Z (fun i k => (Z.at i k).val) M 0 := by
    intro Z hZ i hi k hk
    obtain ⟨⟨r, h1, h2, h3⟩, h4⟩ := hZ i hi k hk
    refine ⟨h4, r, h1, ⟨r, h1, h2, h3⟩, ?_⟩
    simp only [h1, Fl.val, sub_self, abs_zero, le_refl]
  obtain ⟨-, -, h3⟩ := C136_scores ok ac hh hd h hM le_rfl (near hX) hb
  obtain ⟨-, -, h3'⟩ := C136_scores ok ac hh hd h' hM le_rfl (near hX') hb
  obtain ⟨r, r1, -, r2⟩ := h3 i hi j hj
  obtain ⟨s, s1, -, s2⟩ := h3' i' hi' j hj
  refine ⟨r, s, r1, s1, ?_⟩
  have : (fun k => (X.at i k).val) = fun k => (X'.at i' k).val := funext fun k => by rw [hsame]
  simp only [this] at r2
  rw [abs_le] at *
  constructor <;> linarith [r2.1, r2.2, s2.1, s2.2]

theorem softmaxRow_near (ok : IsFloatLib L count) (ac : Accurate L u η v) {Y : Mat Fl} {i n : ℕ} {s : ℕ → ℝ} {E : ℝ} (hn : 0 < n) (hcount : n ≤ count)
    (hc : Y.cols = n) (h : ∀ j < n, ∃ r, Y.at i j = .fin r ∧ IsFinite L (Y.at i j) ∧ |r - s j| ≤ E) :
    ∃ ps : List ℝ, L.softmaxRow (.fin 1) (flRow Y i) = .ok (ps.map .fin) ∧ ps.length = n ∧
      ∀ (j : ℕ) p q, ps[j]? = some p → (softmaxReal ((List.range n).map s))[j]? = some q → |p - q| ≤ softmaxNetError u η v E n := by
  have hval : ∀ j < n, Y.at i j = .fin (Y.at i j).val ∧ IsFinite L (Y.at i j) ∧ |(Y.at i j).val - s j| ≤ E := by
    intro j hj
    obtain ⟨r, r1, r2, r3⟩ := h j hj
    rw [r1] at r2 ⊢
    exact ⟨rfl, r2, r3⟩
  have hrow : flRow Y i = ((List.range n).map fun j => (Y.at i j).val).map .fin := by
    unfold flRow
    rw [hc, List.map_map]
    exact List.map_congr_left fun j hj => (hval j (List.mem_range.1 hj)).1
  obtain ⟨ps, p1, p2, p3⟩ := C127_softmax_accurate ok ac ((List.range n).map fun j => (Y.at i j).val)
    (by intro hc; rw [List.map_eq_nil_iff, List.range_eq_nil] at hc; omega) (by simpa using hcount) (by
      intro z hz
      obtain ⟨j, hj, rfl⟩ := List.mem_map.1 hz
      have := hval j (List.mem_range.1 hj)
      rw [← this.1]
      exact this.2.1)
  rw [List.length_map, List.length_range] at p2 p3
  refine ⟨ps, by rw [hrow, p1], p2, fun j p q hp hq => ?_⟩
  have hE : 0 ≤ E := (abs_nonneg _).trans (hval 0 hn).2.2
  have hj : j < n := by
    obtain ⟨hl, -⟩ := List.getElem?_eq_some_iff.1 hp
    omega
  obtain ⟨q', hq'⟩ : ∃ q', (softmaxReal ((List.range n).map fun j => (Y.at i j).val))[j]? = some q' := by
    unfold softmaxReal
    rw [List.getElem?_map, List.getElem?_map, List.getElem?_range hj]
    exact ⟨_, rfl⟩
  have h1 := p3 j p q' hp hq'
  have h2 := softmax_lipschitz hE (xs := (List.range n).map fun j => (Y.at i j).val) (ys := (List.range n).map s) (by
      rw [List.forall₂_map_left_iff, List.forall₂_map_right_iff, List.forall₂_same]
      exact fun j hj => (hval j (List.mem_range.1 hj)).2.2) hq' hq
  unfold softmaxNetError
  rw [abs_le] at *
  constructor <;> linarith [h1.1, h1.2, h2.1, h2.2]

/-- With `Softmax` at the end, the network returns probabilities near those of real numbers. -/
theorem C136_probabilities (ok : IsFloatLib L count) (ac : Accurate L u η v) {backend : FlBackend} {hs : List FlHidden} {ls : List HiddenReal}
    {d : FlDense} {last : DenseReal} (hh : List.Forall₂ (IsFlHidden L) hs ls) (hd : IsFlDense L d last) (hO : 0 < last.nO) (hcount : last.nO ≤ count)
    {X : Mat Fl} {P : ℕ → Except PyErr (List Fl)} (h : L.MixedProbabilities backend hs d X P) {x : ℕ → ℕ → ℝ} {M e : ℝ} (hM : 0 ≤ M) (he : 0 ≤ e)
    (hX : NearMat L X x M e) (hb : NoOverflow u η L.big (denseParts ls last) M e) {i : ℕ} (hi : i < X.rows) :
    ∃ ps : List ℝ, P i = .ok (ps.map .fin) ∧ ps.length = last.nO ∧
      ∀ (j : ℕ) p q, ps[j]? = some p → (softmaxReal ((List.range last.nO).map (mixedScores ls last (x i))))[j]? = some q →
        |p - q| ≤ softmaxNetError u η v (netError u η (denseParts ls last) M e) last.nO := by
  obtain ⟨Y, hY, hr, hP⟩ := h
  obtain ⟨-, c2, c3⟩ := C136_scores ok ac hh hd hY hM he hX hb
  obtain ⟨ps, p1, p2⟩ := softmaxRow_near ok ac hO hcount c2 (c3 i hi)
  exact ⟨ps, (hP i (hr ▸ hi)).trans p1, p2⟩

/-- The backends agree on finite candidates, however many: all return the largest. -/
theorem C136_pieces (backend : FlBackend) (r : ℝ) (rs : List ℝ) :
    ∃ m, maxoutFl backend (.fin r) (rs.map .fin) = .fin m ∧ m ∈ r :: rs ∧ ∀ x ∈ r :: rs, x ≤ m := maxoutFl_fin backend r rs

/-- With NaN among the candidates each backend has another result.  For three pieces `a`, NaN, `c` with `a < c` the kernel of `NumpyOps` returns `a`,
which is neither the largest number nor NaN, `Ops` returns NaN, and the kernel of `CupyOps` returns `c`. -/
theorem C136_nan (a c : ℝ) (h : a < c) :
    maxoutFl .cpu (.fin a) [.nan, .fin c] = .fin a ∧ maxoutFl .ops (.fin a) [.nan, .fin c] = .nan ∧ maxoutFl .gpu (.fin a) [.nan, .fin c] = .fin c := by
  refine ⟨?_, ?_, ?_⟩
  · show cpuMaxoutFl _ _ = _
    unfold cpuMaxoutFl
    rw [if_neg (by simp), if_pos (by simp)]
    have e1 : argsMaxFl .nan [.fin c] = .nan := if_neg (show ¬ Fl.nan.lt (.fin c) from id)
    show (open Classical in if (Fl.fin a).lt (argsMaxFl .nan [.fin c]) then argsMaxFl .nan [.fin c] else .fin a) = _
    rw [e1]
    exact if_neg (show ¬ (Fl.fin a).lt .nan from id)
  · show Fl.max (Fl.max (.fin a) .nan) (.fin c) = .nan
    rw [show Fl.max (.fin a) .nan = .nan from if_pos (.inr rfl)]
    exact if_pos (.inl rfl)
  · show loopMaxFl (open Classical in if (Fl.fin a).lt .nan then .nan else .fin a) [.fin c] = _
    rw [if_neg (show ¬ (Fl.fin a).lt .nan from id)]
    exact if_pos (show (Fl.fin a).lt (.fin c) from h)

/-- Of the `Relu` layers, only those of `NumpyOps` turn an output that has overflowed to minus infinity into zero; `Ops` and `CupyOps` make it NaN. -/
theorem C136_relu (d : FlDense) (X Y : Mat Fl) (backend : FlBackend) (h : L.HiddenForward backend (.relu d) X Y) :
    ∃ Z, L.Affine X d.W d.b Z ∧ ∀ i < Y.rows, ∀ j < Y.cols, Z.at i j = .inf true → Y.at i j = match backend with
      | .cpu => .fin 0
      | .ops => .nan
      | .gpu => .nan := by
  obtain ⟨Z, h1, -, -, h2⟩ := h
  refine ⟨Z, h1, fun i hi j hj hinf => ?_⟩
  rw [h2 i hi j hj, hinf]
  have e : L.opsReluFl (.inf true) = .nan := by
    unfold opsReluFl
    rw [if_neg (show ¬ (Fl.fin 0).lt (.inf true) from id)]
    exact if_pos rfl
  cases backend
  · exact if_pos trivial
  · exact e
  · exact e

/-! ### The same network in the model with real numbers -/

/-- The parameters with these ids are those of the hidden layer. -/
inductive HasHidden (P : ParamVals) : ℕ × ℕ → HiddenReal → Prop
  | relu {p : ℕ × ℕ} {l : DenseReal} : HasParams P p l → HasHidden P p (.relu l)
  | maxout {p : ℕ × ℕ} {nO n : ℕ} {l : DenseReal} : 0 < nO → l.nO = nO * (n + 1) → shapeOf (P p.1) = (nO * (n + 1), l.nI) →
      shapeOf (P p.2) = (nO, n + 1) → (∀ j < l.nO, ∀ k < l.nI, (P p.1).at j k = l.w j k) →
      (∀ o < nO, ∀ q ≤ n, (P p.2).at o q = l.c (o * (n + 1) + q)) → HasHidden P p (.maxout nO n l)

/-- The layer of the model with real numbers. -/
noncomputable def hiddenLayer (junk : ℕ → ℝ) (junkW : ℕ → ℤ) (p : ℕ × ℕ) : HiddenReal → Layer
  | .relu _ => reluLayer p.1 p.2
  | .maxout nO n l => maxoutLayer junk junkW p.1 p.2 nO (n + 1) l.nI

/-- Each layer has as many inputs as the one before has outputs. -/
def MixedWidths : ℕ → List HiddenReal → ℕ → Prop
  | n, [], m => n = m
  | n, l :: ls, m => l.dense.nI = n ∧ MixedWidths l.width ls m

theorem hiddenLayer_out {junk : ℕ → ℝ} {junkW : ℕ → ℤ} {train : Bool} {P : ParamVals} {p : ℕ × ℕ} {l : HiddenReal} (h : HasHidden P p l) {X : Mat ℝ}
    {x : ℕ → ℕ → ℝ} (hc : X.cols = l.dense.nI) (hX : ∀ i < X.rows, ∀ k < X.cols, X.at i k = x i k) :
    ∃ Y cb, hiddenLayer junk junkW p l train P (.arr X) = .ok (.arr Y, cb) ∧ Y.rows = X.rows ∧ Y.cols = l.width ∧
      ∀ i < X.rows, ∀ j < l.width, Y.at i j = l.out (x i) j := by
  cases h with
  | @relu l h =>
    obtain ⟨Z, e, h1, h2, h3⟩ := opsAffine_out h hc hX
    refine ⟨Z.lift cpuRelu, fun dY G => do
      let dY ← dY.asArr
      let dY ← Mat.lift₂ cpuBackpropRelu dY (Z.lift cpuRelu)
      denseBackprop p.1 p.2 true P X dY G, ?_, h1, h2, fun i hi j hj => ?_⟩
    · show reluLayer p.1 p.2 train P (.arr X) = _
      unfold reluLayer dense
      show (do
        let preact ← opsAffine X (P p.1) (P p.2)
        _) = _
      rw [e]
      rfl
    · show _ = max 0 (l.out (x i) j)
      rw [← h3 i hi j hj, ← cpuRelu_max]
      rfl
  | @maxout nO n l hO hn hW hb hw hcc =>
    have eW2 : (P p.1).reshape (nO * (n + 1)) l.nI = .ok ⟨nO * (n + 1), l.nI, (P p.1).val⟩ := by
      unfold Mat.reshape
      rw [(Prod.mk.inj hW).1, (Prod.mk.inj hW).2, if_pos rfl]
    have eb1 : (P p.2).reshape 1 (nO * (n + 1)) = .ok ⟨1, nO * (n + 1), (P p.2).val⟩ := by
      unfold Mat.reshape
      rw [(Prod.mk.inj hb).1, (Prod.mk.inj hb).2, if_pos (by ring)]
    let P' : ParamVals := fun k => if k = 0 then ⟨nO * (n + 1), l.nI, (P p.1).val⟩ else ⟨1, nO * (n + 1), (P p.2).val⟩
    have hP' : HasParams P' (0, 1) l := by
      refine ⟨?_, ?_, fun j hj k hk => ?_, fun j hj => ?_⟩
      · show (nO * (n + 1), l.nI) = _
        rw [hn]
      · show (1, nO * (n + 1)) = _
        rw [hn]
      · rw [← hw j hj k hk]
        show (P p.1).val (j * l.nI + k) = (P p.1).val (j * (P p.1).cols + k)
        rw [(Prod.mk.inj hW).2]
      · have e1 : j / (n + 1) < nO := Nat.div_lt_of_lt_mul (by rw [Nat.mul_comm, ← hn]; exact hj)
        have e2 : j % (n + 1) ≤ n := Nat.le_of_lt_succ (Nat.mod_lt _ (Nat.succ_pos _))
        have e3 : j / (n + 1) * (n + 1) + j % (n + 1) = j := Nat.div_add_mod' _ _
        have := hcc _ e1 _ e2
        rw [e3] at this
        rw [← this]
        show (P p.2).val (0 * (nO * (n + 1)) + j) = (P p.2).val (j / (n + 1) * (P p.2).cols + j % (n + 1))
        rw [(Prod.mk.inj hb).2, e3, Nat.zero_mul, Nat.zero_add]
    obtain ⟨Y, eY, y1, y2, y3⟩ := opsAffine_out hP' hc hX
    unfold opsAffine at eY
    cases hg : gemm X (P' 0) false true with
    | error _ => rw [hg] at eY; exact absurd eY nofun
    | ok Z =>
      rw [hg] at eY
      have eY' : npUpdate (· + ·) Z ⟨1, nO * (n + 1), (P p.2).val⟩ = .ok Y := eY
      have hg' : gemm X ⟨nO * (n + 1), l.nI, (P p.1).val⟩ false true = .ok Z := hg
      have eZ : Y.reshape3 Y.rows nO (n + 1) = .ok ⟨X.rows, nO, n + 1, Y.val⟩ := by
        unfold Mat.reshape3
        rw [y1, y2, hn, if_pos (by ring)]
      obtain ⟨best, which, eM, r1, r2, -, -, hM⟩ := C41_maxout junk junkW ⟨X.rows, nO, n + 1, Y.val⟩ hO (Nat.succ_pos n)
      refine ⟨best, _, by
        simp only [hiddenLayer, maxoutLayer, Val.asArr, bind, Except.bind, eW2, hg', eb1, eY', eZ, eM, pure, Except.pure]; rfl, r1, r2,
        fun i hi j hj => ?_⟩
      obtain ⟨t, ⟨ht1, ht2, -⟩, -, g2⟩ := hM i hi j hj
      have hv : ∀ q < n + 1, Cube.at ⟨X.rows, nO, n + 1, Y.val⟩ i j q = l.out (x i) (j * (n + 1) + q) := by
        intro q hq
        rw [← y3 i hi _ (by rw [hn]; exact piece_lt hj (by omega))]
        show Y.val ((i * nO + j) * (n + 1) + q) = Y.val (i * Y.cols + (j * (n + 1) + q))
        rw [y2, hn]
        congr 1
        ring
      rw [g2, hv t ht1]
      show _ = maxTo (fun q => l.out (x i) (j * (n + 1) + q)) n
      obtain ⟨q, hq, eq⟩ := maxTo_mem (fun q => l.out (x i) (j * (n + 1) + q)) n
      refine le_antisymm (maxTo_ge (fun q => l.out (x i) (j * (n + 1) + q)) (Nat.le_of_lt_succ ht1)) ?_
      rw [eq]
      have := ht2 q (Nat.lt_succ_of_le hq)
      beta_reduce at this
      rw [hv t ht1, hv q (Nat.lt_succ_of_le hq)] at this
      exact this

theorem mixed_loop {junk : ℕ → ℝ} {junkW : ℕ → ℤ} {train : Bool} {P : ParamVals} {p : ℕ × ℕ} {last : DenseReal} (hl : HasParams P p last) :
    ∀ {ps : List (ℕ × ℕ)} {ls : List HiddenReal}, List.Forall₂ (HasHidden P) ps ls → ∀ (X : Mat ℝ) (x : ℕ → ℕ → ℝ) (acc : List Callback),
    (∀ i < X.rows, ∀ k < X.cols, X.at i k = x i k) → MixedWidths X.cols ls last.nI →
    ∃ Y cs, chainLoop train P (List.zipWith (hiddenLayer junk junkW) ps ls ++ [linear p.1 p.2]) (.arr X) acc = .ok (.arr Y, cs) ∧ Y.rows = X.rows ∧
      Y.cols = last.nO ∧ ∀ i < X.rows, ∀ j < last.nO, Y.at i j = mixedScores ls last (x i) j := by
  intro ps ls h
  induction h with
  | nil =>
    intro X x acc hX hw
    exact real_loop (ps := []) hl .nil X x acc hX hw
  | @cons q l ps ls hq _ ih =>
    intro X x acc hX hw
    obtain ⟨Z, cb, e, h1, h2, h3⟩ := hiddenLayer_out (junk := junk) (junkW := junkW) (train := train) hq hw.1.symm hX
    obtain ⟨Y, cs, c1, c2, c3, c4⟩ := ih Z (fun i => l.out (x i)) (acc ++ [cb]) (fun i hi k hk => h3 i (h1 ▸ hi) k (h2 ▸ hk)) (by
      rw [h2]; exact hw.2)
    refine ⟨Y, cs, ?_, c2.trans h1, c3, fun i hi j hj => c4 i (by rw [h1]; exact hi) j hj⟩
    rw [← c1]
    show (do
      let (Y, cb) ← hiddenLayer junk junkW q l train P (.arr X)
      chainLoop train P _ Y (acc ++ [cb])) = _
    rw [e]
    rfl

/-- What these networks compute in the model with real numbers, in which the other properties are stated: `mixedScores`. -/
theorem C136_real {P : ParamVals} {ps : List (ℕ × ℕ)} {ls : List HiddenReal} {p : ℕ × ℕ} {last : DenseReal} (hs : List.Forall₂ (HasHidden P) ps ls)
    (hl : HasParams P p last) (X : Mat ℝ) (hw : MixedWidths X.cols ls last.nI) (junk : ℕ → ℝ) (junkW : ℕ → ℤ) (train : Bool) :
    ∃ Y callback, chain (List.zipWith (hiddenLayer junk junkW) ps ls ++ [linear p.1 p.2]) train P (.arr X) = .ok (.arr Y, callback) ∧
      Y.rows = X.rows ∧ Y.cols = last.nO ∧ ∀ i < X.rows, ∀ j < last.nO, Y.at i j = mixedScores ls last (X.at i) j := by
  obtain ⟨Y, cs, h1, h2⟩ := mixed_loop (junk := junk) (junkW := junkW) (train := train) hl hs X (fun i => X.at i) [] (fun _ _ _ _ => rfl) hw
  refine ⟨Y, fun dY G => forM' cs.reverse (dY, G) (fun (dY, G) callback => callback dY G), ?_, h2⟩
  unfold chain
  rw [if_neg (by simp), h1]
  rfl

/-- So a prediction in floating point is near the prediction of the model with real numbers, with the same parameters and inputs. -/
theorem C136_model (ok : IsFloatLib L count) (ac : Accurate L u η v) {backend : FlBackend} {hs : List FlHidden} {ls : List HiddenReal} {d : FlDense}
    {last : DenseReal} (hh : List.Forall₂ (IsFlHidden L) hs ls) (hd : IsFlDense L d last) {X Y : Mat Fl} (h : L.MixedScores backend hs d X Y)
    {M : ℝ} (hM : 0 ≤ M) (hb : NoOverflow u η L.big (denseParts ls last) M 0) {P : ParamVals} {ps : List (ℕ × ℕ)} {p : ℕ × ℕ}
    (hps : List.Forall₂ (HasHidden P) ps ls) (hp : HasParams P p last) {Xr : Mat ℝ} (hshape : Xr.rows = X.rows ∧ Xr.cols = X.cols)
    (hX : ∀ i < X.rows, ∀ k < X.cols, X.at i k = .fin (Xr.at i k) ∧ IsFinite L (X.at i k) ∧ |Xr.at i k| ≤ M) (hw : MixedWidths Xr.cols ls last.nI)
    (junk : ℕ → ℝ) (junkW : ℕ → ℤ) :
    ∃ Yr callback, chain (List.zipWith (hiddenLayer junk junkW) ps ls ++ [linear p.1 p.2]) false P (.arr Xr) = .ok (.arr Yr, callback) ∧
      Y.rows = Yr.rows ∧ Y.cols = Yr.cols ∧
      ∀ i < Yr.rows, ∀ j < Yr.cols, ∃ r, Y.at i j = .fin r ∧ |r - Yr.at i j| ≤ netError u η (denseParts ls last) M 0 := by
  obtain ⟨Yr, cb, h1, h2, h3, h4⟩ := C136_real hps hp Xr hw junk junkW false
  obtain ⟨c1, c2, c3⟩ := C136_scores ok ac hh hd h (x := fun i => Xr.at i) hM le_rfl (by
    intro i hi k hk
    obtain ⟨a1, a2, a3⟩ := hX i hi k hk
    exact ⟨a3, _, a1, a2, by simp⟩) hb
  refine ⟨Yr, cb, h1, by rw [c1, h2, hshape.1], by rw [c2, h3], fun i hi j hj => ?_⟩
  rw [h2] at hi
  rw [h3] at hj
  obtain ⟨r, r1, -, r2⟩ := c3 i (hshape.1 ▸ hi) j hj
  exact ⟨r, r1, by rw [h4 i hi j hj]; exact r2⟩

/-! ### A concrete case: float32, the row (1, 2), a `Relu` layer with the result 8, a `Maxout` layer with the pieces 25 and 33, and two classes: the
scores are 100 and 133 -/

theorem hidden_exists (L : FloatLib) (backend : FlBackend) (X : Mat Fl) :
    ∀ h : FlHidden, (match h with
      | .relu d => X.cols = d.W.cols
      | .maxout nO n d => X.cols = d.W.cols ∧ d.W.rows = nO * (n + 1)) →
    ∃ Y, L.HiddenForward backend h X Y ∧ Y.cols = (match h with
      | .relu d => d.W.rows
      | .maxout nO _ _ => nO)
  | .relu d, h => by
    obtain ⟨Y, h1, -, h3⟩ := relu_exists L backend.isCpu d X h
    exact ⟨Y, h1, h3⟩
  | .maxout nO n d, h => by
    obtain ⟨Z, hZ⟩ := affine_exists L X d.W d.b h.1
    obtain ⟨-, s2, s3⟩ := affine_shape hZ
    refine ⟨⟨Z.rows, nO, fun k => maxoutFl backend (Z.at (k / nO) (k % nO * (n + 1)))
      ((List.range n).map fun p => Z.at (k / nO) (k % nO * (n + 1) + (p + 1)))⟩, ⟨Z, hZ, s3.trans h.2, rfl, rfl, fun i hi j hj => ?_⟩, rfl⟩
    have hj : j < nO := hj
    have e1 : (i * nO + j) / nO = i := by rw [Nat.add_comm, Nat.add_mul_div_right _ _ (by omega), Nat.div_eq_of_lt hj, Nat.zero_add]
    have e2 : (i * nO + j) % nO = j := by rw [Nat.add_comm, Nat.add_mul_mod_self_right, Nat.mod_eq_of_lt hj]
    show maxoutFl backend (Z.at ((i * nO + j) / nO) ((i * nO + j) % nO * (n + 1)))
      ((List.range n).map fun p => Z.at ((i * nO + j) / nO) ((i * nO + j) % nO * (n + 1) + (p + 1))) = _
    rw [e1, e2]

theorem mixed_score (j : ℕ) : mixedScores [.relu realHidden, .maxout 1 1 realLast] realLast (fun k => (k : ℝ) + 1) j = 33 * (j + 3) + 1 := by
  have h : max (25 : ℝ) 33 = 33 := by norm_num
  simp [mixedScores, mixedHidden, HiddenReal.out, maxTo, DenseReal.out, realHidden, realLast, Finset.sum_range_succ]
  norm_num

theorem mixed_error : netError (1 / 2 ^ 23) (1 / 2 ^ 149) [realHidden, realLast, realLast] 2 0 ≤ 1 / 1000 := by
  simp only [netError, DenseReal.outError, DenseReal.outSize, dotError, realHidden, realLast]
  norm_num

theorem mixed_fits : NoOverflow (1 / 2 ^ 23) (1 / 2 ^ 149) float32Lib.big [realHidden, realLast, realLast] 2 0 := by
  have hb := float32Lib_ok.bigBound
  simp only [NoOverflow, DenseReal.outError, DenseReal.outSize, dotError, realHidden, realLast, and_true]
  refine ⟨?_, ?_, ?_⟩ <;> refine le_trans ?_ (show (1000 : ℝ) ≤ _ by linarith) <;> norm_num

/-- A result exists on every backend, and every result is near 100 and 133. -/
example (backend : FlBackend) : (∃ Y, float32Lib.MixedScores backend [.relu netHidden, .maxout 1 1 netLast] netLast flA Y) ∧
    ∀ Y, float32Lib.MixedScores backend [.relu netHidden, .maxout 1 1 netLast] netLast flA Y →
      ∃ r s, Y.at 0 0 = .fin r ∧ Y.at 0 1 = .fin s ∧ |r - 100| ≤ 1 / 1000 ∧ |s - 133| ≤ 1 / 1000 := by
  constructor
  · obtain ⟨Z, h1, h2⟩ := hidden_exists float32Lib backend flA (.relu netHidden) rfl
    obtain ⟨Z', h3, h4⟩ := hidden_exists float32Lib backend Z (.maxout 1 1 netLast) ⟨h2, rfl⟩
    obtain ⟨Y, hY⟩ := affine_exists float32Lib Z' netLast.W netLast.b h4
    exact ⟨Y, Z', ⟨Z, h1, Z', h3, rfl⟩, hY⟩
  · intro Y hY
    obtain ⟨-, -, h3⟩ := C136_scores float32Lib_ok float32_accurate
      (ls := [.relu realHidden, .maxout 1 1 realLast])
      (.cons (.relu (netHidden_dense float32Lib_ok)) (.cons (.maxout (netLast_dense float32Lib_ok) rfl) .nil)) (netLast_dense float32Lib_ok) hY
      (by norm_num) le_rfl (net_input float32Lib_ok) mixed_fits
    obtain ⟨r, r1, -, r2⟩ := h3 0 (by decide) 0 (by decide)
    obtain ⟨s, s1, -, s2⟩ := h3 0 (by decide) 1 (by decide)
    rw [mixed_score] at r2 s2
    have r2 := r2.trans mixed_error
    have s2 := s2.trans mixed_error
    rw [show (33 : ℝ) * ((0 : ℕ) + 3) + 1 = 100 by norm_num] at r2
    rw [show (33 : ℝ) * ((1 : ℕ) + 3) + 1 = 133 by norm_num] at s2
    exact ⟨r, s, r1, s1, r2, s2⟩

/-- Parameters 0 and 1 for `Relu`, 2 and 3 for `Maxout`, 4 and 5 for `Linear`. -/
noncomputable def mixedParams : ParamVals := fun k =>
  if k = 0 then ⟨1, 2, fun i => (i : ℝ) + 1⟩ else if k = 1 then ⟨1, 1, fun _ => 3⟩ else if k = 2 ∨ k = 4 then ⟨2, 1, fun i => (i : ℝ) + 3⟩
  else ⟨1, 2, fun _ => 1⟩

theorem mixedParams_last {p : ℕ × ℕ} (h1 : mixedParams p.1 = ⟨2, 1, fun i => (i : ℝ) + 3⟩) (h2 : mixedParams p.2 = ⟨1, 2, fun _ => 1⟩) :
    HasParams mixedParams p realLast :=
  ⟨by rw [h1]; rfl, by rw [h2]; rfl, fun j _ k hk => by
    have hk : k = 0 := Nat.lt_one_iff.1 hk
    rw [h1, hk]; simp [Mat.at, realLast], fun j _ => by rw [h2]; simp [Mat.at, realLast]⟩

/-- The hypotheses of `C136_real` hold for this network. -/
example (junk : ℕ → ℝ) (junkW : ℕ → ℤ) : ∃ Y callback,
    chain [reluLayer 0 1, maxoutLayer junk junkW 2 3 1 2 1, linear 4 5] false mixedParams (.arr ⟨1, 2, fun i => (i : ℝ) + 1⟩) =
      .ok (.arr Y, callback) ∧ Y.at 0 0 = 100 ∧ Y.at 0 1 = 133 := by
  have hr : HasParams mixedParams (0, 1) realHidden :=
    ⟨by simp [mixedParams, shapeOf, realHidden], by simp [mixedParams, shapeOf, realHidden], fun j hj k _ => by
      have hj : j = 0 := Nat.lt_one_iff.1 hj
      subst hj
      simp [mixedParams, Mat.at, realHidden], fun j _ => by simp [mixedParams, Mat.at, realHidden]⟩
  have hl := mixedParams_last (p := (4, 5)) (by simp [mixedParams]) (by simp [mixedParams])
  have hm : HasHidden mixedParams (2, 3) (.maxout 1 1 realLast) :=
    .maxout (by decide) rfl (by simp [mixedParams, shapeOf, realLast]) (by simp [mixedParams, shapeOf]) (fun j _ k hk => by
      have hk : k = 0 := Nat.lt_one_iff.1 hk
      subst hk
      simp [mixedParams, Mat.at, realLast]) (fun o _ q _ => by simp [mixedParams, Mat.at, realLast])
  obtain ⟨Y, cb, h1, -, -, h4⟩ := C136_real (ls := [.relu realHidden, .maxout 1 1 realLast]) (.cons (.relu hr) (.cons hm .nil)) hl
    ⟨1, 2, fun i => (i : ℝ) + 1⟩ ⟨rfl, rfl, rfl⟩ junk junkW false
  have hx : Mat.at (⟨1, 2, fun i => (i : ℝ) + 1⟩ : Mat ℝ) 0 = fun k : ℕ => (k : ℝ) + 1 := by
    funext k
    simp [Mat.at]
  refine ⟨Y, cb, h1, ?_, ?_⟩
  · rw [h4 0 (by decide) 0 (by decide), hx, mixed_score]; norm_num
  · rw [h4 0 (by decide) 1 (by decide), hx, mixed_score]; norm_num

end Thinc
