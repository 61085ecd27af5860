import Verif.Model.Resize
import Verif.Lemmas.NodeState
import Verif.Lemmas.PyDict
import Mathlib.Algebra.BigOperators.Fin
import Mathlib.Data.List.GetD
import Mathlib.Tactic.Common
/-!
# C63: resizing
-/
namespace Thinc
variable {A : Type}

/-- The array with rows added, all numbers in them `filler`. -/
def RowArr.grown (p : RowArr) (n : ℕ) (filler : ℝ) : RowArr :=
  ⟨p.rowShape, p.rows ++ List.replicate (n - p.rows.length) (List.replicate p.rowShape.prod filler)⟩

/-- All rows have the length the shape says. -/
def RowArr.Regular (p : RowArr) : Prop := ∀ r ∈ p.rows, r.length = p.rowShape.prod

theorem setFirst_fillFrom {larger smaller : RowArr} (hs : smaller.rowShape = larger.rowShape) (hr : larger.Regular)
    (hl : smaller.rows.length ≤ larger.rows.length) (filler : ℝ) :
    ∃ l, larger.setFirst smaller = .ok l ∧ l.fillFrom smaller.rows.length filler = smaller.grown larger.rows.length filler := by
  refine ⟨⟨larger.rowShape, smaller.rows ++ larger.rows.drop smaller.rows.length⟩, ?_, ?_⟩
  · rw [RowArr.setFirst]
    simp only [hs, min_eq_left hl, ne_eq, not_true, if_false, if_true]
  · simp only [RowArr.fillFrom, RowArr.grown, hs, RowArr.mk.injEq, true_and]
    rw [List.take_left, List.drop_left]
    congr 1
    refine List.eq_replicate_iff.2 ⟨?_, ?_⟩
    · simp
    · intro r hr'
      obtain ⟨r0, h0, rfl⟩ := List.mem_map.1 hr'
      rw [List.map_const', hr r0 (List.mem_of_mem_drop h0)]

theorem resizeParameter_ok {layer N : Node RowArr A} {name : String} {p q : RowArr} (hp : layer.getParam name = .ok p)
    (hq : N.getParam name = .ok q) (hs : p.rowShape = q.rowShape) (hr : q.Regular) (hl : p.rows.length ≤ q.rows.length) (filler : ℝ) :
    resizeParameter name layer N filler = .ok (N.setParam name (some (p.grown q.rows.length filler))) := by
  obtain ⟨l, e1, e2⟩ := setFirst_fillFrom hs hr hl filler
  simp only [resizeParameter, hp, hq, e1, bind, Except.bind, e2, pure, Except.pure]

theorem resize_get (n : Node RowArr A) (k k' : String) (v : RowArr) :
    (n.setParam k (some v)).getParam k' = if k = k' then .ok v else n.getParam k' := by
  simp only [Node.getParam, Node.setParam, PyDict.contains, PyDict.get?_set]
  by_cases h : k = k'
  · simp [h]
  · have : ¬ ((n.id, k) = (n.id, k')) := by simpa using h
    simp [h]
    rfl

theorem resize_has (n : Node RowArr A) (k k' : String) (v : RowArr) :
    (n.setParam k (some v)).hasParam k' = if k = k' then some true else n.hasParam k' := by
  simp only [Node.hasParam, Node.setParam, PyDict.get?_set]
  by_cases h : k = k' <;> simp [h]

theorem resize_names (n : Node RowArr A) (k : String) (v : RowArr) (h : k ∈ n.paramNames) :
    (n.setParam k (some v)).paramNames = n.paramNames := by
  simp only [Node.paramNames, Node.setParam]
  exact PyDict.keys_set_of_mem _ h _

/-- What the loop over the parameters does. -/
theorem resize_loop (fd : PyDict String ℝ) (layer : Node RowArr A) (new : ℕ) :
    ∀ (names : List String) (N : Node RowArr A), names.Nodup → (∀ k ∈ names, k ∈ N.paramNames) →
    (∀ k ∈ names, layer.hasParam k = some true → ∃ p q, layer.getParam k = .ok p ∧ N.getParam k = .ok q ∧
      p.rowShape = q.rowShape ∧ q.Regular ∧ q.rows.length = new ∧ p.rows.length ≤ new) →
    ∃ R, forM' names N (resizeStep fd layer) = .ok R ∧ R.dims = N.dims ∧ R.paramNames = N.paramNames ∧
      (∀ k ∈ names, layer.hasParam k = some true → ∀ p, layer.getParam k = .ok p →
        R.getParam k = .ok (p.grown new (fillerOf fd k)) ∧ R.hasParam k = some true) ∧
      ∀ k, (k ∉ names ∨ layer.hasParam k ≠ some true) → R.getParam k = N.getParam k ∧ R.hasParam k = N.hasParam k := by
  intro names
  induction names with
  | nil => intro N _ _ _; exact ⟨N, rfl, rfl, rfl, by simp, fun k _ => ⟨rfl, rfl⟩⟩
  | cons name names ih =>
    intro N hnd hmem h
    rw [List.nodup_cons] at hnd
    rw [forM', resizeStep]
    by_cases hp : layer.hasParam name = some true
    · obtain ⟨p, q, e1, e2, e3, e4, e5, e6⟩ := h name (by simp) hp
      rw [if_pos hp, resizeParameter_ok e1 e2 e3 e4 (by omega), e5]
      have hn := resize_names N name (p.grown new (fillerOf fd name)) (hmem name (by simp))
      obtain ⟨R, r1, r2, r3, r4, r5⟩ := ih (N.setParam name (some (p.grown new (fillerOf fd name)))) hnd.2
        (fun k hk => by rw [hn]; exact hmem k (by simp [hk])) (fun k hk hk' => by
          have hne : ¬ name = k := fun e => hnd.1 (e ▸ hk)
          rw [resize_get, if_neg hne]
          exact h k (by simp [hk]) hk')
      refine ⟨R, r1, r2, r3.trans hn, ?_, ?_⟩
      · intro k hk hk' p' hp'
        rcases List.mem_cons.1 hk with rfl | hk
        · rw [e1] at hp'
          obtain rfl := Except.ok.inj hp'
          rw [(r5 k (Or.inl hnd.1)).1, (r5 k (Or.inl hnd.1)).2, resize_get, resize_has, if_pos rfl, if_pos rfl]
          exact ⟨rfl, rfl⟩
        · exact r4 k hk hk' p' hp'
      · intro k hk
        have hne : name ≠ k := by
          rintro rfl
          rcases hk with hk | hk
          · simp at hk
          · exact hk hp
        have hk' : k ∉ names ∨ layer.hasParam k ≠ some true := hk.imp (fun h => fun h' => h (by simp [h'])) id
        rw [(r5 k hk').1, (r5 k hk').2, resize_get, resize_has, if_neg hne, if_neg hne]
        exact ⟨rfl, rfl⟩
    · rw [if_neg hp]
      obtain ⟨R, r1, r2, r3, r4, r5⟩ := ih N hnd.2 (fun k hk => hmem k (by simp [hk])) (fun k hk => h k (by simp [hk]))
      refine ⟨R, r1, r2, r3, ?_, ?_⟩
      · intro k hk hk' p' hp'
        rcases List.mem_cons.1 hk with rfl | hk
        · exact absurd hk' hp
        · exact r4 k hk hk' p' hp'
      · intro k hk
        by_cases hin : k ∈ names
        · have : layer.hasParam k ≠ some true := by
            rcases hk with hk | hk
            · simp [hin] at hk
            · exact hk
          exact r5 k (Or.inr this)
        · exact r5 k (Or.inl hin)

/-- `init` allocates every parameter of the layer for `new` output rows, with rows of the same shape as the layer's, and
leaves the dimensions and the names of the parameters alone. -/
def Allocates (init : Node RowArr A → Except PyErr (Node RowArr A)) (layer : Node RowArr A) (new : ℕ) : Prop :=
  ∀ n : Node RowArr A, n.dims = layer.dims.set "nO" (some new) → n.paramNames = layer.paramNames →
    ∃ N, init n = .ok N ∧ N.dims = n.dims ∧ N.paramNames = n.paramNames ∧
      ∀ k p, layer.getParam k = .ok p → ∃ q, N.getParam k = .ok q ∧ q.rowShape = p.rowShape ∧ q.Regular ∧ q.rows.length = new

theorem mk_names (id : ℕ) (name : String) (names : List String) (hnd : names.Nodup) (dims : PyDict String (Option ℕ))
    (attrs : PyDict String A) :
    (Node.mk' (V := RowArr) id name (names.map fun k => (k, none)) dims attrs [] [] []).paramNames = names := by
  have : ∀ (names : List String) (n : Node RowArr A), (n.paramNames ++ names).Nodup →
      (n.initParams (names.map fun k => (k, none))).paramNames = n.paramNames ++ names := by
    intro names
    induction names with
    | nil => intro n _; simp [Node.initParams]
    | cons k names ih =>
      intro n h
      have hk : k ∉ n.hasParams.keys := fun hin => (List.nodup_append.1 h).2.2 k hin k (by simp) rfl
      have e : ({ n with hasParams := n.hasParams.set k none } : Node RowArr A).paramNames = n.paramNames ++ [k] := by
        simp only [Node.paramNames]
        rw [PyDict.keys_set, if_neg hk]
      simp only [List.map_cons, Node.initParams]
      rw [ih _ (by rw [e]; simpa using h), e]
      simp
  rw [Node.mk', this names _ (by simpa [Node.paramNames, PyDict.keys] using hnd)]
  simp [Node.paramNames, PyDict.keys]

/-- Growing: a new layer with the new `nO` and otherwise the same dimensions; every parameter keeps its rows, and the new
rows are filled.  (For shrinking see `C63_shrink_fails`.) -/
theorem C63_grow_partial (init : Node RowArr A → Except PyErr (Node RowArr A)) (newId : ℕ) (layer : Node RowArr A) (old new : ℕ)
    (hgrow : old < new) (fd : PyDict String ℝ) (h1 : layer.layers = []) (h2 : layer.refs.keys = []) (h3 : layer.shims = [])
    (hnd : layer.paramNames.Nodup) (hO : layer.getDim "nO" = .ok old) (hI : layer.hasDim "nI" ≠ none)
    (hp : ∀ k, layer.hasParam k = some true → ∃ p, layer.getParam k = .ok p ∧ p.rows.length = old)
    (hinit : Allocates init layer new) :
    ∃ R, resizeLinearWeighted init newId layer new fd = .ok (true, R) ∧ R.getDim "nO" = .ok new ∧
      (∀ d, d ≠ "nO" → R.getDim d = layer.getDim d) ∧ R.paramNames = layer.paramNames ∧
      ∀ k p, layer.hasParam k = some true → layer.getParam k = .ok p →
        R.getParam k = .ok ⟨p.rowShape, p.rows ++ List.replicate (new - old) (List.replicate p.rowShape.prod ((fd.get? k).getD 0))⟩ := by
  have hO' : layer.hasDim "nO" ≠ none := by
    unfold Node.getDim at hO; unfold Node.hasDim
    split at hO <;> simp_all
  obtain ⟨N, n1, n2, n3, n4⟩ := hinit (Node.mk' newId layer.name (layer.paramNames.map fun name => (name, none))
    (resizeDims layer new) layer.attrs [] [] []) (by rw [Node.mk', Node.initParams_dims]; rfl) (mk_names _ _ _ hnd _ _)
  have hnames : N.paramNames = layer.paramNames := n3.trans (mk_names _ _ _ hnd _ _)
  have hdims : N.dims = layer.dims.set "nO" (some new) := by rw [n2, Node.mk', Node.initParams_dims]; rfl
  obtain ⟨R, r1, r2, r3, r4, -⟩ := resize_loop fd layer new layer.paramNames N hnd (fun k hk => by rw [hnames]; exact hk)
    (fun k _ hk => by
      obtain ⟨p, e1, e2⟩ := hp k hk
      obtain ⟨q, f1, f2, f3, f4⟩ := n4 k p e1
      exact ⟨p, q, e1, f1, f2.symm, f3, f4, by omega⟩)
  refine ⟨R, ?_, ?_, ?_, r3.trans hnames, ?_⟩
  · simp only [resizeLinearWeighted, h1, h2, h3, hO', hO, hI, (show ¬ new = old by omega), ne_eq, not_true, if_false, bind, Except.bind,
      pure, Except.pure, n1, r1]
  · simp only [Node.getDim, r2, hdims, PyDict.get?_set_self]
  · intro d hd
    simp only [Node.getDim, r2, hdims, PyDict.get?_set_ne _ (Ne.symm hd)]
  · intro k p hk hkp
    have hmem : k ∈ layer.paramNames := by
      unfold Node.hasParam at hk
      rw [Node.paramNames, PyDict.mem_keys_iff]
      cases hg : layer.hasParams.get? k with
      | none => rw [hg] at hk; simp at hk
      | some _ => rfl
    obtain ⟨p', e1, e2⟩ := hp k hk
    rw [e1] at hkp
    obtain rfl := Except.ok.inj hkp
    rw [(r4 k hmem hk p' e1).1, RowArr.grown, e2]
    rfl

/-- The layer is returned as it is if the size does not change. -/
theorem C63_same_size (init : Node RowArr A → Except PyErr (Node RowArr A)) (newId : ℕ) (layer : Node RowArr A) (n : ℕ)
    (fd : PyDict String ℝ) (h1 : layer.layers = []) (h2 : layer.refs.keys = []) (h3 : layer.shims = []) (hO : layer.getDim "nO" = .ok n) :
    resizeLinearWeighted init newId layer n fd = .ok (false, layer) := by
  have hO' : layer.hasDim "nO" ≠ none := by
    unfold Node.getDim at hO; unfold Node.hasDim
    split at hO <;> simp_all
  simp only [resizeLinearWeighted, h1, h2, h3, hO', hO, ne_eq, not_true, if_false, bind, Except.bind, pure, Except.pure, if_true]

/-- An output size that was not set is set. -/
theorem C63_unset (init : Node RowArr A → Except PyErr (Node RowArr A)) (newId : ℕ) (layer : Node RowArr A) (new : ℕ)
    (fd : PyDict String ℝ) (h1 : layer.layers = []) (h2 : layer.refs.keys = []) (h3 : layer.shims = []) (hO : layer.hasDim "nO" = none) :
    ∃ R, resizeLinearWeighted init newId layer new fd = .ok (false, R) ∧ R.getDim "nO" = .ok new ∧ R.params = layer.params := by
  have : layer.dims.get? "nO" = some none := by
    unfold Node.hasDim at hO
    split at hO <;> simp_all
  refine ⟨{ layer with dims := layer.dims.set "nO" (some new) }, ?_, ?_, rfl⟩
  · simp [resizeLinearWeighted, h1, h2, h3, hO, bind, Except.bind, pure, Except.pure, Node.setDim, this]
  · simp [Node.getDim]

/-- Making an initialised layer with more than one output smaller always fails, although the old rows could be kept. -/
theorem C63_shrink_fails (init : Node RowArr A → Except PyErr (Node RowArr A)) (newId : ℕ) (layer : Node RowArr A) (old new : ℕ)
    (hshrink : new < old) (hone : old ≠ 1) (fd : PyDict String ℝ) (h1 : layer.layers = []) (h2 : layer.refs.keys = [])
    (h3 : layer.shims = []) (k : String) (rest : List String) (hnd : layer.paramNames = k :: rest) (hnd' : layer.paramNames.Nodup)
    (hO : layer.getDim "nO" = .ok old) (hI : layer.hasDim "nI" ≠ none) (hk : layer.hasParam k = some true) {p : RowArr}
    (hp : layer.getParam k = .ok p) (hlen : p.rows.length = old) (hinit : Allocates init layer new) :
    resizeLinearWeighted init newId layer new fd = .error .valueError := by
  have hO' : layer.hasDim "nO" ≠ none := by
    unfold Node.getDim at hO; unfold Node.hasDim
    split at hO <;> simp_all
  obtain ⟨N, n1, n2, n3, n4⟩ := hinit (Node.mk' newId layer.name (layer.paramNames.map fun name => (name, none))
    (resizeDims layer new) layer.attrs [] [] []) (by rw [Node.mk', Node.initParams_dims]; rfl) (mk_names _ _ _ hnd' _ _)
  obtain ⟨q, f1, f2, f3, f4⟩ := n4 k p hp
  have : forM' layer.paramNames N (resizeStep fd layer) = .error .valueError := by
    have hset : q.setFirst p = .error .valueError := by
      rw [RowArr.setFirst]
      simp only [f2, ne_eq, not_true, if_false, f4, hlen]
      rw [if_neg (by omega), if_neg hone]
    rw [hnd, forM', resizeStep, if_pos hk, resizeParameter]
    simp only [hp, f1, bind, Except.bind, hset]
  simp only [resizeLinearWeighted, h1, h2, h3, hO', hO, hI, (show ¬ new = old by omega), ne_eq, not_true, if_false, bind, Except.bind,
    pure, Except.pure, n1, this]

/-- An array of the given shape. -/
def RowArr.HasShape (p : RowArr) (n : ℕ) (rowShape : List ℕ) : Prop :=
  p.rows.length = n ∧ p.rowShape = rowShape ∧ p.Regular

/-- The initialisation of Linear and Softmax allocates, for initialisers that return arrays of the shape asked for. -/
theorem linearInit_allocates {initW : ℕ → ℕ → RowArr} {initb : ℕ → RowArr} (hW : ∀ n m, (initW n m).HasShape n [m])
    (hb : ∀ n, (initb n).HasShape n []) {layer : Node RowArr A} (hnames : layer.paramNames = ["W", "b"]) {old nI new : ℕ}
    (hI : layer.getDim "nI" = .ok nI) {W b : RowArr} (eW : layer.getParam "W" = .ok W) (sW : W.HasShape old [nI])
    (eb : layer.getParam "b" = .ok b) (sb : b.HasShape old []) : Allocates (linearInit initW initb) layer new := by
  intro n hd hn
  have d1 : n.getDim "nO" = .ok new := by simp only [Node.getDim, hd, PyDict.get?_set_self]
  have d2 : n.getDim "nI" = .ok nI := by
    rw [← hI]
    simp only [Node.getDim, hd, PyDict.get?_set_ne layer.dims (show "nO" ≠ "nI" by decide)]
  have d3 : (n.setParam "W" (some (initW new nI))).getDim "nO" = .ok new := d1
  have m1 : "W" ∈ n.paramNames := by rw [hn, hnames]; simp
  have m2 : "b" ∈ n.paramNames := by rw [hn, hnames]; simp
  have e1 := resize_names n "W" (initW new nI) m1
  refine ⟨(n.setParam "W" (some (initW new nI))).setParam "b" (some (initb new)), ?_, rfl, ?_, ?_⟩
  · simp only [linearInit, d1, d2, bind, Except.bind, d3, pure, Except.pure]
  · rw [resize_names _ "b" _ (by rw [e1]; exact m2), e1]
  · intro k p hk
    have hmem : k = "W" ∨ k = "b" := by
      have : k ∈ layer.paramNames := by
        rw [Node.paramNames, ← PyDict.contains_iff]
        by_contra h
        simp only [Node.getParam, if_neg h] at hk
        exact absurd hk (by simp)
      rw [hnames] at this
      simpa using this
    rcases hmem with rfl | rfl
    · rw [eW] at hk
      obtain rfl := Except.ok.inj hk
      refine ⟨initW new nI, ?_, ?_, (hW _ _).2.2, (hW _ _).1⟩
      · rw [resize_get, if_neg (by decide), resize_get, if_pos rfl]
      · rw [(hW _ _).2.1, sW.2.1]
    · rw [eb] at hk
      obtain rfl := Except.ok.inj hk
      refine ⟨initb new, ?_, ?_, (hb _).2.2, (hb _).1⟩
      · rw [resize_get, if_pos rfl]
      · rw [(hb _).2.1, sb.2.1]

/-- Output `j` of a Linear layer for the input `x`. -/
noncomputable def linearOut (W b : RowArr) (x : List ℝ) (j : ℕ) : ℝ :=
  (List.zipWith (· * ·) x (W.rows.getD j [])).sum + (b.rows.getD j []).headD 0

/-- Linear (and the logits of Softmax): after growing, all old outputs are what they were, and the new outputs are computed
from the fillers. -/
theorem C63_linear_partial {initW : ℕ → ℕ → RowArr} {initb : ℕ → RowArr} (hW : ∀ n m, (initW n m).HasShape n [m])
    (hb : ∀ n, (initb n).HasShape n []) (newId : ℕ) (layer : Node RowArr A) (h1 : layer.layers = []) (h2 : layer.refs.keys = [])
    (h3 : layer.shims = []) (hnames : layer.paramNames = ["W", "b"]) {old nI new : ℕ} (hgrow : old < new)
    (hO : layer.getDim "nO" = .ok old) (hI : layer.getDim "nI" = .ok nI) {W b : RowArr} (eW : layer.getParam "W" = .ok W)
    (sW : W.HasShape old [nI]) (pW : layer.hasParam "W" = some true) (eb : layer.getParam "b" = .ok b) (sb : b.HasShape old [])
    (pb : layer.hasParam "b" = some true) (fd : PyDict String ℝ) :
    ∃ R W' b', resizeLinearWeighted (linearInit initW initb) newId layer new fd = .ok (true, R) ∧
      R.getDim "nO" = .ok new ∧ R.getDim "nI" = .ok nI ∧ R.getParam "W" = .ok W' ∧ W'.HasShape new [nI] ∧
      R.getParam "b" = .ok b' ∧ b'.HasShape new [] ∧
      ∀ x : List ℝ, x.length = nI → (∀ j < old, linearOut W' b' x j = linearOut W b x j) ∧
        ∀ j, old ≤ j → j < new → linearOut W' b' x j = (x.map fun v => v * (fd.get? "W").getD 0).sum + (fd.get? "b").getD 0 := by
  have hall := linearInit_allocates (new := new) hW hb hnames hI eW sW eb sb
  have hI' : layer.hasDim "nI" ≠ none := by
    unfold Node.getDim at hI; unfold Node.hasDim
    split at hI <;> simp_all
  obtain ⟨R, r1, r2, r3, r4, r5⟩ := C63_grow_partial (linearInit initW initb) newId layer old new hgrow fd h1 h2 h3
    (by rw [hnames]; decide) hO hI' (fun k hk => by
      have hmem : k = "W" ∨ k = "b" := by
        have : k ∈ layer.paramNames := by
          rw [Node.paramNames, PyDict.mem_keys_iff]
          unfold Node.hasParam at hk
          cases hg : layer.hasParams.get? k with
          | none => rw [hg] at hk; simp at hk
          | some _ => rfl
        rw [hnames] at this
        simpa using this
      rcases hmem with rfl | rfl
      · exact ⟨W, eW, sW.1⟩
      · exact ⟨b, eb, sb.1⟩) hall
  have gW := r5 "W" W pW eW
  have gb := r5 "b" b pb eb
  rw [sW.2.1] at gW
  rw [sb.2.1] at gb
  simp only [List.prod_cons, List.prod_nil, mul_one] at gW gb
  refine ⟨R, _, _, r1, r2, (r3 "nI" (by decide)).trans hI, gW, ⟨?_, rfl, ?_⟩, gb, ⟨?_, rfl, ?_⟩, ?_⟩
  · simp [sW.1]; omega
  · intro r hr
    simp only [List.mem_append, List.mem_replicate] at hr
    rcases hr with hr | ⟨-, rfl⟩
    · have := sW.2.2 r hr
      rwa [sW.2.1] at this
    · simp
  · simp [sb.1]; omega
  · intro r hr
    simp only [List.mem_append, List.mem_replicate] at hr
    rcases hr with hr | ⟨-, rfl⟩
    · have := sb.2.2 r hr
      rwa [sb.2.1] at this
    · simp
  · intro x hx
    refine ⟨fun j hj => ?_, fun j hj hj' => ?_⟩
    · simp only [linearOut]
      rw [List.getD_append _ _ _ _ (by rw [sW.1]; exact hj), List.getD_append _ _ _ _ (by rw [sb.1]; exact hj)]
    · simp only [linearOut]
      rw [List.getD_append_right _ _ _ _ (by rw [sW.1]; exact hj), List.getD_append_right _ _ _ _ (by rw [sb.1]; exact hj), sW.1, sb.1]
      have hlt : j - old < new - old := by omega
      simp only [List.getD_eq_getElem?_getD, List.getElem?_replicate, hlt, if_true, Option.getD_some]
      congr 1
      · congr 1
        rw [← hx]
        clear hx
        induction x with
        | nil => rfl
        | cons v x ih => simp [List.replicate_succ, ih]

/-- `resize_model` on a container: the container keeps reporting the old `nO`. -/
theorem C63_container_dims (init : Node RowArr A → Except PyErr (Node RowArr A)) (newId : ℕ) (fd : PyDict String ℝ)
    (h : Heap RowArr A) (a l : Addr) (n layer R : Node RowArr A) (rest : List Addr) (ha : h[a]? = some n) (hl : n.layers = l :: rest)
    (hlayer : h[l]? = some layer) (hne : l ≠ a) (new : ℕ) (e : resizeLinearWeighted init newId layer new fd = .ok (true, R)) :
    ∃ h' n', resizeModel init newId fd h a new = .ok h' ∧ h'[a]? = some n' ∧ n'.dims = n.dims ∧
      ∃ l', n'.layers = l' :: rest ∧ h'[l']? = some R := by
  have hlt : a < h.length := (List.getElem?_eq_some_iff.1 ha).1
  have e' : resizeModel init newId fd h a new = .ok ((h ++ [R]).modify a fun n => { n with layers := h.length :: rest }) := by
    simp only [resizeModel, layersOf, ha, hl, hlayer, e]
  refine ⟨_, { n with layers := h.length :: rest }, e', ?_, rfl, h.length, rfl, ?_⟩
  · simp only [Heap.modify, List.getElem?_modify, if_true]
    rw [List.getElem?_append_left hlt, ha]
    rfl
  · simp only [Heap.modify, List.getElem?_modify]
    simp [hlt.ne]

/-- A layer with two outputs and three inputs, resized to four outputs. -/
example : ∃ layer : Node RowArr Unit, layer.layers = [] ∧ layer.refs.keys = [] ∧ layer.shims = [] ∧ layer.paramNames = ["W", "b"] ∧
    layer.getDim "nO" = .ok 2 ∧ layer.getDim "nI" = .ok 3 ∧ layer.hasParam "W" = some true ∧ layer.hasParam "b" = some true ∧
    (∃ W, layer.getParam "W" = .ok W ∧ W.HasShape 2 [3]) ∧ ∃ b, layer.getParam "b" = .ok b ∧ b.HasShape 2 [] :=
  ⟨Node.mk' 1 "linear" [("W", some ⟨[3], [[1, 2, 3], [4, 5, 6]]⟩), ("b", some ⟨[], [[7], [8]]⟩)] [("nO", some 2), ("nI", some 3)],
    rfl, rfl, rfl, rfl, rfl, rfl, rfl, rfl, ⟨_, rfl, rfl, rfl, by simp [RowArr.Regular]⟩, ⟨_, rfl, rfl, rfl, by simp [RowArr.Regular]⟩⟩

end Thinc
