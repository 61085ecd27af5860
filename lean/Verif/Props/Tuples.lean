import Verif.Props.Combinators
/-!
# C54: tuplify, siamese, map_list and clone
-/
namespace Thinc
open Spec Spec.Tensor

section
variable {N : ℕ} {sh : Fin N → ℕ × ℕ} {E F H : Type} [NormedAddCommGroup E] [NormedSpace ℝ E] [Tensor E]
  [NormedAddCommGroup F] [NormedSpace ℝ F] [Tensor F] [NormedAddCommGroup H] [NormedSpace ℝ H] [Tensor H]
  {train : Bool} {θ : Params sh}

/-! ### tuplify -/

theorem tuple_loop {K : Kind E} {x : E} {P : ParamVals} {v : Val} (hP : IsParams P θ) (hv : K.val v x)
    {Ls : List Layer} {T : Kind F} {f : Params sh × E → F} (h : ExactTuple train θ K x Ls T f) :
    ∃ outs back, Ls.mapM (fun L => L train P v) = .ok outs ∧ T.val (.tup (outs.map Prod.fst)) (f (θ, x)) ∧
      IsVJP f (θ, x) back ∧ ∀ dv dy, T.grad dv dy → ∃ ds, dv = .tup ds ∧
        ∀ G g, IsGrads G g → ∃ (dXs : List Val) (xs : List E) (G' : GradStore), runCallbacks (outs.map Prod.snd) ds G = .ok (dXs, G') ∧
          List.Forall₂ K.grad dXs xs ∧ dXs.length = Ls.length ∧ xs.sum = (back dy).2 ∧ IsGrads G' (g + (back dy).1) := by
  induction h with
  | @one F _ _ _ L M f hL =>
    obtain ⟨v1, cb1, b1, e1, hv1, hb1, hc1⟩ := hL P v hP hv
    refine ⟨[(v1, cb1)], b1, ?_, ⟨v1, rfl, hv1⟩, hb1, ?_⟩
    · rw [List.mapM_cons, e1]
      rfl
    · rintro _ dy ⟨a, rfl, ha⟩
      refine ⟨[a], rfl, fun G g hG => ?_⟩
      obtain ⟨d, G', e, hd, hG'⟩ := hc1 a dy G g ha hG
      refine ⟨[d], [(b1 dy).2], G', ?_, .cons hd .nil, rfl, by simp, hG'⟩
      simp only [List.map_cons, List.map_nil, runCallbacks, e, bind, Except.bind, pure, Except.pure]
  | @cons F H _ _ _ _ _ _ L Ls M T f g hL _ ih =>
    obtain ⟨v1, cb1, b1, e1, hv1, hb1, hc1⟩ := hL P v hP hv
    obtain ⟨outs, back, eo, hT, hb, hc⟩ := ih
    refine ⟨(v1, cb1) :: outs, fun dy => b1 dy.1 + back dy.2, ?_, ⟨v1, outs.map Prod.fst, rfl, hv1, hT⟩,
      IsVJP_prod hb1 hb, ?_⟩
    · rw [List.mapM_cons, e1, eo]
      rfl
    · rintro _ dy ⟨a, ds, rfl, ha, hds⟩
      obtain ⟨ds', h1, h2⟩ := hc _ dy.2 hds
      cases h1
      refine ⟨a :: ds, rfl, fun G g hG => ?_⟩
      obtain ⟨d, G1, e, hd, hG1⟩ := hc1 a dy.1 G g ha hG
      obtain ⟨dXs, xs, G', e', h3, hl, h4, h5⟩ := h2 G1 _ hG1
      refine ⟨d :: dXs, (b1 dy.1).2 :: xs, G', ?_, .cons hd h3, by simp [hl], ?_, ?_⟩
      · simp only [List.map_cons, runCallbacks, e, bind, Except.bind, e', pure, Except.pure]
      · rw [List.sum_cons, h4, Prod.snd_add]
      · rw [Prod.fst_add, ← add_assoc]
        exact h5

theorem sum_gradients {K : Kind E} (hJ : Joins Val.iadd K) {dXs : List Val} {xs : List E}
    (h : List.Forall₂ K.grad dXs xs) (d : Val) (x : E) (hd : K.grad d x) :
    ∃ u, forM' dXs d Val.iadd = .ok u ∧ K.grad u (x + xs.sum) := by
  induction h generalizing d x with
  | nil => exact ⟨d, rfl, by simpa using hd⟩
  | @cons d' x' dXs xs h1 _ ih =>
    obtain ⟨u, e, hu⟩ := hJ d d' x x' hd h1
    obtain ⟨u', e', hu'⟩ := ih u _ hu
    refine ⟨u', by simp only [forM', e, e'], ?_⟩
    rw [List.sum_cons, ← add_assoc]
    exact hu'

theorem tuplify_exact {K : Kind E} (hJ : Joins Val.iadd K) {x : E} {Ls : List Layer} {T : Kind F} {f : Params sh × E → F}
    (h : ExactTuple train θ K x Ls T f) : Exact (tuplify Ls) train K T f θ x := by
  intro P v hP hv
  obtain ⟨outs, back, eo, hT, hb, hc⟩ := tuple_loop hP hv h
  refine ⟨.tup (outs.map Prod.fst), fun dYs G => (do
    let (dXs, G) ← runCallbacks (outs.map Prod.snd) (← dYs.items) G
    match dXs with
    | [] => .error .indexError
    | dX :: dXs => return (← forM' dXs dX Val.iadd, G)), back, ?_, hT, hb, ?_⟩
  · simp only [tuplify, eo, bind, Except.bind, pure, Except.pure]
    rfl
  · intro dv dy G g hdv hG
    obtain ⟨ds, rfl, h2⟩ := hc dv dy hdv
    obtain ⟨dXs, xs, G', e', h3, hl, h4, h5⟩ := h2 G g hG
    cases h3 with
    | nil => exact absurd hl.symm (by cases h <;> simp)
    | @cons d x' dXs xs h6 h7 =>
      obtain ⟨u, eu, hu⟩ := sum_gradients hJ h7 d x' h6
      refine ⟨u, G', ?_, ?_, h5⟩
      · simp only [Val.items, bind, Except.bind, e', eu, pure, Except.pure]
      · rw [← h4, List.sum_cons]
        exact hu

/-- `tuplify(f, g, …)` computes the tuple of the outputs, with exact gradients; the input is an array. -/
theorem C54_tuplify {n m : ℕ} {x : Fin n → Fin m → ℝ} {Ls : List Layer} {T : Kind F}
    {f : Params sh × (Fin n → Fin m → ℝ) → F} (h : ExactTuple train θ (Kind.arr n m) x Ls T f) :
    Exact (tuplify Ls) train (Kind.arr n m) T f θ x := tuplify_exact (joins_arr n m) h

/-- The same with integers as input. -/
theorem C54_tuplify_ints {ks : List ℤ} {x : Fin 0 → ℝ} {Ls : List Layer} {T : Kind F}
    {f : Params sh × (Fin 0 → ℝ) → F} (h : ExactTuple train θ (Kind.ints ks) x Ls T f) :
    Exact (tuplify Ls) train (Kind.ints ks) T f θ x := tuplify_exact (joins_ints ks) h

/-- With a `Ragged` as input the forward pass is right, but for two or more layers the callback raises
TypeError. -/
theorem C54_tuplify_ragged_partial {lengths : List ℕ} {m : ℕ} {x : Fin lengths.sum → Fin m → ℝ} {L L' : Layer}
    {Ls : List Layer} {T : Kind F}
    {f : Params sh × (Fin lengths.sum → Fin m → ℝ) → F}
    (h : ExactTuple train θ (Kind.ragged lengths m) x (L :: L' :: Ls) T f)
    {P : ParamVals} {v : Val} (hP : IsParams P θ) (hv : (Kind.ragged lengths m).val v x) :
    ∃ v' callback, tuplify (L :: L' :: Ls) train P v = .ok (v', callback) ∧ T.val v' (f (θ, x)) ∧
      ∀ dv dy G (g : Params sh), T.grad dv dy → IsGrads G g → callback dv G = .error .typeError := by
  obtain ⟨outs, back, eo, hT, hb, hc⟩ := tuple_loop hP hv h
  refine ⟨.tup (outs.map Prod.fst), fun dYs G => (do
    let (dXs, G) ← runCallbacks (outs.map Prod.snd) (← dYs.items) G
    match dXs with
    | [] => .error .indexError
    | dX :: dXs => return (← forM' dXs dX Val.iadd, G)), ?_, hT, ?_⟩
  · simp only [tuplify, eo, bind, Except.bind, pure, Except.pure]
    rfl
  · intro dv dy G g hdv hG
    obtain ⟨ds, rfl, h2⟩ := hc dv dy hdv
    obtain ⟨dXs, xs, G', e', h3, hl, h4, h5⟩ := h2 G g hG
    cases h3 with
    | nil => simp at hl
    | @cons d x' dXs xs h6 h7 =>
      cases h7 with
      | nil => simp at hl
      | @cons d' x'' dXs xs h8 h9 =>
        obtain ⟨A, rfl, _⟩ := h6
        obtain ⟨B, rfl, _⟩ := h8
        simp only [Val.items, bind, Except.bind, e', forM', Val.iadd]

/-! ### siamese -/

/-- `siamese(l, s)(x₁, x₂)` computes `s(l(x₁), l(x₂))` with exact gradients; the layer's parameters
receive the gradients of both uses. -/
theorem C54_siamese {E₁ E₂ F₁ F₂ : Type} [NormedAddCommGroup E₁] [NormedSpace ℝ E₁] [Tensor E₁]
    [NormedAddCommGroup E₂] [NormedSpace ℝ E₂] [Tensor E₂] [NormedAddCommGroup F₁] [NormedSpace ℝ F₁] [Tensor F₁]
    [NormedAddCommGroup F₂] [NormedSpace ℝ F₂] [Tensor F₂] {L S : Layer} {K₁ : Kind E₁} {K₂ : Kind E₂} {M₁ : Kind F₁}
    {M₂ : Kind F₂} {O : Kind H} {f₁ : Params sh × E₁ → F₁} {f₂ : Params sh × E₂ → F₂} {s : Params sh × (F₁ × F₂) → H}
    {x₁ : E₁} {x₂ : E₂} (h₁ : Exact L train K₁ M₁ f₁ θ x₁) (h₂ : Exact L train K₂ M₂ f₂ θ x₂)
    (hS : Exact S train (Kind.pair M₁ M₂) O s θ (f₁ (θ, x₁), f₂ (θ, x₂))) :
    Exact (siamese L S) train (Kind.pair K₁ K₂) O (fun p => s (p.1, (f₁ (p.1, p.2.1), f₂ (p.1, p.2.2)))) θ (x₁, x₂) := by
  rintro P _ hP ⟨a, vs, rfl, ha, b, hvs, hb⟩
  cases hvs
  obtain ⟨v1, cb1, b1, e1, hv1, hb1, hc1⟩ := h₁ P a hP ha
  obtain ⟨v2, cb2, b2, e2, hv2, hb2, hc2⟩ := h₂ P b hP hb
  obtain ⟨v3, cb3, b3, e3, hv3, hb3, hc3⟩ := hS P (.tup [v1, v2]) hP ⟨v1, [v2], rfl, hv1, v2, rfl, hv2⟩
  have g1 : IsVJP (fun p : Params sh × (E₁ × E₂) => f₁ (p.1, p.2.1)) (θ, (x₁, x₂))
      (fun dy => ((b1 dy).1, ((b1 dy).2, 0))) := by
    refine IsVJP_congr₂ (IsVJP_comp (f := fun p : Params sh × (E₁ × E₂) => (p.1, p.2.1)) hb1
      (IsVJP_prod (IsVJP_fst _) (IsVJP_comp (f := fun p : Params sh × (E₁ × E₂) => p.2) (IsVJP_fst _) (IsVJP_snd _))))
      (fun _ => rfl) fun dy => ?_
    simp
  have g2 : IsVJP (fun p : Params sh × (E₁ × E₂) => f₂ (p.1, p.2.2)) (θ, (x₁, x₂))
      (fun dy => ((b2 dy).1, (0, (b2 dy).2))) := by
    refine IsVJP_congr₂ (IsVJP_comp (f := fun p : Params sh × (E₁ × E₂) => (p.1, p.2.2)) hb2
      (IsVJP_prod (IsVJP_fst _) (IsVJP_comp (f := fun p : Params sh × (E₁ × E₂) => p.2) (IsVJP_snd _) (IsVJP_snd _))))
      (fun _ => rfl) fun dy => ?_
    simp
  have g3 : IsVJP (fun p : Params sh × (E₁ × E₂) => s (p.1, (f₁ (p.1, p.2.1), f₂ (p.1, p.2.2)))) (θ, (x₁, x₂))
      (fun dy => ((b3 dy).1 + (b1 (b3 dy).2.1).1 + (b2 (b3 dy).2.2).1, ((b1 (b3 dy).2.1).2, (b2 (b3 dy).2.2).2))) := by
    refine IsVJP_congr₂ (IsVJP_comp (f := fun p : Params sh × (E₁ × E₂) => (p.1, (f₁ (p.1, p.2.1), f₂ (p.1, p.2.2)))) hb3
      (IsVJP_prod (IsVJP_fst _) (IsVJP_prod g1 g2))) (fun _ => rfl) fun dy => ?_
    simp [add_assoc]
  refine ⟨v3, fun dOutput G => (do
    let (dVecs, G) ← cb3 dOutput G
    let (dVec1, dVec2) ← dVecs.unpack2
    let (dInput1, G) ← cb1 dVec1 G
    let (dInput2, G) ← cb2 dVec2 G
    return (.tup [dInput1, dInput2], G)), _, ?_, hv3, g3, ?_⟩
  · simp only [siamese, Val.unpack2, Val.items, bind, Except.bind, pure, Except.pure, e1, e2, e3]
  · intro dv dy G g hdv hG
    obtain ⟨_, G3, ec3, ⟨d1, ds, rfl, hd1, d2, hds, hd2⟩, hG3⟩ := hc3 dv dy G g hdv hG
    cases hds
    obtain ⟨i1, G1, ec1, hi1, hG1⟩ := hc1 d1 _ G3 _ hd1 hG3
    obtain ⟨i2, G2, ec2, hi2, hG2⟩ := hc2 d2 _ G1 _ hd2 hG1
    refine ⟨.tup [i1, i2], G2, ?_, ⟨i1, [i2], rfl, hi1, i2, rfl, hi2⟩, ?_⟩
    · simp only [bind, Except.bind, ec3, Val.unpack2, Val.items, pure, Except.pure, ec1, ec2]
    · simp only [← add_assoc]
      exact hG2

/-! ### map_list -/

section
variable {k : ℕ} {Ei Fi : Fin k → Type} [∀ i, NormedAddCommGroup (Ei i)] [∀ i, NormedSpace ℝ (Ei i)] [∀ i, Tensor (Ei i)]
  [∀ i, NormedAddCommGroup (Fi i)] [∀ i, NormedSpace ℝ (Fi i)] [∀ i, Tensor (Fi i)]

theorem IsVJP_mapList {f : (i : Fin k) → Params sh × Ei i → Fi i} {x : (i : Fin k) → Ei i}
    {b : (i : Fin k) → Fi i → Params sh × Ei i} (h : ∀ i, IsVJP (f i) (θ, x i) (b i)) :
    IsVJP (fun (p : Params sh × ((i : Fin k) → Ei i)) i => f i (p.1, p.2 i)) (θ, x)
      (fun dy => (∑ i, (b i (dy i)).1, fun i => (b i (dy i)).2)) := by
  have h1 : ∀ i, IsVJP (fun p : Params sh × ((i : Fin k) → Ei i) => f i (p.1, p.2 i)) (θ, x)
      (fun dy => ((b i dy).1, Pi.single i (b i dy).2)) := fun i => by
    refine IsVJP_congr₂ (IsVJP_comp (f := fun p : Params sh × ((i : Fin k) → Ei i) => (p.1, p.2 i)) (h i)
      (IsVJP_prod (IsVJP_fst _) (IsVJP_comp (f := fun p : Params sh × ((i : Fin k) → Ei i) => p.2) (IsVJP_dproj i _)
        (IsVJP_snd _)))) (fun _ => rfl) fun dy => ?_
    simp
  refine IsVJP_congr₂ (IsVJP_dpi' h1) (fun _ => rfl) fun dy => ?_
  refine Prod.ext ?_ ?_
  · rw [Prod.fst_sum]
  · rw [Prod.snd_sum]
    funext i
    have : (∑ j, (Pi.single j (b j (dy j)).2 : (i : Fin k) → Ei i)) i = (b i (dy i)).2 := by
      rw [Finset.sum_apply, Finset.sum_eq_single i]
      · simp
      · intro j _ hj
        rw [Pi.single_eq_of_ne (Ne.symm hj)]
      · simp
    first | exact this | exact this.symm

theorem mapM_ofFn {β : Type} {k : ℕ} (g : Val → Except PyErr β) (vs : Fin k → Val) (r : Fin k → β)
    (h : ∀ i, g (vs i) = .ok (r i)) : (List.ofFn vs).mapM g = .ok (List.ofFn r) := by
  induction k with
  | zero => simp; rfl
  | succ k ih =>
    rw [List.ofFn_succ, List.ofFn_succ, List.mapM_cons, h 0, ih _ _ fun i => h i.succ]
    rfl

theorem runCallbacks_ofFn {k : ℕ} (cbs : Fin k → Callback) (ds : Fin k → Val) (R : Fin k → Val → Prop)
    (δ : Fin k → Params sh) (h : ∀ i G g, IsGrads G g → ∃ d G', cbs i (ds i) G = .ok (d, G') ∧ R i d ∧ IsGrads G' (g + δ i))
    (G : GradStore) (g : Params sh) (hG : IsGrads G g) :
    ∃ (dXs : Fin k → Val) (G' : GradStore), runCallbacks (List.ofFn cbs) (List.ofFn ds) G = .ok (List.ofFn dXs, G') ∧
      (∀ i, R i (dXs i)) ∧ IsGrads G' (g + ∑ i, δ i) := by
  induction k generalizing G g with
  | zero => exact ⟨fun i => i.elim0, G, by simp [runCallbacks], fun i => i.elim0, by simpa using hG⟩
  | succ k ih =>
    obtain ⟨d, G1, e, hd, hG1⟩ := h 0 G g hG
    obtain ⟨dXs, G', e', hR, hG'⟩ := ih (fun i => cbs i.succ) (fun i => ds i.succ) (fun i => R i.succ) (fun i => δ i.succ)
      (fun i => h i.succ) G1 _ hG1
    refine ⟨Fin.cons d dXs, G', ?_, ?_, ?_⟩
    · rw [List.ofFn_succ, List.ofFn_succ, List.ofFn_succ]
      simp only [runCallbacks, e, bind, Except.bind, e', pure, Except.pure, Fin.cons_zero, Fin.cons_succ]
    · intro i
      refine Fin.cases ?_ (fun i => ?_) i
      · simpa using hd
      · simpa using hR i
    · rw [Fin.sum_univ_succ, ← add_assoc]
      exact hG'

/-- `map_list(layer)` applies the layer to every member of a list, with exact gradients: the members get
their own gradients, the parameters get the sum. -/
theorem C54_map_list {L : Layer} {K : (i : Fin k) → Kind (Ei i)} {M : (i : Fin k) → Kind (Fi i)}
    {f : (i : Fin k) → Params sh × Ei i → Fi i} {x : (i : Fin k) → Ei i}
    (h : ∀ i, Exact L train (K i) (M i) (f i) θ (x i)) :
    Exact (mapList L) train (Kind.list K) (Kind.list M) (fun p i => f i (p.1, p.2 i)) θ x := by
  rintro P _ hP ⟨vs, rfl, hvs⟩
  have h' := fun i => h i P (vs i) hP (hvs i)
  choose v' cb b e hv hb hc using h'
  refine ⟨.list (List.ofFn v'), fun dYs G => (do
    let (dXs, G) ← runCallbacks (List.ofFn cb) (← dYs.items) G
    return (.list dXs, G)), _, ?_, ⟨v', rfl, hv⟩, IsVJP_mapList hb, ?_⟩
  · have : (List.ofFn vs).mapM (fun X => L train P X) = .ok (List.ofFn fun i => (v' i, cb i)) :=
      mapM_ofFn _ vs _ e
    simp only [mapList, Val.items, bind, Except.bind, this, pure, Except.pure, List.map_ofFn]
    rfl
  · rintro _ dy G g ⟨ds, rfl, hds⟩ hG
    obtain ⟨dXs, G', e', hR, hG'⟩ := runCallbacks_ofFn cb ds (fun i d => (K i).grad d (b i (dy i)).2)
      (fun i => (b i (dy i)).1) (fun i G g hG => hc i (ds i) (dy i) G g (hds i) hG) G g hG
    refine ⟨.list (List.ofFn dXs), G', ?_, ⟨dXs, rfl, hR⟩, hG'⟩
    simp only [Val.items, bind, Except.bind, e', pure, Except.pure]
end

/-! ### clone -/

/-- `clone(m, 0)` is the identity. -/
theorem C54_clone_zero (orig : Layer) (copies : ℕ → Layer) (K : Kind E) (x : E) :
    Exact (clone orig copies 0) train K K (fun p => p.2) θ x := C54_noop K x

/-- `clone(m, n)` is the chain of the model and `n - 1` copies. -/
theorem C54_clone (orig : Layer) (copies : ℕ → Layer) (n : ℕ) :
    clone orig copies (n + 1) = chain (orig :: (List.range n).map copies) := by
  cases n with
  | zero => exact (C51_one orig).symm
  | succ n => simp [clone]

end
end Thinc
