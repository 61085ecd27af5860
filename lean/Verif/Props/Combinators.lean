import Verif.Props.ConcatenateSeqs
/-!
# C54: residual, tuplify, siamese, map_list and clone
-/
namespace Thinc
open Spec Spec.Tensor

section
variable {N : ℕ} {sh : Fin N → ℕ × ℕ} {E F H : Type} [NormedAddCommGroup E] [NormedSpace ℝ E] [Tensor E]
  [NormedAddCommGroup F] [NormedSpace ℝ F] [Tensor F] [NormedAddCommGroup H] [NormedSpace ℝ H] [Tensor H]
  {train : Bool} {θ : Params sh}

/-! ### noop -/

/-- `noop` is the identity. -/
theorem C54_noop (K : Kind E) (x : E) : Exact noop train K K (fun p => p.2) θ x :=
  Exact.intro (IsVJP_snd _) fun P v hP hv =>
    ⟨_, rfl, hv, fun dv dy G g hdv hG => ⟨dv, G, rfl, hdv, by simpa using hG⟩⟩

/-! ### residual -/

theorem IsVJP_residual {f : Params sh × E → E} {x : E} {b : E → Params sh × E} (h : IsVJP f (θ, x) b) :
    IsVJP (fun p : Params sh × E => p.2 + f p) (θ, x) (fun dy => ((b dy).1, dy + (b dy).2)) :=
  IsVJP_congr₂ (IsVJP_add (IsVJP_snd _) h) (fun _ => rfl) fun dy => by ext1 <;> simp

/-- `residual(f)` on arrays computes `x + f(x)` with exact gradients. -/
theorem C54_residual_arrays {n m : ℕ} {L : Layer} {f : Params sh × (Fin n → Fin m → ℝ) → Fin n → Fin m → ℝ}
    {x : Fin n → Fin m → ℝ} (h : Exact L train (Kind.arr n m) (Kind.arr n m) f θ x) :
    Exact (residual L) train (Kind.arr n m) (Kind.arr n m) (fun p => p.2 + f p) θ x := by
  rintro P v hP ⟨X, rfl, hX⟩
  obtain ⟨_, cb, b, e, ⟨Y, rfl, hY⟩, hb, hc⟩ := h P (.arr X) hP ⟨X, rfl, hX⟩
  obtain ⟨Z, eZ, hZ⟩ := hX.npBinary hY (· + ·)
  have hf : ∃ r, residual L train P (.arr X) = .ok r ∧ r.1 = .arr Z ∧ ∀ D G, r.2 (.arr D) G = (do
      let (dX, G) ← cb (.arr D) G
      return (← (Val.arr D).add dX, G)) := by
    apply ok_intro
    · simp only [residual, e, bind, Except.bind, pure, Except.pure, Val.add, eZ]
      rfl
    · exact ⟨rfl, fun D G => rfl⟩
  obtain ⟨r, er, hr1, hr2⟩ := hf
  refine ⟨r.1, r.2, _, er, ⟨Z, hr1, hZ⟩, IsVJP_residual hb, ?_⟩
  rintro _ dy G g ⟨D, rfl, hD⟩ hG
  obtain ⟨_, G', ec, ⟨dX, rfl, hdX⟩, hG'⟩ := hc (.arr D) dy G g ⟨D, rfl, hD⟩ hG
  obtain ⟨S, eS, hS⟩ := hD.npBinary hdX (· + ·)
  refine ⟨.arr S, G', ?_, ⟨S, rfl, hS⟩, hG'⟩
  rw [hr2, ec]
  simp only [bind, Except.bind, Val.add, eS, pure, Except.pure]

/-- The same for `Ragged`. -/
theorem C54_residual_ragged {lengths : List ℕ} {m : ℕ} {L : Layer}
    {f : Params sh × (Fin lengths.sum → Fin m → ℝ) → Fin lengths.sum → Fin m → ℝ}
    {x : Fin lengths.sum → Fin m → ℝ} (h : Exact L train (Kind.ragged lengths m) (Kind.ragged lengths m) f θ x) :
    Exact (residual L) train (Kind.ragged lengths m) (Kind.ragged lengths m) (fun p => p.2 + f p) θ x := by
  rintro P v hP ⟨X, rfl, hX⟩
  obtain ⟨_, cb, b, e, ⟨Y, rfl, hY⟩, hb, hc⟩ := h P (.ragged X lengths) hP ⟨X, rfl, hX⟩
  obtain ⟨Z, eZ, hZ⟩ := hX.npBinary hY (· + ·)
  have hf : ∃ r, residual L train P (.ragged X lengths) = .ok r ∧ r.1 = .ragged Z lengths ∧ ∀ D l G,
      r.2 (.ragged D l) G = (do
      let (dX, G) ← cb (.ragged D l) G
      return (.ragged (← addData (.ragged D l) dX) (← dX.lengths), G)) := by
    apply ok_intro
    · simp only [residual, e, bind, Except.bind, pure, Except.pure, addData, eZ]
      rfl
    · exact ⟨rfl, fun D l G => rfl⟩
  obtain ⟨r, er, hr1, hr2⟩ := hf
  refine ⟨r.1, r.2, _, er, ⟨Z, hr1, hZ⟩, IsVJP_residual hb, ?_⟩
  rintro _ dy G g ⟨D, rfl, hD⟩ hG
  obtain ⟨_, G', ec, ⟨dX, rfl, hdX⟩, hG'⟩ := hc (.ragged D lengths) dy G g ⟨D, rfl, hD⟩ hG
  obtain ⟨S, eS, hS⟩ := hD.npBinary hdX (· + ·)
  refine ⟨.ragged S lengths, G', ?_, ⟨S, rfl, hS⟩, hG'⟩
  rw [hr2, ec]
  simp only [bind, Except.bind, addData, eS, pure, Except.pure, Val.lengths]

/-- The same for `Padded`. -/
theorem C54_residual_padded {n m steps : ℕ} {s l i : List ℕ} {L : Layer}
    {f : Params sh × (Fin n → Fin m → ℝ) → Fin n → Fin m → ℝ} {x : Fin n → Fin m → ℝ}
    (h : Exact L train (Kind.padded n m steps s l i) (Kind.padded n m steps s l i) f θ x) :
    Exact (residual L) train (Kind.padded n m steps s l i) (Kind.padded n m steps s l i) (fun p => p.2 + f p) θ x := by
  rintro P v hP ⟨X, rfl, hX⟩
  obtain ⟨_, cb, b, e, ⟨Y, rfl, hY⟩, hb, hc⟩ := h P (.padded X steps s l i) hP ⟨X, rfl, hX⟩
  obtain ⟨Z, eZ, hZ⟩ := hY.npUpdate hX (· + ·)
  have hf : ∃ r, residual L train P (.padded X steps s l i) = .ok r ∧ r.1 = .padded Z steps s l i ∧ ∀ D G,
      r.2 (.padded D steps s l i) G = (do
      let (dX, G) ← cb (.padded D steps s l i) G
      return (← Val.iaddData dX (.padded D steps s l i), G)) := by
    apply ok_intro
    · simp only [residual, e, bind, Except.bind, pure, Except.pure, Val.iaddData, eZ]
      rfl
    · exact ⟨rfl, fun D G => rfl⟩
  obtain ⟨r, er, hr1, hr2⟩ := hf
  refine ⟨r.1, r.2, _, er, ⟨Z, hr1, hZ.congr fun a c => add_comm _ _⟩, IsVJP_residual hb, ?_⟩
  rintro _ dy G g ⟨D, rfl, hD⟩ hG
  obtain ⟨_, G', ec, ⟨dX, rfl, hdX⟩, hG'⟩ := hc (.padded D steps s l i) dy G g ⟨D, rfl, hD⟩ hG
  obtain ⟨S, eS, hS⟩ := hdX.npUpdate hD (· + ·)
  refine ⟨.padded S steps s l i, G', ?_, ⟨S, rfl, hS.congr fun a c => add_comm _ _⟩, hG'⟩
  rw [hr2, ec]
  simp only [bind, Except.bind, Val.iaddData, eS, pure, Except.pure]

theorem addItems_parts (As Bs : List (Mat ℝ)) (lengths : List ℕ) {m : ℕ} {x y : Fin lengths.sum → Fin m → ℝ}
    (hA : IsParts As lengths x) (hB : IsParts Bs lengths y) :
    ∃ Cs : List (Mat ℝ), addItems (As.map .arr) (Bs.map .arr) = .ok (Cs.map .arr) ∧ IsParts Cs lengths (x + y) := by
  obtain ⟨hA1, hA2, hA3⟩ := hA
  obtain ⟨hB1, hB2, hB3⟩ := hB
  have hlen : As.length = Bs.length := by
    rw [← List.length_map (f := Mat.rows) (as := As), hA1, ← hB1, List.length_map]
  have key : ∀ (As Bs : List (Mat ℝ)), As.map Mat.rows = Bs.map Mat.rows → (∀ A ∈ As, A.cols = m) → (∀ B ∈ Bs, B.cols = m) →
      ∃ Cs : List (Mat ℝ), addItems (As.map .arr) (Bs.map .arr) = .ok (Cs.map .arr) ∧
        Cs.map Mat.rows = As.map Mat.rows ∧ (∀ C ∈ Cs, C.cols = m) ∧
        ∀ (b : ℕ) (hb : b < Cs.length) (hb1 : b < As.length) (hb2 : b < Bs.length) (r j : ℕ), r < Cs[b].rows → j < m →
          Cs[b].at r j = As[b].at r j + Bs[b].at r j := by
    intro As
    induction As with
    | nil =>
      intro Bs _ _ _
      exact ⟨[], rfl, rfl, by simp, fun b hb => absurd hb (by simp)⟩
    | cons A As ih =>
      intro Bs hr hA hB
      cases Bs with
      | nil => simp at hr
      | cons B Bs =>
        simp only [List.map_cons, List.cons.injEq] at hr
        obtain ⟨Cs, eC, h1, h2, h3⟩ := ih Bs hr.2 (fun A h => hA A (by simp [h])) (fun B h => hB B (by simp [h]))
        have cA := hA A (by simp)
        have cB := hB B (by simp)
        have mA : IsMat A (fun (i : Fin A.rows) (j : Fin m) => A.at i j) := ⟨rfl, cA, fun _ _ => rfl⟩
        have mB : IsMat B (fun (i : Fin A.rows) (j : Fin m) => B.at i j) := ⟨hr.1.symm, cB, fun _ _ => rfl⟩
        obtain ⟨C, e, hC⟩ := mA.npBinary mB (· + ·)
        refine ⟨C :: Cs, ?_, ?_, ?_, ?_⟩
        · simp only [List.map_cons, addItems, Val.add, e, bind, Except.bind, eC, pure, Except.pure]
        · simp only [List.map_cons, h1, hC.1]
        · intro D hD
          rcases List.mem_cons.1 hD with rfl | hD
          · exact hC.2.1
          · exact h2 D hD
        · intro b hb hb1 hb2 r j hr hj
          cases b with
          | zero =>
            simp only [List.getElem_cons_zero] at hr ⊢
            rw [hC.1] at hr
            exact hC.at hr hj
          | succ b => exact h3 b (by simpa using hb) (by simpa using hb1) (by simpa using hb2) r j hr hj
  obtain ⟨Cs, eC, h1, h2, h3⟩ := key As Bs (hA1.trans hB1.symm) hA2 hB2
  have hlen' : Cs.length = As.length := by
    rw [← List.length_map (f := Mat.rows) (as := Cs), h1, List.length_map]
  refine ⟨Cs, eC, h1.trans hA1, h2, fun b hb r i j hr hi => ?_⟩
  have hrow : ∀ (Ds : List (Mat ℝ)) (hD : Ds.map Mat.rows = As.map Mat.rows) (hb' : b < Ds.length),
      Ds[b].rows = As[b].rows := by
    intro Ds hD hb'
    have : (Ds.map Mat.rows)[b]'(by simpa using hb') = (As.map Mat.rows)[b]'(by simp; omega) := by
      simp only [hD]
    simpa using this
  have hr1 := hrow Cs h1 hb
  have hr2 := hrow Bs (hB1.trans hA1.symm) (by omega)
  rw [h3 b hb (by omega) (by omega) r j hr j.2, hA3 b (by omega) r i j (by omega) hi, hB3 b (by omega) r i j (by omega) hi]
  rfl

/-- The same for lists of arrays. -/
theorem C54_residual_lists {lengths : List ℕ} {m : ℕ} {L : Layer}
    {f : Params sh × (Fin lengths.sum → Fin m → ℝ) → Fin lengths.sum → Fin m → ℝ}
    {x : Fin lengths.sum → Fin m → ℝ} (h : Exact L train (Kind.seqs lengths m) (Kind.seqs lengths m) f θ x) :
    Exact (residual L) train (Kind.seqs lengths m) (Kind.seqs lengths m) (fun p => p.2 + f p) θ x := by
  rintro P v hP ⟨X, rfl, hX⟩
  obtain ⟨_, cb, b, e, ⟨Y, rfl, hY⟩, hb, hc⟩ := h P (.list (X.map .arr)) hP ⟨X, rfl, hX⟩
  obtain ⟨Z, eZ, hZ⟩ := addItems_parts X Y lengths hX hY
  have hf : ∃ r, residual L train P (.list (X.map .arr)) = .ok r ∧ r.1 = .list (Z.map .arr) ∧ ∀ ds G,
      r.2 (.list ds) G = (do
      let (dX, G) ← cb (.list ds) G
      return (.list (← addItems ds (← dX.items)), G)) := by
    apply ok_intro
    · simp only [residual, e, bind, Except.bind, pure, Except.pure, Val.items, eZ]
      rfl
    · exact ⟨rfl, fun D G => rfl⟩
  obtain ⟨r, er, hr1, hr2⟩ := hf
  refine ⟨r.1, r.2, _, er, ⟨Z, hr1, hZ⟩, IsVJP_residual hb, ?_⟩
  rintro _ dy G g ⟨D, rfl, hD⟩ hG
  obtain ⟨_, G', ec, ⟨dX, rfl, hdX⟩, hG'⟩ := hc (.list (D.map .arr)) dy G g ⟨D, rfl, hD⟩ hG
  obtain ⟨S, eS, hS⟩ := addItems_parts D dX lengths hD hdX
  refine ⟨.list (S.map .arr), G', ?_, ⟨S, rfl, hS⟩, hG'⟩
  rw [hr2, ec]
  simp only [bind, Except.bind, Val.items, eS, pure, Except.pure]

end
end Thinc
