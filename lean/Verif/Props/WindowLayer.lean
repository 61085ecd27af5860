import Verif.Model.WindowLayer
import Verif.Spec.Window
import Verif.Props.PoolLayers
import Verif.Props.SoftmaxLayer
import Verif.Props.Seq2col
/-!
# C76: expand_window
-/
namespace Thinc
open Spec Spec.Tensor

theorem dot_left_unique {E : Type} [NormedAddCommGroup E] [NormedSpace ℝ E] [Tensor E] {a b : E} (h : ∀ v, dot a v = dot b v) : a = b := by
  have h1 : dot (a - b) (a - b) = 0 := by
    rw [sub_eq_add_neg, dot_add_left, ← neg_one_smul ℝ b, dot_smul_left, h]
    ring
  exact sub_eq_zero.1 (dot_self_eq_zero _ h1)

theorem inner_eq_dot {n m : ℕ} {A B : Mat ℝ} {x y : Fin n → Fin m → ℝ} (hA : IsMat A x) (hB : IsMat B y) :
    inner n m A.at B.at = dot x y := by
  simp only [Spec.inner, dot_pi, dot_real]
  rw [Finset.sum_range]
  refine Finset.sum_congr rfl fun i _ => ?_
  rw [Finset.sum_range]
  exact Finset.sum_congr rfl fun j _ => by rw [hA.2.2, hB.2.2]

section
variable {N : ℕ} {sh : Fin N → ℕ × ℕ} {n m n' m' : ℕ}

/-- A linear map whose backward pass is its adjoint: the backward pass is the vector-Jacobian product. -/
theorem IsVJP_of_adjoint {f : (Fin n → Fin m → ℝ) → Fin n' → Fin m' → ℝ} (hadd : ∀ x y, f (x + y) = f x + f y)
    (hsmul : ∀ (a : ℝ) x, f (a • x) = a • f x) (bw : Mat ℝ → Except PyErr (Mat ℝ))
    (hb : ∀ D d, IsMat D d → ∃ dX dx, bw D = .ok dX ∧ IsMat dX dx ∧ ∀ v, dot dx v = dot d (f v)) (x : Fin n → Fin m → ℝ) :
    ∃ back, IsVJP f x back ∧ ∀ D d, IsMat D d → ∃ dX, bw D = .ok dX ∧ IsMat dX (back d) := by
  choose g0 g h1 h2 h3 using fun d => hb (Mat.ofFin d) d (isMat_ofFin d)
  refine ⟨g, IsVJP_linear' hadd hsmul fun dy v => h3 dy v, fun D d hD => ?_⟩
  obtain ⟨dX, dx, e, k1, k2⟩ := hb D d hD
  refine ⟨dX, e, ?_⟩
  rw [← dot_left_unique (a := dx) (b := g d) fun v => by rw [k2, h3]]
  exact k1

theorem windowOf_add (seqNo : ℕ → ℕ) (nW : ℕ) (x y : Fin n → Fin m → ℝ) :
    windowOf seqNo nW (x + y) = windowOf seqNo nW x + windowOf seqNo nW y := by
  funext i j
  simp only [windowOf, Pi.add_apply]
  split <;> simp

theorem windowOf_smul (seqNo : ℕ → ℕ) (nW : ℕ) (a : ℝ) (x : Fin n → Fin m → ℝ) :
    windowOf seqNo nW (a • x) = a • windowOf seqNo nW x := by
  funext i j
  simp only [windowOf, Pi.smul_apply]
  split <;> simp

theorem windowOf_pieceRow (seqNo : ℕ → ℕ) (nW : ℕ) (x : Fin n → Fin m → ℝ) (i : Fin n) (k : Fin (2 * nW + 1)) (c : Fin m) :
    windowOf seqNo nW x i (pieceRow k c) =
      if h : nW ≤ (i : ℕ) + k ∧ (i : ℕ) + k - nW < n ∧ seqNo (i + k - nW) = seqNo i then x ⟨i + k - nW, h.2.1⟩ c else 0 := by
  simp [windowOf, pieceRow]

theorem windowOf_congr {s s' : ℕ → ℕ} (nW : ℕ) (v : Fin n → Fin m → ℝ) (h : ∀ i j, i < n → j < n → (s i = s j ↔ s' i = s' j)) :
    windowOf s nW v = windowOf s' nW v := by
  funext i j
  obtain ⟨⟨k, c⟩, rfl⟩ := finProdFinEquiv.surjective j
  refine (windowOf_pieceRow s nW v i k c).trans (Eq.trans ?_ (windowOf_pieceRow s' nW v i k c).symm)
  by_cases h1 : nW ≤ (i : ℕ) + k ∧ (i : ℕ) + k - nW < n ∧ s (i + k - nW) = s i
  · rw [dif_pos h1, dif_pos ⟨h1.1, h1.2.1, (h _ _ h1.2.1 i.2).1 h1.2.2⟩]
  · rw [dif_neg h1, dif_neg fun h2 => h1 ⟨h2.1, h2.2.1, (h _ _ h2.2.1 i.2).2 h2.2.2⟩]

/-- The forward pass on sequences. -/
theorem seq2col_isMat {ls : List ℕ} (nW : ℕ) (lengths : Option (List ℕ)) (hls : ls = effLengths lengths ls.sum) {X : Mat ℝ}
    {x : Fin ls.sum → Fin m → ℝ} (hX : IsMat X x) :
    ∃ Y, seq2col X nW (lengths.map asInts) = .ok Y ∧ IsMat Y (windowOf (memberOf ls) nW x) := by
  obtain ⟨Y, e, r, c, h⟩ := C40_seq2col X nW lengths ls (by rw [hX.1]; exact hls) hX.1.symm
  rw [hX.2.1] at c h
  refine ⟨Y, e, isMat_seqs (r.trans hX.1) c fun b t o => ?_⟩
  obtain ⟨⟨k, i⟩, rfl⟩ := finProdFinEquiv.surjective o
  rw [show ((finProdFinEquiv (k, i) : Fin ((2 * nW + 1) * m)) : ℕ) = k * m + i from pieceRow_val k i,
    h b b.2 t (by rw [seqLen_eq]; exact t.2) k k.2 i i.2]
  refine Eq.trans ?_ (windowOf_pieceRow _ nW x _ k i).symm
  have h1 : ((rowOf ls b t : Fin ls.sum) : ℕ) = seqStart ls b + t := rfl
  have hm : memberOf ls (rowOf ls b t : Fin ls.sum) = b := memberOf_start ls b t (by rw [seqLen_eq]; exact t.2)
  by_cases hc : nW ≤ (t : ℕ) + k ∧ (t : ℕ) + k - nW < seqLen ls b
  · have h2 : seqStart ls b + ((t : ℕ) + k - nW) = seqStart ls b + t + k - nW := by omega
    have h3 := memberOf_start ls b _ hc.2
    have h4 := seqEnd_le ls b b.2
    rw [if_pos hc, dif_pos (by
      rw [hm, h1, ← h2, h3]
      exact ⟨by omega, by omega, rfl⟩)]
    exact (congrArg (fun r => X.at r i) h2).trans (hX.2.2 ⟨seqStart ls b + t + k - nW, by omega⟩ i)
  · rw [if_neg hc, dif_neg]
    rintro ⟨a1, a2, a3⟩
    rw [hm] at a3
    rw [h1] at a1 a2 a3
    obtain ⟨-, t', ht', e'⟩ := memberOf_spec ls _ a2
    rw [a3] at ht' e'
    omega

/-- The backward pass on sequences. -/
theorem backpropSeq2col_isMat {ls : List ℕ} (nW : ℕ) (lengths : Option (List ℕ)) (hls : ls = effLengths lengths ls.sum) {D : Mat ℝ}
    {d : Fin ls.sum → Fin ((2 * nW + 1) * m) → ℝ} (hD : IsMat D d) :
    ∃ dX dx, backpropSeq2col D nW (lengths.map asInts) = .ok dX ∧ IsMat dX dx ∧
      ∀ v : Fin ls.sum → Fin m → ℝ, dot dx v = dot d (windowOf (memberOf ls) nW v) := by
  obtain ⟨dX, e, r, c, -⟩ := C40_backprop_seq2col D nW m lengths ls (by rw [hD.1]; exact hls) hD.1.symm hD.2.1
  have hdX : IsMat dX (fun (i : Fin ls.sum) (j : Fin m) => dX.at i j) := ⟨r.trans hD.1, c, fun _ _ => rfl⟩
  refine ⟨dX, _, e, hdX, fun v => ?_⟩
  have hv := isMat_ofFin v
  obtain ⟨Y, eY, hY⟩ := seq2col_isMat nW lengths hls hv
  obtain ⟨Y', dX', e1, e2, -, -, e3⟩ := C40_adjoint (Mat.ofFin v) D nW lengths (by rw [hv.1, ← hls]) (hD.1.trans hv.1.symm)
    (by rw [hv.2.1]; exact hD.2.1)
  obtain rfl : Y = Y' := by rw [eY] at e1; simpa using e1
  obtain rfl : dX = dX' := by rw [e] at e2; simpa using e2
  rw [hv.1, hv.2.1, inner_eq_dot hv hdX, hY.1, hY.2.1, inner_eq_dot hY hD] at e3
  rw [dot_comm, ← e3, dot_comm]

/-- expand_window on a Ragged gives every row its window within its own sequence, with exact gradients. -/
theorem C76_ragged (ls : List ℕ) (nW : ℕ) (train : Bool) (θ : Params sh) (x : Fin ls.sum → Fin m → ℝ) :
    Exact (expandWindow nW) train (Kind.ragged ls m) (Kind.ragged ls ((2 * nW + 1) * m))
      (fun p => windowOf (memberOf ls) nW p.2) θ x := by
  obtain ⟨back, hv, hb⟩ := IsVJP_of_adjoint (windowOf_add (memberOf ls) nW) (windowOf_smul (memberOf ls) nW) _
    (fun D d hD => backpropSeq2col_isMat nW (some ls) rfl hD) x
  refine Exact.intro (IsVJP_input hv θ) ?_
  rintro P v hP ⟨X, rfl, hX⟩
  obtain ⟨Y, eY, hY⟩ := seq2col_isMat nW (some ls) rfl hX
  simp only [Option.map_some] at eY hb
  apply ok_intro
  · simp only [expandWindow, expandWindowRagged, bind, Except.bind, pure, Except.pure]
    rw [show ls.map Int.ofNat = asInts ls from rfl, eY]
  · refine ⟨⟨Y, rfl, hY⟩, ?_⟩
    rintro _ dy G g ⟨D, rfl, hD⟩ hG
    obtain ⟨dX, e, h⟩ := hb D dy hD
    exact ⟨.ragged dX ls, G, by simp only [Val.raggedData, e], ⟨dX, rfl, h⟩, by simpa using hG⟩

/-- expand_window on an array gives every row its window, with exact gradients, also for arrays without rows. -/
theorem C76_floats (nW : ℕ) (train : Bool) (θ : Params sh) (x : Fin n → Fin m → ℝ) :
    Exact (expandWindow nW) train (Kind.arr n m) (Kind.arr n ((2 * nW + 1) * m)) (fun p => windowOf (fun _ => 0) nW p.2) θ x := by
  have hg : ∀ v : Fin n → Fin m → ℝ, windowOf (fun _ => 0) nW v = windowOf (memberOf [n]) nW v := fun v =>
    windowOf_congr nW v fun i j hi hj => by simp [memberOf, hi, hj]
  obtain ⟨back, hv, hb⟩ := IsVJP_of_adjoint (windowOf_add (fun _ => 0) nW) (windowOf_smul (fun _ => 0) nW)
    (fun D => backpropSeq2col D nW none) (fun D d hD => by
      obtain ⟨dX, dx, h1, h2, h3⟩ := backpropSeq2col_isMat (ls := [n]) nW none rfl hD
      exact ⟨dX, dx, h1, h2, fun v => (h3 v).trans (by rw [hg]; rfl)⟩) x
  refine Exact.intro (IsVJP_input hv θ) ?_
  rintro P v hP ⟨X, rfl, hX⟩
  obtain ⟨Y, eY, hY⟩ : ∃ Y, windowFloats nW X = .ok Y ∧
      IsMat Y (windowOf (fun _ => 0) nW x) := by
    unfold windowFloats
    by_cases h : X.rows > 0
    · obtain ⟨Y, eY, hY⟩ := seq2col_isMat (ls := [n]) nW none rfl hX
      exact ⟨Y, by rw [if_pos h]; exact eY, by rw [hg]; exact hY⟩
    · have h0 : n = 0 := by rw [← hX.1]; omega
      subst h0
      exact ⟨_, if_neg h, rfl, by rw [hX.2.1]; exact (by ring : m * (nW * 2 + 1) = (2 * nW + 1) * m), fun i => i.elim0⟩
  apply ok_intro
  · simp only [expandWindow, expandWindowFloats, Val.asArr, bind, Except.bind, pure, Except.pure, eY]
    rfl
  · refine ⟨⟨Y, rfl, hY⟩, ?_⟩
    rintro _ dy G g ⟨D, rfl, hD⟩ hG
    obtain ⟨dX, e, h⟩ := hb D dy hD
    exact ⟨.arr dX, G, by simp only [e], ⟨dX, rfl, h⟩, by simpa using hG⟩
end

/-- The window of size 1 around the only row of the second of two sequences: the row between two blocks of zeros. -/
example (x : Fin [2, 1].sum → Fin 1 → ℝ) : windowOf (memberOf [2, 1]) 1 x ⟨2, by decide⟩ (pieceRow 0 0) = 0 ∧
    windowOf (memberOf [2, 1]) 1 x ⟨2, by decide⟩ (pieceRow 1 0) = x ⟨2, by decide⟩ 0 ∧
    windowOf (memberOf [2, 1]) 1 x ⟨1, by decide⟩ (pieceRow 0 0) = x ⟨0, by decide⟩ 0 := by
  refine ⟨?_, ?_, ?_⟩ <;> rw [windowOf_pieceRow] <;> simp [memberOf]

end Thinc
