import Verif.Lemmas.Gemm
import Verif.Model.Layer
import Verif.Lemmas.Softmax
import Mathlib.Tactic.FinCases
/-!
# C132: matrix multiplication on the backends
-/
namespace Thinc
open Blas Spec.Gemm BigOperators
variable {α : Type} [Semiring α]

theorem holdsOp_op {m : Memory α} {v : View} {trans : Bool} {r c : ℕ} {f : Fin r → Fin c → α} (h : HoldsOp m v trans f) :
    v.size0 trans = r ∧ v.size1 trans = c ∧ ∀ (i : Fin r) (j : Fin c), opEntry m v trans i j = f i j := by
  cases trans
  · obtain ⟨h1, h2, h3⟩ : Holds m v f := h
    exact ⟨h1, h2, fun i j => by rw [op_entry]; exact h3 i j⟩
  · obtain ⟨h1, h2, h3⟩ : Holds m v (fun i j => f j i) := h
    exact ⟨h2, h1, fun i j => by rw [op_entry]; exact h3 j i⟩

theorem contig_op {m m' : Memory α} {v v' : View} (h : Contig m v m' v') (trans : Bool) :
    v'.size0 trans = v.size0 trans ∧ v'.size1 trans = v.size1 trans ∧
      ∀ i < v.size0 trans, ∀ j < v.size1 trans, opEntry m' v' trans i j = opEntry m v trans i j := by
  cases trans
  · exact ⟨h.rows, h.cols, fun i hi j hj => by rw [op_entry, op_entry]; exact h.entry i hi j hj⟩
  · exact ⟨h.cols, h.rows, fun i hi j hj => by rw [op_entry, op_entry]; exact h.entry j hj i hi⟩

theorem extends_op {m m' : Memory α} (h : Extends m m') {v : View} (hv : Valid m v) (trans : Bool) (i j : ℕ) :
    opEntry m' v trans i j = opEntry m v trans i j := by
  rw [op_entry, op_entry, h.entry hv, h.entry hv]

theorem apart_of_base {v w : View} (h : v.base ≠ w.base) : Apart v w := fun e => absurd e h

theorem sum_product {r n c : ℕ} {F G : ℕ → ℕ → α} {f : Fin r → Fin n → α} {g : Fin n → Fin c → α} (hF : ∀ (i : Fin r) (j : Fin n), F i j = f i j)
    (hG : ∀ (i : Fin n) (j : Fin c), G i j = g i j) (i : Fin r) (j : Fin c) :
    ∑ k ∈ Finset.range n, F i k * G k j = product f g i j := by
  rw [Finset.sum_range]
  exact Finset.sum_congr rfl fun k _ => by rw [hF, hG]

/-- The call of BLAS, after the arguments have been made contiguous. -/
theorem blas_core {m m1 m2 m3 : Memory α} {x y x' y' o : View} {trans1 trans2 : Bool} {r n c : ℕ} {f : Fin r → Fin n → α} {g : Fin n → Fin c → α}
    (vx : Valid m x) (vy : Valid m y) (hx : HoldsOp m x trans1 f) (hy : HoldsOp m y trans2 g) (cx : Contig m x m1 x') (cy : Contig m1 y m2 y')
    (e3 : Extends m2 m3) (co : o.contiguous) (vo : Valid m3 o) (ro : o.rows = r) (ho : o.cols = c) (ax : Apart o x') (ay : Apart o y') :
    ∃ m4, sgemm trans1 trans2 (x'.size0 trans1) (y'.size1 trans2) (x'.size1 trans1) x'.ptr y'.ptr o.ptr m3 = .ok m4 ∧ Holds m4 o (product f g) ∧
      OnlyChanges o m3 m4 ∧ (∀ b, b ≠ o.base → m4.buf b = m3.buf b) ∧ m4.next = m3.next ∧ Valid m4 o := by
  obtain ⟨x0, x1, x2⟩ := holdsOp_op hx
  obtain ⟨y0, y1, y2⟩ := holdsOp_op hy
  obtain ⟨x3, x4, x5⟩ := contig_op cx trans1
  obtain ⟨y3, y4, y5⟩ := contig_op cy trans2
  have vy1 : Valid m1 y := cx.ext.valid vy
  have vx3 : Valid m3 x' := e3.valid (cy.ext.valid cx.valid)
  have vy3 : Valid m3 y' := e3.valid cy.valid
  obtain ⟨m4, h1, h2⟩ := sgemm_upto (trans1 := trans1) (trans2 := trans2) cx.contiguous cy.contiguous co vx3 vy3 vo ax ay (by omega) (by omega)
    (by omega)
  refine ⟨m4, h1, ⟨ro, ho, fun i j => ?_⟩, upto_only co h2, fun b hb => upto_other h2 hb, h2.1, ?_⟩
  · rw [upto_entry co h2 (by have := i.2; omega) (by have := j.2; omega), x4, x1]
    refine sum_product (F := opEntry m3 x' trans1) (G := opEntry m3 y' trans2) (fun i k => ?_) (fun k j => ?_) i j
    · rw [extends_op (cy.ext.trans e3) cx.valid, x5 _ (by have := i.2; omega) _ (by have := k.2; omega), x2]
    · rw [extends_op e3 cy.valid, y5 _ (by have := k.2; omega) _ (by have := j.2; omega), extends_op cx.ext vy, y2]
  · exact ⟨by rw [h2.1]; exact vo.1, fun i hi j hj => by rw [(h2.2 _).1]; exact vo.2 i hi j hj⟩

variable {promote : DType → DType → DType}

/-- NumPy's own multiplication, into a new array. -/
theorem dot_new {m : Memory α} {x y : View} {trans1 trans2 : Bool} {r n c : ℕ} {f : Fin r → Fin n → α} {g : Fin n → Fin c → α}
    (hx : HoldsOp m x trans1 f) (hy : HoldsOp m y trans2 g) :
    ∃ v m', opsGemm promote x y none trans1 trans2 m = .ok (v, m') ∧ Holds m' v (product f g) ∧ Valid m' v ∧ m.next ≤ v.base ∧ AllKept m m' := by
  obtain ⟨x0, x1, x2⟩ := holdsOp_op hx
  obtain ⟨y0, y1, y2⟩ := holdsOp_op hy
  have hK : (x.op trans1).cols = (y.op trans2).rows := by rw [op_cols, op_rows]; omega
  refine ⟨_, _, by simp only [opsGemm, dot, hK, ne_eq, not_true, if_false]; rfl, ⟨?_, ?_, fun i j => ?_⟩, Memory.new_valid _ _ _ _ _, le_refl _,
    (Memory.new_extends _ _ _ _ _).2⟩
  · exact (op_rows x trans1).trans x0
  · exact (op_cols y trans2).trans y1
  · have hi : (i : ℕ) < (x.op trans1).rows := by rw [op_rows]; have := i.2; omega
    have hj : (j : ℕ) < (y.op trans2).cols := by rw [op_cols]; have := j.2; omega
    have hc : 0 < (y.op trans2).cols := by omega
    have e1 : ((i : ℕ) * (y.op trans2).cols + j) / (y.op trans2).cols = i := by
      rw [Nat.add_comm, Nat.add_mul_div_right _ _ hc, Nat.div_eq_of_lt hj, Nat.zero_add]
    have e2 : ((i : ℕ) * (y.op trans2).cols + j) % (y.op trans2).cols = j := by
      rw [Nat.add_comm, Nat.add_mul_mod_self_right, Nat.mod_eq_of_lt hj]
    rw [Memory.new_entry _ _ _ _ _ hi hj, e1, e2, dotEntry, op_cols, x1]
    exact sum_product (F := opEntry m x trans1) (G := opEntry m y trans2) x2 y2 i j

/-- **C132.**  On the CPU, with and without BLIS, for arrays of any shape and layout (also empty, transposed, parts of other arrays, or sharing
memory): `ops.gemm(x, y, trans1, trans2)` is a new array, the product of the two matrices (or their transposes), and no other array changes. -/
theorem C132_new (useBlis : Bool) (junk : ℕ → α) {m : Memory α} {x y : View} {trans1 trans2 : Bool} {r n c : ℕ} {f : Fin r → Fin n → α}
    {g : Fin n → Fin c → α} (vx : Valid m x) (vy : Valid m y) (hx : HoldsOp m x trans1 f) (hy : HoldsOp m y trans2 g)
    (hd : (x.dtype = .float32 ∧ y.dtype = .float32) ∨ (x.dtype = .float64 ∧ y.dtype = .float64)) :
    ∃ v m', numpyGemm promote useBlis junk x y none trans1 trans2 m = .ok (v, m') ∧ Holds m' v (product f g) ∧ Valid m' v ∧ m.next ≤ v.base ∧
      AllKept m m' := by
  unfold numpyGemm
  cases useBlis
  · exact dot_new hx hy
  simp only [Bool.true_eq_false, if_false]
  have cx := asContig_spec vx
  generalize asContig m x = p at cx ⊢
  obtain ⟨x', m1⟩ := p
  have cy := asContig_spec (cx.ext.valid vy)
  simp only at cx cy ⊢
  generalize asContig m1 y = q at cy ⊢
  obtain ⟨y', m2⟩ := q
  simp only at cy ⊢
  obtain ⟨x0, x1, -⟩ := holdsOp_op hx
  obtain ⟨y0, y1, -⟩ := holdsOp_op hy
  obtain ⟨x3, x4, -⟩ := contig_op cx trans1
  obtain ⟨y3, y4, -⟩ := contig_op cy trans2
  rw [if_neg (by omega)]
  have hnew := Memory.new_extends m2 (x'.size0 trans1) (y'.size1 trans2) x'.dtype junk
  have hcon := Memory.new_contiguous m2 (x'.size0 trans1) (y'.size1 trans2) x'.dtype junk
  have hval := Memory.new_valid m2 (x'.size0 trans1) (y'.size1 trans2) x'.dtype junk
  have hb : (m2.new (x'.size0 trans1) (y'.size1 trans2) x'.dtype junk).1.base = m2.next := rfl
  have hdt : (m2.new (x'.size0 trans1) (y'.size1 trans2) x'.dtype junk).1.dtype = x'.dtype := rfl
  have hr : (m2.new (x'.size0 trans1) (y'.size1 trans2) x'.dtype junk).1.rows = x'.size0 trans1 := rfl
  have hc : (m2.new (x'.size0 trans1) (y'.size1 trans2) x'.dtype junk).1.cols = y'.size1 trans2 := rfl
  unfold numpyOut
  generalize m2.new (x'.size0 trans1) (y'.size1 trans2) x'.dtype junk = s at hnew hcon hval hb hdt hr hc ⊢
  obtain ⟨o, m3⟩ := s
  simp only at hnew hcon hval hb hdt hr hc ⊢
  obtain ⟨m4, h1, h2, h3, h4, h5, h6⟩ := blas_core vx vy hx hy cx cy hnew hcon hval (by omega) (by omega)
    (apart_of_base (by have := cx.valid.1; have := cy.ext.1; omega)) (apart_of_base (by have := cy.valid.1; omega))
  rw [if_pos (by rw [hdt, cx.dtype, cy.dtype]; rcases hd with ⟨a, b⟩ | ⟨a, b⟩ <;> simp [a, b])]
  have n1 := cx.ext.1
  have n2 := cy.ext.1
  refine ⟨_, m4, by rw [h1]; rfl, h2, h6, by omega, fun b hb => ?_⟩
  rw [h4 b (by omega), hnew.2 b (by omega), cy.ext.2 b (by omega), cx.ext.2 b hb]

/-- With an array for the result that has the shape and dtype of the product, is contiguous and has no memory in common with the arguments:
the product is in that array, and nothing else changes.
Missing: arrays `out` that are not contiguous (`C132_out_copied_wrong`) or have another shape (`C132_out_shape_wrong`). -/
theorem C132_out_partial (useBlis : Bool) (junk : ℕ → α) {m : Memory α} {x y o : View} {trans1 trans2 : Bool} {r n c : ℕ} {f : Fin r → Fin n → α}
    {g : Fin n → Fin c → α} (vx : Valid m x) (vy : Valid m y) (vo : Valid m o) (hx : HoldsOp m x trans1 f) (hy : HoldsOp m y trans2 g)
    (hd : (x.dtype = .float32 ∧ y.dtype = .float32 ∧ o.dtype = .float32) ∨ (x.dtype = .float64 ∧ y.dtype = .float64 ∧ o.dtype = .float64))
    (hp : ∀ d, promote d d = d) (co : o.contiguous) (ro : o.rows = r) (ho : o.cols = c) (ax : Apart o x) (ay : Apart o y) :
    ∃ m', numpyGemm promote useBlis junk x y (some o) trans1 trans2 m = .ok (o, m') ∧ Holds m' o (product f g) ∧ OnlyChanges o m m' := by
  obtain ⟨x0, x1, x2⟩ := holdsOp_op hx
  obtain ⟨y0, y1, y2⟩ := holdsOp_op hy
  unfold numpyGemm
  cases useBlis
  · have hK : (x.op trans1).cols = (y.op trans2).rows := by rw [op_cols, op_rows]; omega
    have hdt : ∀ (v : View) t, (v.op t).dtype = v.dtype := fun v t => by cases t <;> rfl
    have hu : Upto o (dotEntry m (x.op trans1) (y.op trans2)) m (o.rows * o.cols) (m.fill o (dotEntry m (x.op trans1) (y.op trans2))) := by
      refine ⟨rfl, fun b => ?_⟩
      by_cases hb : b = o.base
      · subst hb
        simp only [Memory.fill, if_true, true_and]
        intro k
        trivial
      · simp [Memory.fill, hb]
    refine ⟨_, ?_, ⟨ro, ho, fun i j => ?_⟩, upto_only co hu⟩
    · simp only [opsGemm, dot, hK, ne_eq, not_true, if_false, Bool.true_eq_false, if_true]
      rw [if_pos ⟨co, by rw [op_rows, x0, ro], by rw [op_cols, y1, ho], by
        rw [hdt, hdt]; rcases hd with ⟨a, b, d⟩ | ⟨a, b, d⟩ <;> rw [a, b, d, hp]⟩]
    · rw [upto_entry co hu (by have := i.2; omega) (by have := j.2; omega), dotEntry, op_cols, x1]
      exact sum_product (F := opEntry m x trans1) (G := opEntry m y trans2) x2 y2 i j
  simp only [Bool.true_eq_false, if_false]
  have cx := asContig_spec vx
  generalize asContig m x = p at cx ⊢
  obtain ⟨x', m1⟩ := p
  have cy := asContig_spec (cx.ext.valid vy)
  simp only at cx cy ⊢
  generalize asContig m1 y = q at cy ⊢
  obtain ⟨y', m2⟩ := q
  simp only at cy ⊢
  obtain ⟨x3, x4, -⟩ := contig_op cx trans1
  obtain ⟨y3, y4, -⟩ := contig_op cy trans2
  rw [if_neg (by omega)]
  simp only [numpyOut, asContig_contiguous _ co]
  have hext : Extends m m2 := cx.ext.trans cy.ext
  have hlt := vo.1
  obtain ⟨m4, h1, h2, h3, h4, h5, h6⟩ := blas_core vx vy hx hy cx cy (Extends.refl m2) co (hext.valid vo) ro ho
    (by rcases cx.same with h | h
        · rw [h]; exact ax
        · exact apart_of_base (by omega))
    (by rcases cy.same with h | h
        · rw [h]; exact ay
        · exact apart_of_base (by have := cx.ext.1; omega))
  rw [if_pos (by rw [cx.dtype, cy.dtype]; exact hd)]
  refine ⟨m4, by rw [h1]; rfl, h2, fun b hb => ?_⟩
  obtain ⟨k1, k2⟩ := h3 b (lt_of_lt_of_le hb hext.1)
  rw [hext.2 b hb] at k1 k2
  exact ⟨k1, k2⟩

/-- **C132** (found by the model).  With BLIS, an array `out` that is not contiguous (a transposed one, or some columns of another array) is not
written to: the product is in a new array, and `out` keeps its old entries. -/
theorem C132_out_copied_wrong (junk : ℕ → α) {m : Memory α} {x y o : View} {trans1 trans2 : Bool} {r n c : ℕ} {f : Fin r → Fin n → α}
    {g : Fin n → Fin c → α} (vx : Valid m x) (vy : Valid m y) (vo : Valid m o) (hx : HoldsOp m x trans1 f) (hy : HoldsOp m y trans2 g)
    (hd : (x.dtype = .float32 ∧ y.dtype = .float32 ∧ o.dtype = .float32) ∨ (x.dtype = .float64 ∧ y.dtype = .float64 ∧ o.dtype = .float64))
    (co : ¬ o.contiguous) (ro : o.rows = r) (ho : o.cols = c) :
    ∃ v m', numpyGemm promote true junk x y (some o) trans1 trans2 m = .ok (v, m') ∧ Holds m' v (product f g) ∧ m.next ≤ v.base ∧ AllKept m m' := by
  obtain ⟨x0, x1, x2⟩ := holdsOp_op hx
  obtain ⟨y0, y1, y2⟩ := holdsOp_op hy
  unfold numpyGemm
  simp only [Bool.true_eq_false, if_false]
  have cx := asContig_spec vx
  generalize asContig m x = p at cx ⊢
  obtain ⟨x', m1⟩ := p
  have cy := asContig_spec (cx.ext.valid vy)
  simp only at cx cy ⊢
  generalize asContig m1 y = q at cy ⊢
  obtain ⟨y', m2⟩ := q
  simp only at cy ⊢
  obtain ⟨x3, x4, -⟩ := contig_op cx trans1
  obtain ⟨y3, y4, -⟩ := contig_op cy trans2
  rw [if_neg (by omega)]
  have hext : Extends m m2 := cx.ext.trans cy.ext
  have cc := asContig_spec (hext.valid vo)
  have hbase : (asContig m2 o).1.base = m2.next := by rw [asContig, if_neg co]; rfl
  rw [show numpyOut junk (x'.size0 trans1) (y'.size1 trans2) x'.dtype m2 (some o) = asContig m2 o from rfl]
  generalize asContig m2 o = s at cc hbase ⊢
  obtain ⟨o', m3⟩ := s
  simp only at cc hbase ⊢
  obtain ⟨m4, h1, h2, h3, h4, h5, h6⟩ := blas_core vx vy hx hy cx cy cc.ext cc.contiguous cc.valid (cc.rows.trans ro) (cc.cols.trans ho)
    (apart_of_base (by have := cx.valid.1; have := cy.ext.1; omega)) (apart_of_base (by have := cy.valid.1; omega))
  rw [if_pos (by rw [cx.dtype, cy.dtype, cc.dtype]; exact hd)]
  refine ⟨_, m4, by rw [h1]; rfl, h2, by have := hext.1; omega, fun b hb => ?_⟩
  have := hext.1
  rw [h4 b (by omega), cc.ext.2 b (by omega), hext.2 b hb]

theorem asContig_sizes (m : Memory α) (v : View) (trans : Bool) :
    (asContig m v).1.size0 trans = v.size0 trans ∧ (asContig m v).1.size1 trans = v.size1 trans := by
  unfold asContig
  split
  · exact ⟨rfl, rfl⟩
  · cases trans <;> exact ⟨rfl, rfl⟩

/-- All backends raise ValueError if the matrices do not fit together, whatever `out` is. -/
theorem C132_mismatch (useBlis : Bool) (junk : ℕ → α) (m : Memory α) (x y : View) (out : Option View) (trans1 trans2 : Bool)
    (h : x.size1 trans1 ≠ y.size0 trans2) :
    numpyGemm promote useBlis junk x y out trans1 trans2 m = .error .valueError ∧ opsGemm promote x y out trans1 trans2 m = .error .valueError ∧
      appleGemm junk x y out trans1 trans2 m = .error .valueError := by
  have ho : opsGemm promote x y out trans1 trans2 m = .error .valueError := by
    unfold opsGemm dot
    rw [if_pos (by rw [op_cols, op_rows]; exact h)]
  refine ⟨?_, ho, ?_⟩
  · unfold numpyGemm
    cases useBlis
    · exact ho
    simp only [Bool.true_eq_false, if_false]
    have e1 := (asContig_sizes m x trans1).2
    generalize asContig m x = p at e1 ⊢
    obtain ⟨x', m1⟩ := p
    have e2 := (asContig_sizes m1 y trans2).1
    simp only at e1 e2 ⊢
    generalize asContig m1 y = q at e2 ⊢
    obtain ⟨y', m2⟩ := q
    simp only at e2 ⊢
    rw [if_pos (by rw [e1, e2]; exact h)]
  · unfold appleGemm
    split
    · rfl
    · simp only
      cases hout : appleOut junk (x.size0 trans1) (y.size1 trans2) m out with
      | error e =>
        cases out with
        | none => cases hout
        | some o =>
          simp only [appleOut] at hout
          split at hout <;> cases hout
          rfl
      | ok v =>
        obtain ⟨o, m'⟩ := v
        simp only
        rw [if_pos h]

/-- On macOS with `AppleOps`: arrays of float32 that are contiguous, with at least one number in every sum.
Missing: sums of no numbers (`C132_apple_empty_wrong`), and arrays that are not contiguous, for which it raises (`C132_apple_layout`). -/
theorem C132_apple_partial (junk : ℕ → α) {m : Memory α} {x y : View} {trans1 trans2 : Bool} {r n c : ℕ} {f : Fin r → Fin n → α}
    {g : Fin n → Fin c → α} (vx : Valid m x) (vy : Valid m y) (hx : HoldsOp m x trans1 f) (hy : HoldsOp m y trans2 g) (ix : x.isMemoryview)
    (iy : y.isMemoryview) (hn : 0 < n) :
    (∃ v m', appleGemm junk x y none trans1 trans2 m = .ok (v, m') ∧ Holds m' v (product f g) ∧ m.next ≤ v.base ∧ AllKept m m') ∧
    ∀ o, Valid m o → o.isMemoryview → o.rows = r → o.cols = c → Apart o x → Apart o y →
      ∃ m', appleGemm junk x y (some o) trans1 trans2 m = .ok (o, m') ∧ Holds m' o (product f g) ∧ OnlyChanges o m m' := by
  obtain ⟨x0, x1, -⟩ := holdsOp_op hx
  obtain ⟨y0, y1, -⟩ := holdsOp_op hy
  have cx : Contig m x m x := ⟨ix.1, vx, rfl, rfl, rfl, fun _ _ _ _ => rfl, Extends.refl m, .inl rfl⟩
  have cy : Contig m y m y := ⟨iy.1, vy, rfl, rfl, rfl, fun _ _ _ _ => rfl, Extends.refl m, .inl rfl⟩
  constructor
  · unfold appleGemm
    rw [if_neg (not_not.2 ⟨ix, iy⟩)]
    have hnew := Memory.new_extends m (x.size0 trans1) (y.size1 trans2) .float32 junk
    obtain ⟨m4, h1, h2, h3, h4, h5, h6⟩ := blas_core vx vy hx hy cx cy hnew (Memory.new_contiguous _ _ _ _ _) (Memory.new_valid _ _ _ _ _)
      (by exact x0) (by exact y1) (apart_of_base (by have := vx.1; show m.next ≠ _; omega)) (apart_of_base (by have := vy.1; show m.next ≠ _; omega))
    simp only [appleOut]
    rw [if_neg (by omega)]
    by_cases h0 : x.size0 trans1 = 0 ∨ x.size1 trans1 = 0 ∨ y.size1 trans2 = 0
    · rw [if_pos h0]
      refine ⟨_, _, rfl, ⟨by exact x0, by exact y1, fun i j => ?_⟩, le_refl _, hnew.2⟩
      have := i.2
      have := j.2
      omega
    · rw [if_neg h0]
      refine ⟨_, m4, by rw [h1]; rfl, h2, le_refl _, fun b hb => ?_⟩
      rw [h4 b (by show b ≠ m.next; omega), hnew.2 b hb]
  · intro o vo io ro ho ax ay
    obtain ⟨m4, h1, h2, h3, h4, h5, h6⟩ := blas_core vx vy hx hy cx cy (Extends.refl m) io.1 vo ro ho ax ay
    unfold appleGemm
    rw [if_neg (not_not.2 ⟨ix, iy⟩)]
    simp only [appleOut]
    rw [if_pos ⟨io, by omega, by omega⟩]
    simp only
    rw [if_neg (by omega)]
    by_cases h0 : x.size0 trans1 = 0 ∨ x.size1 trans1 = 0 ∨ y.size1 trans2 = 0
    · rw [if_pos h0]
      refine ⟨m, rfl, ⟨ro, ho, fun i j => ?_⟩, fun b _ => ⟨rfl, fun _ _ => rfl⟩⟩
      have := i.2
      have := j.2
      omega
    · rw [if_neg h0]
      exact ⟨m4, by rw [h1]; rfl, h2, h3⟩

/-- **C132** (found by the model).  With `AppleOps`, the product of matrices without inner dimension, which is zero, is an array that has not been
initialized; an array `out` keeps its old entries. -/
theorem C132_apple_empty_wrong (junk : ℕ → α) {m : Memory α} {x y : View} {trans1 trans2 : Bool} (ix : x.isMemoryview) (iy : y.isMemoryview)
    (hx : x.size1 trans1 = 0) (hy : y.size0 trans2 = 0) :
    (∃ v m', appleGemm junk x y none trans1 trans2 m = .ok (v, m') ∧ v.rows = x.size0 trans1 ∧ v.cols = y.size1 trans2 ∧
      ∀ i < v.rows, ∀ j < v.cols, v.entry m' i j = junk (i * v.cols + j)) ∧
    ∀ o : View, o.isMemoryview → o.rows = x.size0 trans1 → o.cols = y.size1 trans2 →
      appleGemm junk x y (some o) trans1 trans2 m = .ok (o, m) := by
  constructor
  · unfold appleGemm
    rw [if_neg (not_not.2 ⟨ix, iy⟩)]
    simp only [appleOut]
    rw [if_neg (by omega), if_pos (.inr (.inl hx))]
    exact ⟨_, _, rfl, rfl, rfl, fun i hi j hj => Memory.new_entry _ _ _ _ _ hi hj⟩
  · intro o io h1 h2
    unfold appleGemm
    rw [if_neg (not_not.2 ⟨ix, iy⟩)]
    simp only [appleOut]
    rw [if_pos ⟨io, h1, h2⟩]
    simp only
    rw [if_neg (by omega), if_pos (.inr (.inl hx))]

/-- `AppleOps` raises ValueError for arguments that are not contiguous arrays of float32, such as `X.T`. -/
theorem C132_apple_layout (junk : ℕ → α) (m : Memory α) (x y : View) (out : Option View) (trans1 trans2 : Bool)
    (h : ¬ x.isMemoryview ∨ ¬ y.isMemoryview) : appleGemm junk x y out trans1 trans2 m = .error .valueError := by
  unfold appleGemm
  rw [if_pos (by tauto)]

/-- `AppleOps` and the base class raise ValueError for an array `out` with another shape than the product. -/
theorem C132_out_shape (junk : ℕ → α) (m : Memory α) (x y o : View) (trans1 trans2 : Bool)
    (h : o.rows ≠ x.size0 trans1 ∨ o.cols ≠ y.size1 trans2) :
    appleGemm junk x y (some o) trans1 trans2 m = .error .valueError ∧ opsGemm promote x y (some o) trans1 trans2 m = .error .valueError := by
  constructor
  · unfold appleGemm
    split
    · rfl
    · simp only [appleOut]
      rw [if_neg (by rintro ⟨-, h1, h2⟩; exact h.elim (· h1) (· h2))]
  · unfold opsGemm dot
    split
    · rfl
    · simp only
      rw [if_neg (by rw [op_rows, op_cols]; rintro ⟨-, h1, h2, -⟩; exact h.elim (· h1) (· h2))]

/-- The base class, and CuPy on the GPU, also multiply into an array that shares memory with the arguments, and raise ValueError exactly for
arrays `out` that are not contiguous or have another shape or dtype. -/
theorem C132_ops {m : Memory α} {x y o : View} {trans1 trans2 : Bool} {r n c : ℕ} {f : Fin r → Fin n → α} {g : Fin n → Fin c → α}
    (hx : HoldsOp m x trans1 f) (hy : HoldsOp m y trans2 g) :
    (o.contiguous ∧ o.rows = r ∧ o.cols = c ∧ o.dtype = promote x.dtype y.dtype →
      ∃ m', opsGemm promote x y (some o) trans1 trans2 m = .ok (o, m') ∧ Holds m' o (product f g) ∧ OnlyChanges o m m') ∧
    (¬ (o.contiguous ∧ o.rows = r ∧ o.cols = c ∧ o.dtype = promote x.dtype y.dtype) →
      opsGemm promote x y (some o) trans1 trans2 m = .error .valueError) := by
  obtain ⟨x0, x1, x2⟩ := holdsOp_op hx
  obtain ⟨y0, y1, y2⟩ := holdsOp_op hy
  have hK : (x.op trans1).cols = (y.op trans2).rows := by rw [op_cols, op_rows]; omega
  have hdt : ∀ (v : View) t, (v.op t).dtype = v.dtype := fun v t => by cases t <;> rfl
  have hr : (x.op trans1).rows = r := by rw [op_rows, x0]
  have hc : (y.op trans2).cols = c := by rw [op_cols, y1]
  unfold opsGemm dot
  simp only [hK, ne_eq, not_true, if_false, hdt, hr, hc]
  refine ⟨fun h => ?_, fun h => by rw [if_neg h]⟩
  obtain ⟨co, ro, ho, -⟩ := id h
  have hu : Upto o (dotEntry m (x.op trans1) (y.op trans2)) m (o.rows * o.cols) (m.fill o (dotEntry m (x.op trans1) (y.op trans2))) := by
    refine ⟨rfl, fun b => ?_⟩
    by_cases hb : b = o.base
    · subst hb
      simp only [Memory.fill, if_true, true_and]
      intro k
      trivial
    · simp [Memory.fill, hb]
  refine ⟨_, by rw [if_pos h], ⟨ro, ho, fun i j => ?_⟩, upto_only co hu⟩
  rw [upto_entry co hu (by have := i.2; omega) (by have := j.2; omega), dotEntry, op_cols, x1]
  exact sum_product (F := opEntry m x trans1) (G := opEntry m y trans2) x2 y2 i j

/-- The matrix that the theory of layers has for an array. -/
def ArrayIs (m : Memory ℝ) (v : View) (A : Mat ℝ) : Prop := v.rows = A.rows ∧ v.cols = A.cols ∧ ∀ i < A.rows, ∀ j < A.cols, v.entry m i j = A.at i j

/-- The multiplication that the theory of layers computes with is what the backends do: same result, same errors. -/
theorem C132_layers (useBlis : Bool) (junk : ℕ → ℝ) {m : Memory ℝ} {x y : View} {X Y : Mat ℝ} (trans1 trans2 : Bool) (vx : Valid m x) (vy : Valid m y)
    (hx : ArrayIs m x X) (hy : ArrayIs m y Y) (hd : (x.dtype = .float32 ∧ y.dtype = .float32) ∨ (x.dtype = .float64 ∧ y.dtype = .float64)) :
    (∀ Z, gemm X Y trans1 trans2 = .ok Z →
      ∃ v m', numpyGemm promote useBlis junk x y none trans1 trans2 m = .ok (v, m') ∧ ArrayIs m' v Z ∧ m.next ≤ v.base ∧ AllKept m m') ∧
    ∀ e, gemm X Y trans1 trans2 = .error e → numpyGemm promote useBlis junk x y none trans1 trans2 m = .error e := by
  obtain ⟨xr, xc, xe⟩ := hx
  obtain ⟨yr, yc, ye⟩ := hy
  unfold gemm npDot
  have key : ∀ (A : Mat ℝ) (v : View) (t : Bool), v.rows = A.rows → v.cols = A.cols → (∀ i < A.rows, ∀ j < A.cols, v.entry m i j = A.at i j) →
      v.size0 t = (if t then A.transpose else A).rows ∧ v.size1 t = (if t then A.transpose else A).cols ∧
      HoldsOp m v t (fun (i : Fin (if t then A.transpose else A).rows) (j : Fin (if t then A.transpose else A).cols) =>
        (if t then A.transpose else A).at i j) := by
    intro A v t h1 h2 h3
    cases t
    · exact ⟨h1, h2, h1, h2, fun i j => h3 i i.2 j j.2⟩
    · refine ⟨h2, h1, h1, h2, fun i j => ?_⟩
      rw [h3 i i.2 j j.2]
      exact (ofFn_at A.cols A.rows (fun i j => A.at j i) j i i.2).symm
  obtain ⟨x0, x1, hX⟩ := key X x trans1 xr xc xe
  obtain ⟨y0, y1, hY⟩ := key Y y trans2 yr yc ye
  generalize (if trans1 = true then X.transpose else X) = A at *
  generalize (if trans2 = true then Y.transpose else Y) = B at *
  split
  · rename_i h
    refine ⟨fun Z hZ => ?_, fun e he => nomatch he⟩
    cases hZ
    obtain ⟨Ar, Ac, Av⟩ := A
    obtain ⟨Br, Bc, Bv⟩ := B
    simp only at h
    subst h
    obtain ⟨v, m', h1, h2, h3, h4, h5⟩ := C132_new (promote := promote) useBlis junk vx vy hX hY hd
    refine ⟨v, m', h1, ⟨h2.1, h2.2.1, fun i hi j hj => ?_⟩, h4, h5⟩
    rw [h2.2.2 ⟨i, hi⟩ ⟨j, hj⟩, ofFn_at _ Bc _ _ _ hj, Finset.sum_range]
    rfl
  · rename_i h
    refine ⟨fun Z hZ => (nomatch hZ), fun e he => ?_⟩
    cases he
    exact (C132_mismatch useBlis junk m x y none trans1 trans2 (by omega)).1

/-! ### Witnesses -/

/-- Two buffers: `0 1 2 3 …` and `10 11 12 …`. -/
def gemmDemo : Memory ℤ := ⟨2, fun b => ⟨6, fun k => 10 * b + k⟩⟩

/-- A 2×3 array, the first two columns of it, transposed, and a 1×2 array. -/
def gemmX : View := ⟨0, 0, 2, 3, 3, 1, .float32⟩
def gemmCols : View := ⟨0, 0, 2, 2, 3, 1, .float32⟩
def gemmOut : View := ⟨1, 0, 2, 2, 2, 1, .float32⟩
def gemmRow : View := ⟨1, 0, 1, 2, 2, 1, .float32⟩
def gemmRow2 : View := ⟨1, 2, 1, 2, 2, 1, .float32⟩

theorem gemmValid {v : View} (h : v = gemmX ∨ v = gemmCols ∨ v = gemmOut ∨ v = gemmOut.transpose ∨ v = gemmRow ∨ v = gemmRow2) : Valid gemmDemo v := by
  rcases h with rfl | rfl | rfl | rfl | rfl | rfl <;> exact ⟨by decide, by decide⟩

/-- `X @ X.T` with X = [[0, 1, 2], [3, 4, 5]]. -/
theorem gemm_x : HoldsOp gemmDemo gemmX false (fun (i : Fin 2) (j : Fin 3) => (3 * i.1 + j.1 : ℤ)) := by
  refine ⟨rfl, rfl, ?_⟩
  intro i j
  fin_cases i <;> fin_cases j <;> rfl

theorem gemm_xt : HoldsOp gemmDemo gemmX true (fun (i : Fin 3) (j : Fin 2) => (3 * j.1 + i.1 : ℤ)) := by
  refine ⟨rfl, rfl, ?_⟩
  intro i j
  fin_cases i <;> fin_cases j <;> rfl

theorem gemm_cols : HoldsOp gemmDemo gemmCols false (fun (i : Fin 2) (j : Fin 2) => (3 * i.1 + j.1 : ℤ)) := by
  refine ⟨rfl, rfl, ?_⟩
  intro i j
  fin_cases i <;> fin_cases j <;> rfl

example : product (fun (i : Fin 2) (j : Fin 3) => (3 * i.1 + j.1 : ℤ)) (fun (i : Fin 3) (j : Fin 2) => (3 * j.1 + i.1 : ℤ)) 1 0 = 14 := by decide
example := fun b junk => C132_new (promote := fun d _ => d) b junk (gemmValid (.inl rfl)) (gemmValid (.inl rfl)) gemm_x gemm_xt (.inl ⟨rfl, rfl⟩)
example := fun b junk => C132_new (promote := fun d _ => d) b junk (gemmValid (.inr (.inl rfl))) (gemmValid (.inl rfl)) gemm_cols gemm_x
  (.inl ⟨rfl, rfl⟩)
example : ¬ gemmCols.contiguous := by decide
example := fun b junk => C132_out_partial (promote := fun d _ => d) b junk (gemmValid (.inl rfl)) (gemmValid (.inl rfl))
  (gemmValid (.inr (.inr (.inl rfl)))) gemm_x gemm_xt (.inl ⟨rfl, rfl, rfl⟩) (fun _ => rfl) (by decide) rfl rfl (fun h => absurd h (by decide))
  (fun h => absurd h (by decide))
example := fun junk => C132_out_copied_wrong (promote := fun d _ => d) junk (gemmValid (.inl rfl)) (gemmValid (.inl rfl))
  (gemmValid (.inr (.inr (.inr (.inl rfl))))) gemm_x gemm_xt (.inl ⟨rfl, rfl, rfl⟩) (by decide) rfl rfl
example := fun b junk o => C132_mismatch (promote := fun d _ => d) (α := ℤ) b junk gemmDemo gemmX gemmX o false false (by decide)
example := fun junk => C132_apple_partial junk (gemmValid (.inl rfl)) (gemmValid (.inl rfl)) gemm_x gemm_xt (by decide) (by decide) (by decide)
example := fun junk => C132_apple_empty_wrong (α := ℤ) junk (m := gemmDemo) (x := ⟨0, 0, 2, 0, 0, 1, .float32⟩) (y := ⟨0, 0, 0, 2, 2, 1, .float32⟩)
  (trans1 := false) (trans2 := false) (by decide) (by decide) rfl rfl
example := fun junk o => C132_apple_layout (α := ℤ) junk gemmDemo gemmCols gemmX o false false (.inl (by decide))
example := fun junk => C132_out_shape (α := ℤ) (promote := fun d _ => d) junk gemmDemo gemmX gemmX gemmRow false true (.inl (by decide))
/-- Also into the array it reads: the first 2×2 numbers of `X`. -/
example := (C132_ops (promote := fun d _ => d) (o := ⟨0, 0, 2, 2, 2, 1, .float32⟩) gemm_x gemm_xt).1 (by decide)
example := (C132_ops (promote := fun d _ => d) (o := gemmOut) gemm_cols gemm_x).2 (by decide)
example : ∃ Z, gemm ⟨1, 1, fun _ => 2⟩ ⟨1, 1, fun _ => 3⟩ false true = .ok Z ∧ ArrayIs ⟨1, fun _ => ⟨1, fun _ => 2⟩⟩ ⟨0, 0, 1, 1, 1, 1, .float32⟩ ⟨1, 1, fun _ => 2⟩ :=
  ⟨_, rfl, rfl, rfl, fun _ _ _ _ => rfl⟩

/-- **C132** (found by the model).  With BLIS the shape of `out` is not checked: if `out` is too small, the multiplication writes into the
arrays after it, or outside of any array.  Here `out` is the first row of an array, and the second row changes. -/
theorem C132_out_shape_wrong :
    Apart gemmRow gemmRow2 ∧
    (∃ m', numpyGemm (fun d _ => d) true (fun _ => 0) gemmX gemmX (some gemmRow) false true gemmDemo = .ok (gemmRow, m') ∧
      gemmRow2.entry gemmDemo 0 0 = 12 ∧ gemmRow2.entry m' 0 0 = 14) ∧
    numpyGemm (fun d _ => d) true (fun _ => 0) gemmX gemmX (some ⟨1, 4, 1, 2, 2, 1, .float32⟩) false true gemmDemo = .error .outOfBounds := by
  refine ⟨fun _ => by decide, ⟨_, rfl, rfl, rfl⟩, rfl⟩

end Thinc
