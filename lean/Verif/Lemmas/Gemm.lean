import Verif.Spec.Gemm
import Verif.Lemmas.Maxout
import Mathlib.Tactic.Ring
import Mathlib.Tactic.Linarith
/-!
# Lemmas about matrix multiplication
-/
namespace Thinc.Blas
open BigOperators Spec.Gemm
variable {α : Type}

theorem contiguous_pos {v : View} (h : v.contiguous) {i j : ℕ} (hi : i < v.rows) (hj : j < v.cols) :
    v.pos i j = ((v.off + (i * v.cols + j) : ℕ) : ℤ) := by
  rcases h with h | h | ⟨h1, h2⟩
  · omega
  · omega
  · have e1 : (j : ℤ) * v.cstep = j := by
      rcases h1 with h1 | h1
      · obtain rfl : j = 0 := by omega
        simp
      · simp [h1]
    have e2 : (i : ℤ) * v.rstep = i * v.cols := by
      rcases h2 with h2 | h2
      · obtain rfl : i = 0 := by omega
        simp
      · simp [h2]
    simp only [View.pos, e1, e2]
    push_cast
    ring

theorem cell_lt {r c i j : ℕ} (hi : i < r) (hj : j < c) : i * c + j < r * c := by
  have : (i + 1) * c ≤ r * c := Nat.mul_le_mul_right _ hi
  have : (i + 1) * c = i * c + c := by ring
  omega

theorem contiguous_fits {m : Memory α} {v : View} (h : v.contiguous) (hv : Valid m v) {i j : ℕ} (hi : i < v.rows) (hj : j < v.cols) :
    v.off + (i * v.cols + j) < (m.buf v.base).size := by
  have := (hv.2 i hi j hj).2
  rw [contiguous_pos h hi hj] at this
  exact_mod_cast this

theorem contiguous_entry {m : Memory α} {v : View} (h : v.contiguous) {i j : ℕ} (hi : i < v.rows) (hj : j < v.cols) :
    v.entry m i j = (m.buf v.base).val (v.off + (i * v.cols + j)) := by
  rw [View.entry, contiguous_pos h hi hj, Int.toNat_natCast]

theorem Memory.new_contiguous (m : Memory α) (r c : ℕ) (d : DType) (val : ℕ → α) : (m.new r c d val).1.contiguous :=
  .inr (.inr ⟨.inr rfl, .inr rfl⟩)

theorem Memory.new_valid (m : Memory α) (r c : ℕ) (d : DType) (val : ℕ → α) : Valid (m.new r c d val).2 (m.new r c d val).1 := by
  refine ⟨Nat.lt_succ_self _, fun i hi j hj => ?_⟩
  rw [contiguous_pos (m.new_contiguous r c d val) hi hj]
  simp only [Memory.new, if_true] at hi hj ⊢
  have := cell_lt hi hj
  omega

theorem Memory.new_entry (m : Memory α) (r c : ℕ) (d : DType) (val : ℕ → α) {i j : ℕ} (hi : i < r) (hj : j < c) :
    (m.new r c d val).1.entry (m.new r c d val).2 i j = val (i * c + j) := by
  rw [contiguous_entry (m.new_contiguous r c d val) hi hj]
  simp [Memory.new]

/-- More buffers may exist. -/
def Extends (m m' : Memory α) : Prop := m.next ≤ m'.next ∧ AllKept m m'

theorem Extends.refl (m : Memory α) : Extends m m := ⟨le_refl _, fun _ _ => rfl⟩

theorem Extends.trans {m m' m'' : Memory α} (h : Extends m m') (h' : Extends m' m'') : Extends m m'' :=
  ⟨h.1.trans h'.1, fun b hb => (h'.2 b (lt_of_lt_of_le hb h.1)).trans (h.2 b hb)⟩

theorem Memory.new_extends (m : Memory α) (r c : ℕ) (d : DType) (val : ℕ → α) : Extends m (m.new r c d val).2 :=
  ⟨Nat.le_succ _, fun b hb => if_neg (by omega)⟩

theorem Extends.valid {m m' : Memory α} (h : Extends m m') {v : View} (hv : Valid m v) : Valid m' v :=
  ⟨lt_of_lt_of_le hv.1 h.1, by rw [h.2 _ hv.1]; exact hv.2⟩

theorem Extends.entry {m m' : Memory α} (h : Extends m m') {v : View} (hv : Valid m v) (i j : ℕ) : v.entry m' i j = v.entry m i j := by
  rw [View.entry, View.entry, h.2 _ hv.1]

/-- What as_contig returns. -/
structure Contig (m : Memory α) (v : View) (m' : Memory α) (v' : View) : Prop where
  contiguous : v'.contiguous
  valid : Valid m' v'
  rows : v'.rows = v.rows
  cols : v'.cols = v.cols
  dtype : v'.dtype = v.dtype
  entry : ∀ i < v.rows, ∀ j < v.cols, v'.entry m' i j = v.entry m i j
  ext : Extends m m'
  same : v' = v ∨ m.next ≤ v'.base

theorem asContig_spec {m : Memory α} {v : View} (hv : Valid m v) : Contig m v (asContig m v).2 (asContig m v).1 := by
  unfold asContig
  by_cases h : v.contiguous
  · rw [if_pos h]
    exact ⟨h, hv, rfl, rfl, rfl, fun _ _ _ _ => rfl, Extends.refl m, .inl rfl⟩
  · rw [if_neg h]
    refine ⟨m.new_contiguous _ _ _ _, m.new_valid _ _ _ _, rfl, rfl, rfl, fun i hi j hj => ?_, m.new_extends _ _ _ _, .inr (le_refl _)⟩
    rw [m.new_entry _ _ _ _ hi hj]
    have hc : 0 < v.cols := by omega
    have e1 : (i * v.cols + j) / v.cols = i := by
      rw [Nat.add_comm, Nat.add_mul_div_right _ _ hc, Nat.div_eq_of_lt hj, Nat.zero_add]
    have e2 : (i * v.cols + j) % v.cols = j := by
      rw [Nat.add_comm, Nat.add_mul_mod_self_right, Nat.mod_eq_of_lt hj]
    rw [e1, e2]

theorem asContig_contiguous (m : Memory α) {v : View} (h : v.contiguous) : asContig m v = (v, m) := if_pos h

/-- The entry of the matrix or of its transpose. -/
def opEntry (m : Memory α) (v : View) (trans : Bool) (i j : ℕ) : α := (v.op trans).entry m i j

theorem op_rows (v : View) (trans : Bool) : (v.op trans).rows = v.size0 trans := by cases trans <;> rfl
theorem op_cols (v : View) (trans : Bool) : (v.op trans).cols = v.size1 trans := by cases trans <;> rfl

theorem op_entry (m : Memory α) (v : View) (trans : Bool) (i j : ℕ) :
    opEntry m v trans i j = if trans then v.entry m j i else v.entry m i j := by
  cases trans
  · rfl
  · simp only [opEntry, View.op, if_true, View.entry, View.transpose, View.pos]
    congr 2
    ring

section
variable [Semiring α]

theorem dot_sum {m m' : Memory α} {trans1 trans2 : Bool} {x y : View} {K i j : ℕ}
    (hx : ∀ k < K, m'.read x.base (x.ptr.index trans1 i k) = .ok (opEntry m x trans1 i k))
    (hy : ∀ k < K, m'.read y.base (y.ptr.index trans2 k j) = .ok (opEntry m y trans2 k j)) :
    forN K (0 : α) (dotStep m' trans1 trans2 x.ptr y.ptr i j) = .ok (∑ k ∈ Finset.range K, opEntry m x trans1 i k * opEntry m y trans2 k j) := by
  have := forN_eq K (dotStep m' trans1 trans2 x.ptr y.ptr i j)
    (fun n => ∑ k ∈ Finset.range n, opEntry m x trans1 i k * opEntry m y trans2 k j) (fun k hk => by
      rw [Finset.sum_range_succ]
      unfold dotStep
      rw [show x.ptr.base = x.base from rfl, show y.ptr.base = y.base from rfl, hx k hk, hy k hk]
      rfl)
  simpa using this

theorem read_op {m m' : Memory α} {x : View} (hc : x.contiguous) (hv : Valid m x) (trans : Bool) {i k : ℕ} (hi : i < x.size0 trans)
    (hk : k < x.size1 trans) (hsize : (m'.buf x.base).size = (m.buf x.base).size)
    (hval : ∀ i < x.rows, ∀ j < x.cols, (m'.buf x.base).val (x.off + (i * x.cols + j)) = (m.buf x.base).val (x.off + (i * x.cols + j))) :
    m'.read x.base (x.ptr.index trans i k) = .ok (opEntry m x trans i k) := by
  rw [op_entry]
  cases trans
  · have hi' : i < x.rows := hi
    have hk' : k < x.cols := hk
    have := contiguous_fits hc hv hi' hk'
    simp only [Ptr.index, View.ptr, Bool.false_eq_true, if_false, Memory.read]
    rw [Buf.read_ok _ _ (by omega), contiguous_entry hc hi' hk', hval i hi' k hk']
  · have hi' : i < x.cols := hi
    have hk' : k < x.rows := hk
    have := contiguous_fits hc hv hk' hi'
    simp only [Ptr.index, View.ptr, if_true, Memory.read]
    rw [Buf.read_ok _ _ (by omega), contiguous_entry hc hk' hi', hval k hk' i hi']

/-- The memory after `n` entries of `o` have been computed. -/
def Upto (o : View) (f : ℕ → ℕ → α) (m : Memory α) (n : ℕ) (m' : Memory α) : Prop :=
  m'.next = m.next ∧ ∀ b, (m'.buf b).size = (m.buf b).size ∧ ∀ k, (m'.buf b).val k =
    if b = o.base ∧ o.off ≤ k ∧ k < o.off + n then f ((k - o.off) / o.cols) ((k - o.off) % o.cols) else (m.buf b).val k

/-- A BLAS multiplication of contiguous arrays into a contiguous array apart from them. -/
theorem sgemm_upto {m : Memory α} {x y o : View} {trans1 trans2 : Bool} (cx : x.contiguous) (cy : y.contiguous) (co : o.contiguous)
    (vx : Valid m x) (vy : Valid m y) (vo : Valid m o) (ax : Apart o x) (ay : Apart o y) (hK : x.size1 trans1 = y.size0 trans2)
    (hM : o.rows = x.size0 trans1) (hN : o.cols = y.size1 trans2) :
    ∃ m', sgemm trans1 trans2 (x.size0 trans1) (y.size1 trans2) (x.size1 trans1) x.ptr y.ptr o.ptr m = .ok m' ∧
      Upto o (fun i j => ∑ k ∈ Finset.range (x.size1 trans1), opEntry m x trans1 i k * opEntry m y trans2 k j) m (o.rows * o.cols) m' := by
  rw [hM, hN]
  refine forN_nested _ _ _ (Upto o _ m) m ?_ fun i hi j hj s hs => ?_
  · exact ⟨rfl, fun b => ⟨rfl, fun k => by rw [if_neg (by omega)]⟩⟩
  · have hi' : i < o.rows := by omega
    have hj' : j < o.cols := by omega
    have hcell := cell_lt hi' hj'
    have keep : ∀ v : View, v.contiguous → Apart o v → ∀ i' < v.rows, ∀ j' < v.cols,
        (s.buf v.base).val (v.off + (i' * v.cols + j')) = (m.buf v.base).val (v.off + (i' * v.cols + j')) := by
      intro v cv av i' hi1 j' hj1
      rw [(hs.2 v.base).2, if_neg]
      rintro ⟨e, h1, h2⟩
      have hc : 0 < o.cols := by omega
      have hlt : v.off + (i' * v.cols + j') - o.off < o.rows * o.cols := by
        rw [← hN] at h2
        omega
      have hq : (v.off + (i' * v.cols + j') - o.off) / o.cols < o.rows := (Nat.div_lt_iff_lt_mul hc).2 hlt
      have hr : (v.off + (i' * v.cols + j') - o.off) % o.cols < o.cols := Nat.mod_lt _ hc
      refine av e.symm _ hq _ hr i' hi1 j' hj1 ?_
      rw [contiguous_pos co hq hr, contiguous_pos cv hi1 hj1, Nat.div_add_mod']
      congr 1
      omega
    have hsum := dot_sum (m := m) (m' := s) (trans1 := trans1) (trans2 := trans2) (x := x) (y := y) (K := x.size1 trans1) (i := i) (j := j)
      (fun k hk => read_op cx vx trans1 hi hk (hs.2 _).1 (keep x cx ax))
      (fun k hk => read_op cy vy trans2 (by omega) hj (hs.2 _).1 (keep y cy ay))
    have hfit : o.off + (i * o.cols + j) < (s.buf o.base).size := by
      rw [(hs.2 o.base).1]
      exact contiguous_fits co vo hi' hj'
    refine ⟨⟨s.next, fun c => if c = o.base then ⟨(s.buf o.base).size, fun k => if k = o.off + (i * o.cols + j) then
      ∑ k ∈ Finset.range (x.size1 trans1), opEntry m x trans1 i k * opEntry m y trans2 k j else (s.buf o.base).val k⟩ else s.buf c⟩, ?_, ?_⟩
    · unfold gemmEntry
      rw [hsum]
      simp only [bind, Except.bind, Memory.write, View.ptr, Ptr.index, Bool.false_eq_true, if_false,
        Buf.write_ok _ _ _ hfit, pure, Except.pure]
      rfl
    · refine ⟨hs.1, fun b => ?_⟩
      by_cases hb : b = o.base
      · subst hb
        simp only [if_true]
        refine ⟨(hs.2 o.base).1, fun k => ?_⟩
        have hc : 0 < o.cols := by omega
        by_cases hk : k = o.off + (i * o.cols + j)
        · subst hk
          rw [if_pos rfl, if_pos ⟨trivial, by omega, by rw [← hN]; omega⟩]
          have e0 : o.off + (i * o.cols + j) - o.off = i * o.cols + j := by omega
          have e1 : (i * o.cols + j) / o.cols = i := by
            rw [Nat.add_comm, Nat.add_mul_div_right _ _ hc, Nat.div_eq_of_lt hj', Nat.zero_add]
          have e2 : (i * o.cols + j) % o.cols = j := by
            rw [Nat.add_comm, Nat.add_mul_mod_self_right, Nat.mod_eq_of_lt hj']
          rw [e0, e1, e2]
        · rw [if_neg hk, (hs.2 o.base).2]
          rw [← hN]
          by_cases h1 : o.off ≤ k ∧ k < o.off + (i * o.cols + j)
          · rw [if_pos ⟨rfl, h1⟩, if_pos ⟨trivial, by omega⟩]
          · rw [if_neg (by tauto), if_neg (by rintro ⟨-, h⟩; omega)]
      · simp only [if_neg hb]
        refine ⟨(hs.2 b).1, fun k => ?_⟩
        rw [(hs.2 b).2, if_neg (by tauto), if_neg (by tauto)]

theorem upto_entry {o : View} (co : o.contiguous) {f : ℕ → ℕ → α} {m m' : Memory α} (h : Upto o f m (o.rows * o.cols) m') {i j : ℕ}
    (hi : i < o.rows) (hj : j < o.cols) : o.entry m' i j = f i j := by
  have hc : 0 < o.cols := by omega
  have := cell_lt hi hj
  rw [contiguous_entry co hi hj, (h.2 _).2, if_pos ⟨rfl, by omega, by omega⟩]
  have e0 : o.off + (i * o.cols + j) - o.off = i * o.cols + j := by omega
  have e1 : (i * o.cols + j) / o.cols = i := by
    rw [Nat.add_comm, Nat.add_mul_div_right _ _ hc, Nat.div_eq_of_lt hj, Nat.zero_add]
  have e2 : (i * o.cols + j) % o.cols = j := by
    rw [Nat.add_comm, Nat.add_mul_mod_self_right, Nat.mod_eq_of_lt hj]
  rw [e0, e1, e2]

theorem upto_only {o : View} (co : o.contiguous) {f : ℕ → ℕ → α} {m m' : Memory α} (h : Upto o f m (o.rows * o.cols) m') : OnlyChanges o m m' := by
  refine fun b _ => ⟨(h.2 b).1, fun k hk => ?_⟩
  rw [(h.2 b).2, if_neg]
  rintro ⟨e, h1, h2⟩
  have hc : 0 < o.cols := by
    rcases Nat.eq_zero_or_pos o.cols with h0 | h0
    · rw [h0] at h2
      omega
    · exact h0
  have hq : (k - o.off) / o.cols < o.rows := (Nat.div_lt_iff_lt_mul hc).2 (by omega)
  have hr : (k - o.off) % o.cols < o.cols := Nat.mod_lt _ hc
  refine hk _ hq _ hr ⟨e, ?_⟩
  rw [contiguous_pos co hq hr, Nat.div_add_mod']
  congr 1
  omega

theorem upto_other {o : View} {f : ℕ → ℕ → α} {m m' : Memory α} {n : ℕ} (h : Upto o f m n m') {b : ℕ} (hb : b ≠ o.base) : m'.buf b = m.buf b := by
  have h1 := (h.2 b).1
  have h2 : (m'.buf b).val = (m.buf b).val := by
    funext k
    rw [(h.2 b).2, if_neg (by tauto)]
  revert h1 h2
  cases m'.buf b
  cases m.buf b
  rintro rfl rfl
  rfl

end

end Thinc.Blas
