import Verif.Model.SparseLinear
import Verif.Spec.SparseLinear
import Verif.Lemmas.CMem
import Verif.Lemmas.Layer
import Mathlib.Tactic.Linarith
/-!
# The loops of SparseLinear
-/
namespace Thinc
open Spec

/-- The content of the second buffer is the content of the first one plus `f`. -/
def Added (out out' : Buf ℝ) (f : ℕ → ℝ) : Prop := out'.size = out.size ∧ ∀ j, out'.val j = out.val j + f j

theorem Added.refl (out : Buf ℝ) : Added out out fun _ => 0 := ⟨rfl, fun j => by simp⟩

theorem Added.trans {a b c : Buf ℝ} {f g : ℕ → ℝ} (h : Added a b f) (h' : Added b c g) : Added a c fun j => f j + g j :=
  ⟨h'.1.trans h.1, fun j => by rw [h'.2, h.2]; ring⟩

theorem Added.congr {a b : Buf ℝ} {f g : ℕ → ℝ} (h : Added a b f) (e : ∀ j, f j = g j) : Added a b g :=
  ⟨h.1, fun j => by rw [h.2, e]⟩

theorem incr_added (b : Buf ℝ) (i : ℕ) (x : ℝ) (h : i < b.size) :
    ∃ b', b.incr i x = .ok b' ∧ Added b b' fun j => if j = i then x else 0 := by
  refine ⟨⟨b.size, fun k => if k = i then b.val i + x else b.val k⟩, ?_, rfl, fun j => ?_⟩
  · simp only [Buf.incr, Buf.read_ok b i h, Buf.write_ok b i _ h, bind, Except.bind]
  · by_cases hj : j = i
    · simp [hj]
    · simp [hj]

theorem forN_added (n : ℕ) (body : Buf ℝ → ℕ → Except PyErr (Buf ℝ)) (f : ℕ → ℕ → ℝ) (out : Buf ℝ)
    (h : ∀ k < n, ∀ b : Buf ℝ, b.size = out.size → ∃ b', body b k = .ok b' ∧ Added b b' (f k)) :
    ∃ out', forN n out body = .ok out' ∧ Added out out' fun j => ∑ k ∈ Finset.range n, f k j := by
  obtain ⟨s, e, hs⟩ := forN_inv n body (fun k b => Added out b fun j => ∑ k ∈ Finset.range k, f k j) out
    ((Added.refl out).congr fun j => by simp) (by
    intro k hk b hb
    obtain ⟨b', e, h'⟩ := h k hk b hb.1
    exact ⟨b', e, (hb.trans h').congr fun j => by rw [Finset.sum_range_succ]⟩)
  exact ⟨s, e, hs⟩

theorem bucket_lt (v1 : Bool) {nW : ℕ} (hW : 0 < nW) (hash : BitVec 32) : bucket v1 nW hash < nW := by
  unfold bucket
  cases v1
  · simpa using Nat.mod_lt _ hW
  · have : hash.toNat &&& (nW - 1) ≤ nW - 1 := Nat.and_le_right
    simp only [if_true]
    omega

theorem sparseIndex_ok (v1 : Bool) {nW : ℕ} (hW : 0 < nW) (hW2 : nW ≤ 2 ^ 31) (hash : BitVec 32) :
    sparseIndex v1 hash nW = .ok (bucket v1 nW hash) := by
  unfold sparseIndex bucket
  cases v1
  · simp only [Bool.false_eq_true, if_false]
    rw [if_neg (by omega)]
  · simp only [if_true]
    have e : ((nW : ℤ) - 1) = ((nW - 1 : ℕ) : ℤ) := by omega
    rw [e, BitVec.ofInt_natCast, BitVec.toNat_and, BitVec.toNat_ofNat, Nat.mod_eq_of_lt (by omega)]

theorem sparseOffset_lt (v1 : Bool) {nW nO idx c : ℕ} (hi : idx < nW) (hc : c < nO) : sparseOffset v1 nW idx c < nO * nW := by
  unfold sparseOffset
  cases v1
  · simp only [Bool.false_eq_true, if_false]
    calc c * nW + idx < c * nW + nW := by omega
      _ = (c + 1) * nW := by ring
      _ ≤ nO * nW := Nat.mul_le_mul_right _ hc
  · simp only [if_true]
    obtain ⟨a, rfl⟩ := Nat.exists_eq_add_of_lt hi
    obtain ⟨b, rfl⟩ := Nat.exists_eq_add_of_lt hc
    nlinarith [Nat.zero_le (a * b), Nat.zero_le (idx * c), Nat.zero_le (a * c), Nat.zero_le (idx * b)]

/-- What one feature adds for one class. -/
abbrev Contribution := ℕ → ℕ → ℕ → ℝ → ℕ → ℕ → ℝ

theorem sparseExamples (v1 : Bool) (keys : Buf (BitVec 64)) (values : Buf ℝ) (nO nW : ℕ) (hW : 0 < nW) (hW2 : nW ≤ 2 ^ 31)
    (ls : List ℕ) (hk : ls.sum ≤ keys.size) (hv : ls.sum ≤ values.size)
    (body : Int → Nat → Nat → ℝ → Buf ℝ → Nat → Except PyErr (Buf ℝ)) (f : Contribution) (out : Buf ℝ)
    (h : ∀ r < ls.length, ∀ i1 < nW, ∀ i2 < nW, ∀ v, ∀ c < nO, ∀ b : Buf ℝ, b.size = out.size →
      ∃ b', body ((r * nO : ℕ) : ℤ) i1 i2 v b c = .ok b' ∧ Added b b' (f r i1 i2 v c)) :
    ∃ s, forM' (ls.map fun l : ℕ => (l : ℤ)) (out, 0, 0) (sparseExample v1 keys values nO nW body) = .ok s ∧
      Added out s.1 fun j => ∑ r ∈ Finset.range ls.length, ∑ t ∈ Finset.range (ls.getD r 0), ∑ c ∈ Finset.range nO,
        f r (bucket v1 nW (murmur32 (keys.val ((ls.take r).sum + t)) 0#32))
          (bucket v1 nW (murmur32 (keys.val ((ls.take r).sum + t)) 1#32)) (values.val ((ls.take r).sum + t)) c j := by
  obtain ⟨s, e, hs⟩ := forM'_inv (ls.map fun l : ℕ => (l : ℤ)) (sparseExample v1 keys values nO nW body)
    (fun k s => s.2.1 = ((k * nO : ℕ) : ℤ) ∧ s.2.2 = (((ls.take k).sum : ℕ) : ℤ) ∧
      Added out s.1 fun j => ∑ r ∈ Finset.range k, ∑ t ∈ Finset.range (ls.getD r 0), ∑ c ∈ Finset.range nO,
        f r (bucket v1 nW (murmur32 (keys.val ((ls.take r).sum + t)) 0#32))
          (bucket v1 nW (murmur32 (keys.val ((ls.take r).sum + t)) 1#32)) (values.val ((ls.take r).sum + t)) c j)
    (out, 0, 0) ⟨by simp, by simp, (Added.refl out).congr fun j => by simp⟩ (by
    rintro k hk' ⟨b, p, q⟩ ⟨hp, hq, hb⟩
    simp only at hp hq hb
    subst hp hq
    have hkl : k < ls.length := by simpa using hk'
    have hsum : (ls.take k).sum + ls[k] ≤ ls.sum := by
      have := List.sum_take_add_sum_drop ls k
      rw [← this, List.drop_eq_getElem_cons hkl, List.sum_cons]
      omega
    have hget : ls.getD k 0 = ls[k] := by simp [List.getD_eq_getElem?_getD, hkl]
    obtain ⟨b', e, hb'⟩ := forN_added ls[k] (sparseFeature v1 keys values nO nW (((ls.take k).sum : ℕ) : ℤ) (body ((k * nO : ℕ) : ℤ)))
      (fun t j => ∑ c ∈ Finset.range nO, f k (bucket v1 nW (murmur32 (keys.val ((ls.take k).sum + t)) 0#32))
          (bucket v1 nW (murmur32 (keys.val ((ls.take k).sum + t)) 1#32)) (values.val ((ls.take k).sum + t)) c j) b (by
        intro t ht b1 hb1
        obtain ⟨b2, e2, h2⟩ := forN_added nO (body ((k * nO : ℕ) : ℤ) (bucket v1 nW (murmur32 (keys.val ((ls.take k).sum + t)) 0#32))
            (bucket v1 nW (murmur32 (keys.val ((ls.take k).sum + t)) 1#32)) (values.val ((ls.take k).sum + t)))
          (fun c j => f k (bucket v1 nW (murmur32 (keys.val ((ls.take k).sum + t)) 0#32))
          (bucket v1 nW (murmur32 (keys.val ((ls.take k).sum + t)) 1#32)) (values.val ((ls.take k).sum + t)) c j) b1
          (fun c hc b2 hb2 => h k hkl _ (bucket_lt v1 hW _) _ (bucket_lt v1 hW _) _ c hc b2
            (hb2.trans (hb1.trans hb.1)))
        refine ⟨b2, ?_, h2⟩
        have ek := keys.read_ok ((ls.take k).sum + t) (by omega)
        have ev := values.read_ok ((ls.take k).sum + t) (by omega)
        rw [Nat.cast_add] at ek ev
        simp only [sparseFeature, ek, ev, sparseIndex_ok v1 hW hW2, bind, Except.bind]
        exact e2)
    refine ⟨(b', ((k * nO : ℕ) : ℤ) + nO, (((ls.take k).sum : ℕ) : ℤ) + ls[k]), ?_, ?_, ?_, ?_⟩
    · simp only [List.getElem_map, sparseExample, Int.toNat_natCast, e, bind, Except.bind, pure, Except.pure]
    · push_cast; ring
    · rw [List.take_add_one, List.sum_append]
      simp [hkl]
    · refine (hb.trans hb').congr fun j => ?_
      rw [Finset.sum_range_succ, hget])
  refine ⟨s, e, hs.2.2.congr fun j => ?_⟩
  simp

theorem scoreClass_added (v1 : Bool) (weights : Buf ℝ) {nW nO R r i1 i2 c : ℕ} (hw : weights.size = nO * nW) (v : ℝ)
    (b : Buf ℝ) (hb : b.size = R * nO) (hr : r < R) (h1 : i1 < nW) (h2 : i2 < nW) (hc : c < nO) :
    ∃ b', scoreClass v1 weights nW ((r * nO : ℕ) : ℤ) i1 i2 v b c = .ok b' ∧
      Added b b' fun j => if j = r * nO + c then
        (weights.val (sparseOffset v1 nW i1 c) + weights.val (sparseOffset v1 nW i2 c)) * v else 0 := by
  have hp : r * nO + c < R * nO := by
    calc r * nO + c < r * nO + nO := by omega
      _ = (r + 1) * nO := by ring
      _ ≤ R * nO := Nat.mul_le_mul_right _ hr
  obtain ⟨b1, e1, a1⟩ := incr_added b (r * nO + c) (weights.val (sparseOffset v1 nW i1 c) * v) (by omega)
  obtain ⟨b2, e2, a2⟩ := incr_added b1 (r * nO + c) (weights.val (sparseOffset v1 nW i2 c) * v) (by rw [a1.1]; omega)
  refine ⟨b2, ?_, (a1.trans a2).congr fun j => ?_⟩
  · push_cast at e1 e2 ⊢
    simp only [scoreClass, weights.read_ok _ (by rw [hw]; exact sparseOffset_lt v1 h1 hc),
      weights.read_ok _ (by rw [hw]; exact sparseOffset_lt v1 h2 hc), e1, e2, bind, Except.bind]
  · by_cases hj : j = r * nO + c
    · simp only [hj, if_true]; ring
    · simp [hj]

theorem gradClass_added (v1 : Bool) (d : Buf ℝ) {nW nO R r i1 i2 c : ℕ} (hd : d.size = R * nO) (v : ℝ)
    (b : Buf ℝ) (hb : b.size = nO * nW) (hr : r < R) (h1 : i1 < nW) (h2 : i2 < nW) (hc : c < nO) :
    ∃ b', gradClass v1 d nW ((r * nO : ℕ) : ℤ) i1 i2 v b c = .ok b' ∧
      Added b b' fun j => (if j = sparseOffset v1 nW i1 c then d.val (r * nO + c) * v else 0) +
        (if j = sparseOffset v1 nW i2 c then d.val (r * nO + c) * v else 0) := by
  have hp : r * nO + c < R * nO := by
    calc r * nO + c < r * nO + nO := by omega
      _ = (r + 1) * nO := by ring
      _ ≤ R * nO := Nat.mul_le_mul_right _ hr
  have er := d.read_ok (r * nO + c) (by omega)
  obtain ⟨b1, e1, a1⟩ := incr_added b (sparseOffset v1 nW i1 c) (d.val (r * nO + c) * v)
    (by rw [hb]; exact sparseOffset_lt v1 h1 hc)
  obtain ⟨b2, e2, a2⟩ := incr_added b1 (sparseOffset v1 nW i2 c) (d.val (r * nO + c) * v)
    (by rw [a1.1, hb]; exact sparseOffset_lt v1 h2 hc)
  refine ⟨b2, ?_, a1.trans a2⟩
  push_cast at er ⊢
  simp only [gradClass, er, e1, e2, bind, Except.bind]

/-- A sum over the features of one example. -/
theorem sum_example {K s l : ℕ} (h : s + l ≤ K) (f : ℕ → ℝ) :
    ∑ i ∈ Finset.range K, (if s ≤ i ∧ i < s + l then f i else 0) = ∑ t ∈ Finset.range l, f (s + t) := by
  rw [← Finset.sum_filter]
  have : (Finset.range K).filter (fun i => s ≤ i ∧ i < s + l) = Finset.Ico s (s + l) := by
    ext i
    simp only [Finset.mem_filter, Finset.mem_range, Finset.mem_Ico]
    omega
  rw [this, Finset.sum_Ico_eq_sum_range, Nat.add_sub_cancel_left]

end Thinc
