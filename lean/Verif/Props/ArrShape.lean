import Verif.Spec.ArrShape
import Verif.Props.ArrConv
/-!
# C141: new arrays and shapes
-/
namespace Thinc.ArrConv
open Spec

/-! ### Shapes -/

/-- The dimensions with a number in place of the negative ones. -/
def fillDims (dims : List Int) (x : Nat) : List Nat := dims.map fun d => if d < 0 then x else d.toNat

/-- The product of the dimensions that are given. -/
def knownProd (dims : List Int) : Nat := ((dims.filter (0 ≤ ·)).map Int.toNat).prod

theorem fillDims_prod (dims : List Int) (x : Nat) : (fillDims dims x).prod = knownProd dims * x ^ unknown dims := by
  induction dims with
  | nil => simp [fillDims, knownProd, unknown]
  | cons d ds ih =>
    simp only [fillDims, knownProd, unknown, List.map_cons, List.prod_cons] at ih ⊢
    by_cases h : d < 0
    · have h2 : ¬ (0 ≤ d) := by omega
      simp only [h, h2, if_true, List.filter_cons, decide_true, decide_false, Bool.false_eq_true, if_false, List.length_cons, pow_succ, ih]
      ring
    · have h2 : 0 ≤ d := by omega
      simp only [h, h2, if_true, List.filter_cons, decide_true, decide_false, Bool.false_eq_true, if_false, List.map_cons, List.prod_cons, ih]
      ring

theorem fillDims_fits (dims : List Int) (x : Nat) : List.Forall₂ Given dims (fillDims dims x) := by
  induction dims with
  | nil => exact .nil
  | cons d ds ih =>
    refine .cons (fun h => ?_) ih
    have hd : ¬ d < 0 := by omega
    simp only [if_neg hd]
    omega

theorem fits_known {dims : List Int} {s : List Nat} (h : List.Forall₂ Given dims s) (hu : unknown dims = 0)
    (x : Nat) : s = fillDims dims x := by
  induction h with
  | nil => rfl
  | @cons d n ds s' h1 h2 ih =>
    have hd : ¬ d < 0 := by
      intro hd
      simp [unknown, hd] at hu
    have hu' : unknown ds = 0 := by simpa [unknown, List.filter_cons, hd] using hu
    rw [fillDims, List.map_cons, if_neg hd]
    have := h1 (by omega)
    exact congrArg₂ List.cons (by omega) (ih hu')

theorem fits_fill {dims : List Int} {s : List Nat} (h : List.Forall₂ Given dims s) (hu : unknown dims ≤ 1) :
    ∃ x, s = fillDims dims x := by
  induction h with
  | nil => exact ⟨0, rfl⟩
  | @cons d n ds s' h1 h2 ih =>
    by_cases hd : d < 0
    · have hu' : unknown ds = 0 := by
        simp only [unknown, List.filter_cons, hd, decide_true, if_true, List.length_cons] at hu
        exact Nat.le_zero.1 (Nat.le_of_succ_le_succ hu)
      exact ⟨n, by rw [fillDims, List.map_cons, if_pos hd]; exact congrArg _ (fits_known h2 hu' n)⟩
    · have hu' : unknown ds ≤ 1 := by simpa [unknown, List.filter_cons, hd] using hu
      obtain ⟨x, hx⟩ := ih hu'
      have := h1 (by omega)
      exact ⟨x, by rw [fillDims, List.map_cons, if_neg hd]; exact congrArg₂ List.cons (by omega) hx⟩

theorem fillDims_inj {dims : List Int} (hu : unknown dims = 1) {x y : Nat} (h : fillDims dims x = fillDims dims y) : x = y := by
  induction dims with
  | nil => simp [unknown] at hu
  | cons d ds ih =>
    simp only [fillDims, List.map_cons, List.cons.injEq] at h
    by_cases hd : d < 0
    · simpa [hd] using h.1
    · exact ih (by simpa [unknown, List.filter_cons, hd] using hu) h.2

theorem resolveShape_cases (size : Nat) (dims : List Int) :
    (unknown dims = 0 ∧ resolveShape size dims = if knownProd dims = size then .ok (fillDims dims 0) else .error .valueError) ∨
    (unknown dims = 1 ∧ resolveShape size dims =
      if knownProd dims = 0 ∨ size % knownProd dims ≠ 0 then .error .valueError else .ok (fillDims dims (size / knownProd dims))) ∨
    (2 ≤ unknown dims ∧ resolveShape size dims = .error .valueError) := by
  have e : resolveShape size dims = match unknown dims with
      | 0 => if knownProd dims = size then .ok (dims.map Int.toNat) else .error .valueError
      | 1 => if knownProd dims = 0 ∨ size % knownProd dims ≠ 0 then .error .valueError else .ok (fillDims dims (size / knownProd dims))
      | _ => .error .valueError := rfl
  rcases h : unknown dims with _ | _ | n
  · refine .inl ⟨rfl, ?_⟩
    rw [h] at e
    have : dims.map Int.toNat = fillDims dims 0 := by
      refine List.map_congr_left fun d hd => ?_
      have : ¬ d < 0 := by
        intro hlt
        have := List.length_eq_zero_iff.1 h
        have h3 : d ∈ dims.filter (· < 0) := List.mem_filter.2 ⟨hd, by simpa using hlt⟩
        rw [this] at h3
        simp at h3
      rw [if_neg this]
    rw [← this]
    exact e
  · refine .inr (.inl ⟨rfl, ?_⟩)
    rw [h] at e
    exact e
  · refine .inr (.inr ⟨by omega, ?_⟩)
    rw [h] at e
    exact e

/-- With at most one dimension to infer, `reshape` finds a shape exactly if there is one and only one that fits, and finds that one. -/
theorem resolveShape_iff (size : Nat) (dims : List Int) (hu : unknown dims ≤ 1) (s : List Nat) :
    resolveShape size dims = .ok s ↔ Fits dims size s ∧ ∀ t, Fits dims size t → t = s := by
  rcases resolveShape_cases size dims with ⟨h, e⟩ | ⟨h, e⟩ | ⟨h, _⟩
  · rw [e]
    constructor
    · intro hs
      by_cases hk : knownProd dims = size
      · rw [if_pos hk] at hs
        cases hs
        exact ⟨⟨fillDims_fits dims 0, by rw [fillDims_prod, h, pow_zero, mul_one, hk]⟩, fun t ht => fits_known ht.1 h 0⟩
      · rw [if_neg hk] at hs
        cases hs
    · rintro ⟨h1, _⟩
      have es := fits_known h1.1 h 0
      have hp := h1.2
      rw [es, fillDims_prod, h, pow_zero, mul_one] at hp
      rw [if_pos hp, es]
  · rw [e]
    constructor
    · intro hs
      by_cases hk : knownProd dims = 0 ∨ size % knownProd dims ≠ 0
      · rw [if_pos hk] at hs
        cases hs
      · rw [if_neg hk] at hs
        cases hs
        have hk0 : knownProd dims ≠ 0 := fun h' => hk (.inl h')
        have hmod : size % knownProd dims = 0 := by by_contra h'; exact hk (.inr h')
        refine ⟨⟨fillDims_fits dims _, ?_⟩, fun t ht => ?_⟩
        · rw [fillDims_prod, h, pow_one, Nat.mul_div_cancel' (Nat.dvd_of_mod_eq_zero hmod)]
        · obtain ⟨x, rfl⟩ := fits_fill ht.1 hu
          have := ht.2
          rw [fillDims_prod, h, pow_one] at this
          rw [← this, Nat.mul_div_cancel_left _ (Nat.pos_of_ne_zero hk0)]
    · rintro ⟨h1, h2⟩
      obtain ⟨x, rfl⟩ := fits_fill h1.1 hu
      have hp := h1.2
      rw [fillDims_prod, h, pow_one] at hp
      by_cases hk0 : knownProd dims = 0
      · rw [hk0, zero_mul] at hp
        have := h2 (fillDims dims (x + 1)) ⟨fillDims_fits dims _, by rw [fillDims_prod, h, pow_one, hk0, zero_mul, hp]⟩
        have := fillDims_inj h this
        omega
      · rw [if_neg]
        · rw [← hp, Nat.mul_div_cancel_left _ (Nat.pos_of_ne_zero hk0)]
        · rintro (h' | h')
          · exact hk0 h'
          · rw [← hp] at h'
            simp at h'
  · omega

theorem reshape_ok {new : Nat} {view : Option Bool} {a : Arr} {shape : Shape} {s : List Nat} (h : resolveShape a.shape.prod shape.dims = .ok s) :
    ∃ r, reshape new view a shape = .ok r ∧ r.shape = s ∧ r.cells = a.cells ∧ r.dtype = a.dtype ∧ r.lib = a.lib ∧
      (a.contig = true → r.buf = a.buf ∧ r.contig = true) ∧ (a.contig = false → r.buf = if view.isSome then a.buf else new) := by
  cases hc : a.contig with
  | true =>
    refine ⟨{ a with shape := s }, ?_, rfl, rfl, rfl, rfl, fun _ => ⟨rfl, hc⟩, fun h' => by cases h'⟩
    simp only [reshape, h, hc, if_true]
    rfl
  | false =>
    cases view with
    | none =>
      refine ⟨{ a with shape := s, contig := true, buf := new }, ?_, rfl, rfl, rfl, rfl, fun h' => (by cases h'), fun _ => rfl⟩
      simp only [reshape, h, hc, Bool.false_eq_true, if_false]
      rfl
    | some c =>
      refine ⟨{ a with shape := s, contig := c }, ?_, rfl, rfl, rfl, rfl, fun h' => (by cases h'), fun _ => rfl⟩
      simp only [reshape, h, hc, Bool.false_eq_true, if_false]
      rfl

theorem reshape_error {new : Nat} {view : Option Bool} {a : Arr} {shape : Shape} {e : PyErr} (h : resolveShape a.shape.prod shape.dims = .error e) :
    reshape new view a shape = .error e := by
  simp only [reshape, h]
  rfl

theorem resolveShape_error (size : Nat) (dims : List Int) (h : ¬ ∃ s, resolveShape size dims = .ok s) : resolveShape size dims = .error .valueError := by
  rcases resolveShape_cases size dims with ⟨_, e⟩ | ⟨_, e⟩ | ⟨_, e⟩
  · rw [e] at h ⊢
    split
    · rename_i hk; rw [if_pos hk] at h; exact absurd ⟨_, rfl⟩ h
    · rfl
  · rw [e] at h ⊢
    split
    · rfl
    · rename_i hk; rw [if_neg hk] at h; exact absurd ⟨_, rfl⟩ h
  · exact e

/-! ### The property -/

/-- C141: `reshape` with at most one dimension to infer.  It succeeds exactly if one and only one shape fits, and gives an array of that
shape with the same numbers in the same order; otherwise it raises ValueError. -/
theorem C141_reshape (new : Nat) (view : Option Bool) {a : Arr} (h : WellFormed a) (shape : Shape) (hu : unknown shape.dims ≤ 1) :
    (∀ s, Fits shape.dims a.shape.prod s → (∀ t, Fits shape.dims a.shape.prod t → t = s) →
      ∃ r, reshape new view a shape = .ok r ∧ WellFormed r ∧ r.shape = s ∧ r.lib = a.lib ∧ r.dtype = a.dtype ∧ numbers r = numbers a) ∧
    ((¬ ∃ s, Fits shape.dims a.shape.prod s ∧ ∀ t, Fits shape.dims a.shape.prod t → t = s) → reshape new view a shape = .error .valueError) := by
  constructor
  · intro s h1 h2
    obtain ⟨r, g1, g2, g3, g4, g5, _⟩ := reshape_ok (new := new) (view := view) ((resolveShape_iff _ _ hu s).2 ⟨h1, h2⟩)
    refine ⟨r, g1, ?_, g2, g5, g4, by simp only [numbers, g3, g4]⟩
    unfold WellFormed
    rw [g3, g4, g2, h1.2]
    exact h
  · intro hn
    refine reshape_error (resolveShape_error _ _ ?_)
    rintro ⟨s, hs⟩
    exact hn ⟨s, (resolveShape_iff _ _ hu s).1 hs⟩

/-- C141: two dimensions to infer are refused. -/
theorem C141_two_unknown (new : Nat) (view : Option Bool) (a : Arr) (shape : Shape) (hu : 2 ≤ unknown shape.dims) :
    reshape new view a shape = .error .valueError := by
  refine reshape_error ?_
  rcases resolveShape_cases a.shape.prod shape.dims with ⟨h, _⟩ | ⟨h, _⟩ | ⟨_, e⟩
  · omega
  · omega
  · exact e

/-- C141: the number at an index is the one at every index of the old array with the same place in C order. -/
theorem C141_element {new : Nat} {view : Option Bool} {a r : Arr} {shape : Shape} (h : reshape new view a shape = .ok r) (idx idx' : List Nat)
    (hp : place r.shape idx = place a.shape idx') : numberAt r idx = numberAt a idx' := by
  have : ∃ s, resolveShape a.shape.prod shape.dims = .ok s := by
    by_contra hn
    rw [reshape_error (resolveShape_error _ _ hn)] at h
    cases h
  obtain ⟨s, hs⟩ := this
  obtain ⟨r', g1, _, g3, g4, _⟩ := reshape_ok (new := new) (view := view) hs
  rw [h] at g1
  cases g1
  simp only [numberAt, numbers, hp, g3, g4]

/-- C141: a reshaped array can be reshaped back, to an array of the shape and the numbers of the first one. -/
theorem C141_back {new new' : Nat} {view view' : Option Bool} {a r : Arr} {shape : Shape} (hr : reshape new view a shape = .ok r) :
    ∃ b, reshape new' view' r (.tuple (a.shape.map Int.ofNat)) = .ok b ∧ b.shape = a.shape ∧ b.dtype = a.dtype ∧ numbers b = numbers a := by
  have : ∃ s, resolveShape a.shape.prod shape.dims = .ok s := by
    by_contra hn
    rw [reshape_error (resolveShape_error _ _ hn)] at hr
    cases hr
  obtain ⟨s, hs⟩ := this
  obtain ⟨r', g1, g2, g3, g4, _⟩ := reshape_ok (new := new) (view := view) hs
  rw [hr] at g1
  cases g1
  have hsz : s.prod = a.shape.prod := by
    rcases resolveShape_cases a.shape.prod shape.dims with ⟨h', _⟩ | ⟨h', _⟩ | ⟨_, e⟩
    · exact ((resolveShape_iff _ _ (by omega) s).1 hs).1.2
    · exact ((resolveShape_iff _ _ (by omega) s).1 hs).1.2
    · rw [e] at hs; cases hs
  have hu : unknown (a.shape.map Int.ofNat) = 0 := by
    simp only [unknown, List.length_eq_zero_iff, List.filter_eq_nil_iff]
    intro d hd
    obtain ⟨n, _, rfl⟩ := List.mem_map.1 hd
    simp
  have hf : Fits (a.shape.map Int.ofNat) r.shape.prod a.shape := by
    refine ⟨?_, by rw [g2, hsz]⟩
    rw [List.forall₂_map_left_iff]
    exact List.forall₂_same.2 fun n _ => fun _ => rfl
  have hres := (resolveShape_iff r.shape.prod (a.shape.map Int.ofNat) (by omega) a.shape).2
    ⟨hf, fun t ht => by rw [fits_known ht.1 hu 0, ← fits_known hf.1 hu 0]⟩
  obtain ⟨b, b1, b2, b3, b4, _⟩ := reshape_ok (new := new') (view := view') (shape := .tuple (a.shape.map Int.ofNat)) hres
  exact ⟨b, b1, b2, b4.trans g4, by simp only [numbers, b3, b4, g3, g4]⟩

/-- C141: a contiguous array is not copied: the result reads the same memory. -/
theorem C141_view {new : Nat} {view : Option Bool} {a r : Arr} {shape : Shape} (hc : a.contig = true) (h : reshape new view a shape = .ok r) :
    r.buf = a.buf ∧ r.contig = true ∧ r.cells = a.cells := by
  have : ∃ s, resolveShape a.shape.prod shape.dims = .ok s := by
    by_contra hn
    rw [reshape_error (resolveShape_error _ _ hn)] at h
    cases h
  obtain ⟨s, hs⟩ := this
  obtain ⟨r', g1, _, g3, _, _, g6, _⟩ := reshape_ok (new := new) (view := view) hs
  rw [h] at g1
  cases g1
  exact ⟨(g6 hc).1, (g6 hc).2, g3⟩

theorem fromLittle_zeros {c : List Nat} (h : ∀ b ∈ c, b = 0) : fromLittle c = 0 := by
  induction c with
  | nil => rfl
  | cons b bs ih => simp [fromLittle, h b (by simp), ih fun x hx => h x (by simp [hx])]

/-- C141: `alloc` gives a new contiguous array of the shape and the type asked for (`float64` without one), of zeros unless `zeros=False`;
a negative dimension raises ValueError. -/
theorem C141_alloc (M : Machine) (lib : Lib) (new : Nat) (found : Nat → Nat) (shape : Shape) (dtype : Option DType) (zeros : Bool) :
    ((∀ d ∈ shape.dims, 0 ≤ d) → ∃ r, alloc M lib new found shape dtype zeros = .ok r ∧ WellFormed r ∧ r.lib = lib ∧ r.buf = new ∧ r.contig = true ∧
      r.shape.map Int.ofNat = shape.dims ∧ r.dtype = dtype.getD ⟨.float, 8, M.native⟩ ∧ (zeros = true → ∀ n ∈ numbers r, n = 0)) ∧
    ((∃ d ∈ shape.dims, d < 0) → alloc M lib new found shape dtype zeros = .error .valueError) := by
  constructor
  · intro h
    have hn : ¬ (shape.dims.any (· < 0)) = true := by
      simp only [List.any_eq_true, decide_eq_true_eq, not_exists, not_and]
      intro d hd
      have := h d hd
      omega
    refine ⟨_, by simp only [alloc, if_neg hn]; rfl, ⟨?_, ?_⟩, rfl, rfl, rfl, ?_, rfl, ?_⟩
    · intro c hc
      obtain ⟨i, _, rfl⟩ := List.mem_map.1 hc
      refine ⟨by simp, fun b hb => ?_⟩
      obtain ⟨j, _, rfl⟩ := List.mem_map.1 hb
      cases zeros
      · simp only [Bool.false_eq_true, if_false]; omega
      · simp
    · simp
    · rw [List.map_map]
      conv_rhs => rw [← List.map_id shape.dims]
      refine List.map_congr_left fun d hd => ?_
      have := h d hd
      simp only [Function.comp, id]
      exact Int.toNat_of_nonneg this
    · rintro rfl n hn
      obtain ⟨c, hc, rfl⟩ := List.mem_map.1 hn
      obtain ⟨i, _, rfl⟩ := List.mem_map.1 hc
      have z : ∀ b ∈ (List.range (dtype.getD M.float64).size).map fun _ => (0 : Nat), b = 0 := by simp
      simp only [if_true]
      cases (dtype.getD M.float64).order
      · exact fromLittle_zeros z
      · exact fromLittle_zeros fun b hb => z b (by simpa using hb)
  · rintro ⟨d, hd, hlt⟩
    have : (shape.dims.any (· < 0)) = true := List.any_eq_true.2 ⟨d, hd, by simpa using hlt⟩
    simp only [alloc, if_pos this]

/-- C141: a number as shape is a tuple of one number. -/
theorem C141_number (M : Machine) (lib : Lib) (new : Nat) (found : Nat → Nat) (d : Int) (dtype : Option DType) (zeros : Bool) (view : Option Bool)
    (a : Arr) : alloc M lib new found (.int d) dtype zeros = alloc M lib new found (.tuple [d]) dtype zeros ∧
      reshape new view a (.int d) = reshape new view a (.tuple [d]) ∧ ∀ ds, (Shape.tuple ds).dims = ds := ⟨rfl, rfl, fun _ => rfl⟩

/-- C141: the variants for floats and ints. -/
theorem C141_alloc_types (M : Machine) (lib : Lib) (new : Nat) (found : Nat → Nat) (shape : Shape) (zeros : Bool) {r s : Arr}
    (hr : allocF M lib new found shape zeros = .ok r) (hs : allocI M lib new found shape zeros = .ok s) :
    r.dtype = ⟨.float, 4, M.native⟩ ∧ s.dtype = ⟨.int, 4, M.native⟩ ∧ r.shape = s.shape := by
  simp only [allocF, allocI, alloc] at hr hs
  split at hr
  · cases hr
  · rename_i h
    rw [if_neg h] at hs
    cases hr
    cases hs
    exact ⟨rfl, rfl, rfl⟩

/-! ### Instances -/

/-- Six numbers of one byte in two rows. -/
def exSix : Arr := ⟨.numpy, ⟨.uint, 1, .little⟩, [2, 3], true, 0, [[1], [2], [3], [4], [5], [6]]⟩

example : reshape 1 none exSix (.tuple [3, -1]) = .ok { exSix with shape := [3, 2] } := by decide
example : reshape 1 none { exSix with contig := false } (.int (-1)) = .ok { exSix with shape := [6], buf := 1 } := by decide
example : reshape 1 none exSix (.tuple [4, -1]) = .error .valueError := by decide
example : reshape 1 none { exSix with shape := [0, 3], cells := [] } (.tuple [0, -1]) = .error .valueError := by decide
example : numberAt exSix [1, 0] = some 4 := by decide
example : alloc (exMachine .big) .numpy 1 (fun _ => 7) (.tuple [2, 1]) none true =
    .ok ⟨.numpy, ⟨.float, 8, .big⟩, [2, 1], true, 1, [List.replicate 8 0, List.replicate 8 0]⟩ := by decide
example : unknown (Shape.tuple [3, -1]).dims ≤ 1 := by decide
example : Fits [3, -1] 6 [3, 2] := ⟨.cons (fun _ => rfl) (.cons (fun h => absurd h (by decide)) .nil), rfl⟩
example : ∃ r, reshape 1 none exSix (.tuple [3, -1]) = .ok r ∧ WellFormed r ∧ r.shape = [3, 2] ∧ r.lib = .numpy ∧ r.dtype = exSix.dtype ∧
    numbers r = numbers exSix :=
  (C141_reshape 1 none (by unfold WellFormed; decide) (.tuple [3, -1]) (by decide)).1 [3, 2]
    ⟨.cons (fun _ => rfl) (.cons (fun h => absurd h (by decide)) .nil), rfl⟩ fun t ht => by
      obtain ⟨x, rfl⟩ := fits_fill ht.1 (by decide)
      have := ht.2
      rw [fillDims_prod] at this
      have e : 3 * x ^ 1 = 6 := this
      rw [pow_one] at e
      obtain rfl : x = 2 := by clear this ht; omega
      rfl
example : ∃ b, reshape 3 none { exSix with shape := [3, 2] } (.tuple [2, 3]) = .ok b ∧ b.shape = [2, 3] ∧ b.dtype = exSix.dtype ∧
    numbers b = numbers exSix := C141_back (a := exSix) (new := 1) (view := none) (shape := .tuple [3, -1]) (by decide)
example : (2 : Nat) ≤ unknown (Shape.tuple [-1, 2, -1]).dims := by decide

end Thinc.ArrConv
