import Verif.Spec.ArrConv
import Mathlib.Tactic.Ring
import Mathlib.Tactic.Positivity
import Mathlib.Algebra.BigOperators.Group.List.Basic
/-!
# C140: conversions of arrays
-/
namespace Thinc.ArrConv
open Spec

/-! ### Bytes -/

theorem fromLittle_toLittle (size n : Nat) (h : n < 256 ^ size) : fromLittle (toLittle size n) = n := by
  induction size generalizing n with
  | zero => simp at h; simp [toLittle, fromLittle, h]
  | succ k ih =>
    have h2 : n / 256 < 256 ^ k := by rw [Nat.div_lt_iff_lt_mul (by norm_num)]; rwa [pow_succ] at h
    simp only [toLittle, fromLittle, ih _ h2]
    omega

theorem toLittle_length (size n : Nat) : (toLittle size n).length = size := by
  induction size generalizing n with
  | zero => rfl
  | succ k ih => simp [toLittle, ih]

theorem toLittle_byte (size n : Nat) : ∀ b ∈ toLittle size n, b < 256 := by
  induction size generalizing n with
  | zero => simp [toLittle]
  | succ k ih =>
    intro b hb
    simp only [toLittle, List.mem_cons] at hb
    rcases hb with rfl | hb
    · omega
    · exact ih _ b hb

theorem toLittle_fromLittle (c : List Nat) (h : ∀ b ∈ c, b < 256) : toLittle c.length (fromLittle c) = c := by
  induction c with
  | nil => rfl
  | cons b bs ih =>
    have hb := h b (by simp)
    have := ih fun x hx => h x (by simp [hx])
    simp only [List.length_cons, toLittle, fromLittle]
    rw [show (b + 256 * fromLittle bs) % 256 = b by omega, show (b + 256 * fromLittle bs) / 256 = fromLittle bs by omega, this]

theorem fromLittle_lt (c : List Nat) (h : ∀ b ∈ c, b < 256) : fromLittle c < 256 ^ c.length := by
  induction c with
  | nil => simp [fromLittle]
  | cons b bs ih =>
    have hb := h b (by simp)
    have := ih fun x hx => h x (by simp [hx])
    simp only [List.length_cons, fromLittle, pow_succ]
    omega

theorem decode_encode (o : Order) (size n : Nat) (h : n < 256 ^ size) : decode o (encode o size n) = n := by
  cases o <;> simp [decode, encode, fromLittle_toLittle size n h]

theorem encode_decode (o : Order) (c : List Nat) (h : ∀ b ∈ c, b < 256) : encode o c.length (decode o c) = c := by
  cases o
  · exact toLittle_fromLittle c h
  · have := toLittle_fromLittle c.reverse (by simpa using h)
    simp only [List.length_reverse] at this
    simp [decode, encode, this]

theorem encode_wf (o : Order) (size n : Nat) : (encode o size n).length = size ∧ ∀ b ∈ encode o size n, b < 256 := by
  cases o
  · exact ⟨toLittle_length _ _, toLittle_byte _ _⟩
  · exact ⟨by simp [encode, toLittle_length], by simpa [encode] using toLittle_byte size n⟩

/-! ### Copies -/

variable {M : Machine}

theorem wf_congr {a b : Arr} (h : WellFormed a) (hc : b.cells = a.cells) (hs : b.shape = a.shape) (hd : b.dtype = a.dtype) : WellFormed b := by
  unfold WellFormed at *
  rw [hc, hs, hd]
  exact h

theorem castCells_numbers (ok : Sane M) (a : Arr) (d : DType) :
    (a.castCells M d).map (decode d.order) = (numbers a).map (M.conv a.dtype.format d.format) := by
  simp only [Arr.castCells, numbers, List.map_map]
  exact List.map_congr_left fun c _ => decode_encode _ _ _ (ok.fits _ d.format _)

theorem castCells_wf {a : Arr} (h : WellFormed a) (d : DType) :
    (∀ c ∈ a.castCells M d, c.length = d.size ∧ ∀ b ∈ c, b < 256) ∧ (a.castCells M d).length = a.shape.prod := by
  refine ⟨fun c hc => ?_, by simp [Arr.castCells, h.2]⟩
  obtain ⟨e, _, rfl⟩ := List.mem_map.1 hc
  exact encode_wf _ _ _

theorem numbers_lt {a : Arr} (h : WellFormed a) : ∀ n ∈ numbers a, n < 256 ^ a.dtype.format.2 := by
  intro n hn
  obtain ⟨c, hc, rfl⟩ := List.mem_map.1 hn
  obtain ⟨h1, h2⟩ := h.1 c hc
  show decode a.dtype.order c < 256 ^ a.dtype.size
  rw [← h1]
  cases a.dtype.order
  · exact fromLittle_lt c h2
  · have := fromLittle_lt c.reverse (by simpa using h2)
    rwa [List.length_reverse] at this

theorem map_conv_same (ok : Sane M) {a : Arr} (h : WellFormed a) :
    (numbers a).map (M.conv a.dtype.format a.dtype.format) = numbers a := by
  rw [List.map_congr_left (g := id) fun n hn => ok.same _ n (numbers_lt h n hn), List.map_id]

theorem sameNumbers_refl (ok : Sane M) {a r : Arr} (h : WellFormed a) (hc : r.cells = a.cells) (hs : r.shape = a.shape) (hd : r.dtype = a.dtype) :
    SameNumbers M a r := by
  refine ⟨hs, ?_⟩
  rw [hd, map_conv_same ok h]
  simp only [numbers, hc, hd]

theorem astype_dtype (new : Nat) (a : Arr) (d : DType) : (a.astype M new d).dtype = d := by
  unfold Arr.astype
  split
  · assumption
  · rfl

theorem astype_lib (new : Nat) (a : Arr) (d : DType) : (a.astype M new d).lib = a.lib := by
  unfold Arr.astype
  split <;> rfl

theorem astype_wf (new : Nat) {a : Arr} (h : WellFormed a) (d : DType) : WellFormed (a.astype M new d) := by
  unfold Arr.astype
  split
  · exact h
  · exact castCells_wf h d

theorem astype_numbers (ok : Sane M) (new : Nat) {a : Arr} (h : WellFormed a) (d : DType) : SameNumbers M a (a.astype M new d) := by
  unfold Arr.astype
  split
  · exact sameNumbers_refl ok h rfl rfl rfl
  · exact ⟨rfl, castCells_numbers ok a d⟩

/-- A conversion from a copy in the same format (whatever the order of its bytes) is one from the original. -/
theorem sameNumbers_trans (ok : Sane M) {a b r : Arr} (hw : WellFormed a) (h : SameNumbers M a b) (hf : b.dtype.format = a.dtype.format) (h2 : SameNumbers M b r) :
    SameNumbers M a r := by
  refine ⟨h2.1.trans h.1, ?_⟩
  rw [h2.2, h.2, hf, map_conv_same ok hw]

theorem astype?_converted (ok : Sane M) (new : Nat) {a b : Arr} (ha : WellFormed a) (hw : WellFormed b) (h : SameNumbers M a b)
    (hf : b.dtype.format = a.dtype.format) (dtype : Option DType) : Converted M b.lib dtype a (b.astype? M new dtype) := by
  cases dtype with
  | none => exact ⟨hw, rfl, by simp, fun _ => hf, h⟩
  | some d =>
    exact ⟨astype_wf new hw d, astype_lib new b d, fun e he => by cases he; exact astype_dtype new b d, by simp,
      sameNumbers_trans ok ha h hf (astype_numbers ok new hw d)⟩

theorem astype_self (new : Nat) (a : Arr) (d : DType) (h : a.dtype = d) : a.astype M new d = a := by
  unfold Arr.astype
  rw [if_pos h]

theorem astype?_twice (new : Nat) (a : Arr) (dtype : Option DType) : (a.astype? M new dtype).astype? M new dtype = a.astype? M new dtype := by
  cases dtype with
  | none => rfl
  | some d => exact astype_self new _ d (astype_dtype new a d)

theorem toGpu_wf (new : Nat) {a : Arr} (h : WellFormed a) : WellFormed (a.toGpu M new) :=
  wf_congr (astype_wf (M := M) new h { a.dtype with order := M.native }) rfl rfl rfl

theorem toGpu_dtype (new : Nat) (a : Arr) : (a.toGpu M new).dtype = { a.dtype with order := M.native } :=
  astype_dtype new a { a.dtype with order := M.native }

theorem toGpu_numbers (ok : Sane M) (new : Nat) {a : Arr} (h : WellFormed a) : SameNumbers M a (a.toGpu M new) :=
  astype_numbers ok new h { a.dtype with order := M.native }

theorem toGpu_format (new : Nat) (a : Arr) : (a.toGpu M new).dtype.format = a.dtype.format := by
  rw [toGpu_dtype]
  rfl

/-! ### `asarray` -/

/-- C140: `NumpyOps.asarray(data, dtype=dtype)` is an array of numpy of the type asked for, with the numbers of the data. -/
theorem C140_numpy (ok : Sane M) (new : Nat) {data : Data} {a : Arr} (t : Takes data a) (h : WellFormed a) (dtype : Option DType) :
    ∃ r, numpyAsarray M new data dtype = .ok r ∧ Converted M .numpy dtype a r := by
  cases t with
  | array =>
    cases hl : a.lib with
    | numpy =>
      refine ⟨a.astype? M new dtype, by simp only [numpyAsarray, hl]; rfl, ?_⟩
      rw [← hl]
      exact astype?_converted ok new h h (sameNumbers_refl ok h rfl rfl rfl) rfl dtype
    | cupy =>
      refine ⟨(a.get new).astype? M new dtype, by simp only [numpyAsarray, hl]; rfl, ?_⟩
      exact astype?_converted (b := a.get new) ok new h (wf_congr h rfl rfl rfl) (sameNumbers_refl ok h rfl rfl rfl) rfl dtype
  | tensor _ hl =>
    refine ⟨a.astype? M new dtype, rfl, ?_⟩
    rw [← hl]
    exact astype?_converted ok new h h (sameNumbers_refl ok h rfl rfl rfl) rfl dtype
  | nested _ hl =>
    refine ⟨({ a with buf := new } : Arr).astype? M new dtype, ?_, ?_⟩
    · exact congrArg Except.ok (astype?_twice new _ dtype)
    · rw [← hl]
      exact astype?_converted (b := { a with buf := new }) ok new h (wf_congr h rfl rfl rfl) (sameNumbers_refl ok h rfl rfl rfl) rfl dtype

/-- C140: `CupyOps.asarray(data, dtype=dtype)` is an array of cupy of the type asked for, with the numbers of the data; it also takes
tensors on the GPU, with or without gradients. -/
theorem C140_cupy (ok : Sane M) (new : Nat) {data : Data} {a : Arr} (t : Takes data a ∨ ∃ grad, data = .tensor true grad a ∧ a.lib = .cupy)
    (h : WellFormed a) (dtype : Option DType) : ∃ r, cupyAsarray M new data dtype = .ok r ∧ Converted M .cupy dtype a r := by
  have gpu : Converted M .cupy dtype a ((a.toGpu M new).astype? M new dtype) :=
    astype?_converted (b := a.toGpu M new) ok new h (toGpu_wf new h) (toGpu_numbers ok new h) (toGpu_format new a) dtype
  have own (hl : a.lib = .cupy) : Converted M .cupy dtype a (a.astype? M new dtype) := by
    rw [← hl]
    exact astype?_converted ok new h h (sameNumbers_refl ok h rfl rfl rfl) rfl dtype
  rcases t with t | ⟨grad, rfl, hl⟩
  · cases t with
    | array =>
      cases hl : a.lib with
      | numpy =>
        exact ⟨_, by simp only [cupyAsarray, hl]; exact congrArg Except.ok (astype?_twice new _ dtype), gpu⟩
      | cupy =>
        exact ⟨_, by simp only [cupyAsarray, hl]; exact congrArg Except.ok (astype?_twice new _ dtype), own hl⟩
    | tensor => exact ⟨(a.toGpu M new).astype? M new dtype, congrArg Except.ok (astype?_twice new (a.toGpu M new) dtype), gpu⟩
    | nested => exact ⟨(a.toGpu M new).astype? M new dtype, congrArg Except.ok (astype?_twice new (a.toGpu M new) dtype), gpu⟩
  · exact ⟨_, rfl, own hl⟩

/-- C140: no copy is made exactly when the data is an array of the backend (or a tensor on its device) of the type asked for; the result
is then the very array. -/
theorem C140_numpy_memory (new : Nat) {a : Arr} (hn : a.lib = .numpy) (hnew : new ≠ a.buf) (dtype : Option DType) (tensor : Bool) :
    ∃ r, numpyAsarray M new (if tensor then .tensor false false a else .array a) dtype = .ok r ∧
      (dtype.getD a.dtype = a.dtype → r = a) ∧ (dtype.getD a.dtype ≠ a.dtype → r.buf = new ∧ r.buf ≠ a.buf) := by
  refine ⟨a.astype? M new dtype, ?_, ?_, ?_⟩
  · cases tensor
    · simp only [numpyAsarray, hn, Bool.false_eq_true, if_false]; rfl
    · rfl
  · intro h
    cases dtype with
    | none => rfl
    | some d => exact astype_self new a d h.symm
  · intro h
    cases dtype with
    | none => simp at h
    | some d =>
      have : (a.astype? M new (some d)).buf = new := by
        simp only [Arr.astype?, Arr.astype]
        rw [if_neg fun e => h e.symm]
      exact ⟨this, this.trans_ne hnew⟩

/-- C140: the same for cupy, with tensors on the GPU. -/
theorem C140_cupy_memory (new : Nat) {a : Arr} (hn : a.lib = .cupy) (hnew : new ≠ a.buf) (dtype : Option DType) (tensor : Option Bool) :
    ∃ r, cupyAsarray M new (tensor.elim (.array a) fun grad => .tensor true grad a) dtype = .ok r ∧
      (dtype.getD a.dtype = a.dtype → r = a) ∧ (dtype.getD a.dtype ≠ a.dtype → r.buf = new ∧ r.buf ≠ a.buf) := by
  refine ⟨a.astype? M new dtype, ?_, ?_, ?_⟩
  · cases tensor
    · simp only [cupyAsarray, hn, Option.elim]; exact congrArg Except.ok (astype?_twice new _ dtype)
    · rfl
  · intro h
    cases dtype with
    | none => rfl
    | some d => exact astype_self new a d h.symm
  · intro h
    cases dtype with
    | none => simp at h
    | some d =>
      have : (a.astype? M new (some d)).buf = new := by
        simp only [Arr.astype?, Arr.astype]
        rw [if_neg fun e => h e.symm]
      exact ⟨this, this.trans_ne hnew⟩

/-- C140: data of the other library is always copied. -/
theorem C140_other_copied (new : Nat) (a : Arr) (hnew : new ≠ a.buf) (dtype : Option DType) {r : Arr} :
    (a.lib = .cupy → numpyAsarray M new (.array a) dtype = .ok r → r.buf ≠ a.buf) ∧
      (a.lib = .numpy → cupyAsarray M new (.array a) dtype = .ok r → r.buf ≠ a.buf) := by
  have key (b : Arr) (hb : b.buf = new) : (b.astype? M new dtype).buf = new := by
    cases dtype with
    | none => exact hb
    | some d =>
      simp only [Arr.astype?, Arr.astype]
      split
      · exact hb
      · rfl
  constructor <;> intro hl hr
  · simp only [numpyAsarray, hl] at hr
    have e : (a.get new).astype? M new dtype = r := Except.ok.inj hr
    rw [← e, key _ rfl]
    exact hnew
  · simp only [cupyAsarray, hl] at hr
    have e : ((a.toGpu M new).astype? M new dtype).astype? M new dtype = r := Except.ok.inj hr
    rw [← e, astype?_twice, key _ rfl]
    exact hnew

/-- C140: a tensor on a GPU, or one that requires gradients, is refused by `NumpyOps.asarray`. -/
theorem C140_refused (new : Nat) (a : Arr) (gpu grad : Bool) (dtype : Option DType) (h : gpu = true ∨ grad = true) :
    ∃ e, numpyAsarray M new (.tensor gpu grad a) dtype = .error e := by
  cases gpu <;> cases grad
  · simp at h
  all_goals exact ⟨_, rfl⟩

/-- C140, for backends that inherit `Ops.asarray`: data of numpy.  For tensors only if no other type is asked for; arrays of cupy are
refused. -/
theorem C140_base_partial (ok : Sane M) (new : Nat) {data : Data} {a : Arr} (t : Takes data a) (h : WellFormed a) (dtype : Option DType)
    (hn : a.lib = .numpy) (hd : data = .tensor false false a → dtype.getD a.dtype = a.dtype) :
    ∃ r, baseAsarray M new data dtype = .ok r ∧ Converted M .numpy dtype a r := by
  have own : Converted M .numpy dtype a (a.astype? M new dtype) := by
    rw [← hn]
    exact astype?_converted ok new h h (sameNumbers_refl ok h rfl rfl rfl) rfl dtype
  cases t with
  | array =>
    refine ⟨a.astype? M new dtype, ?_, own⟩
    simp only [baseAsarray, hn]
    cases dtype with
    | none => rfl
    | some d =>
      by_cases e : a.dtype = d
      · simp only [Arr.astype?, if_pos e, astype_self new a d e]
      · simp only [Arr.astype?, if_neg e]
  | tensor =>
    refine ⟨a, rfl, ?_⟩
    have e : a.astype? M new dtype = a := by
      cases dtype with
      | none => rfl
      | some d => exact astype_self new a d (hd rfl).symm
    rwa [e] at own
  | nested =>
    refine ⟨({ a with buf := new } : Arr).astype? M new dtype, rfl, ?_⟩
    rw [← hn]
    exact astype?_converted (b := { a with buf := new }) ok new h (wf_congr h rfl rfl rfl) (sameNumbers_refl ok h rfl rfl rfl) rfl dtype

/-- A machine for examples: numbers of other formats are cut to the bytes there are. -/
def exMachine (o : Order) : Machine := ⟨o, fun _ g n => n % 256 ^ g.2, fun _ => true⟩

def exInt32 : DType := ⟨.int, 4, .little⟩
def exInt16 : DType := ⟨.int, 2, .little⟩

/-- The numbers 1, 2, 258 as `int32`. -/
def exInts : Arr := ⟨.numpy, exInt32, [3], true, 0, [[1, 0, 0, 0], [2, 0, 0, 0], [2, 1, 0, 0]]⟩

theorem exMachine_sane (o : Order) : Sane (exMachine o) :=
  ⟨fun _ _ h => Nat.mod_eq_of_lt h, fun _ _ _ => Nat.mod_lt _ (by positivity)⟩

theorem exInts_wf : WellFormed exInts := by
  unfold WellFormed
  decide

/-- C140 is false of `Ops.asarray`: it ignores the type asked for if the data is a tensor. -/
theorem C140_base_wrong (M : Machine) (new : Nat) (a : Arr) (d : DType) :
    baseAsarray M new (.tensor false false a) (some d) = .ok a ∧ (a.dtype ≠ d → ∀ r, baseAsarray M new (.tensor false false a) (some d) = .ok r → r.dtype ≠ d) :=
  ⟨rfl, fun h r hr => by cases hr; exact h⟩

example : ∃ r, baseAsarray (exMachine .little) 1 (.tensor false false exInts) (some exInt16) = .ok r ∧ r.dtype = exInt32 := ⟨exInts, rfl, rfl⟩

/-- C140: a `dict` is taken for an array of cupy, and raises TypeError rather than ValueError. -/
theorem C140_mapping_wrong (M : Machine) (new : Nat) (dtype : Option DType) :
    numpyAsarray M new .mapping dtype = .error .typeError ∧ cupyAsarray M new .mapping dtype = .error .valueError := ⟨rfl, rfl⟩

/-! ### `as_contig` -/

/-- C140: `as_contig` gives a contiguous array of the type asked for with the shape and the numbers of the data, the data itself if
nothing is to be done.  (Not for arrays without dimensions that are converted.) -/
theorem C140_contig_partial (ok : Sane M) (new : Nat) {a : Arr} (h : WellFormed a) (dtype : Option DType)
    (hs : a.shape = [] → a.contig = true ∧ dtype.getD a.dtype = a.dtype) :
    Converted M a.lib dtype a (asContig M new a dtype) ∧ (asContig M new a dtype).contig = true ∧
      (a.contig = true → dtype.getD a.dtype = a.dtype → asContig M new a dtype = a) ∧
      (¬(a.contig = true ∧ dtype.getD a.dtype = a.dtype) → (asContig M new a dtype).buf = new) := by
  have hiff : (dtype = none ∨ dtype = some a.dtype) ↔ dtype.getD a.dtype = a.dtype := by cases dtype <;> simp
  by_cases hd : dtype.getD a.dtype = a.dtype
  · have conv (r : Arr) (hc : r.cells = a.cells) (hsh : r.shape = a.shape) (hdt : r.dtype = a.dtype) (hl : r.lib = a.lib) :
        Converted M a.lib dtype a r :=
      ⟨wf_congr h hc hsh hdt, hl, fun d e => by rw [e] at hd; exact hdt.trans hd.symm, fun _ => by rw [hdt], sameNumbers_refl ok h hc hsh hdt⟩
    by_cases hc : a.contig = true
    · have e : asContig M new a dtype = a := by simp only [asContig, hiff, hc, hd, and_self, if_true]
      rw [e]
      exact ⟨conv a rfl rfl rfl rfl, hc, fun _ _ => rfl, fun hn => absurd ⟨hc, hd⟩ hn⟩
    · have hne : a.shape ≠ [] := fun e => hc (hs e).1
      have e : asContig M new a dtype = { a with buf := new, contig := true } := by
        simp only [asContig, hiff, hc, hd, if_neg hne, if_true]
        simp
      rw [e]
      exact ⟨conv _ rfl rfl rfl rfl, rfl, fun h' => absurd h' hc, fun _ => rfl⟩
  · have hne : a.shape ≠ [] := fun e => hd (hs e).2
    have e : asContig M new a dtype =
        { a with dtype := dtype.getD a.dtype, buf := new, contig := true, cells := a.castCells M (dtype.getD a.dtype) } := by
      simp only [asContig, hiff, hd, if_neg hne]
      simp
    rw [e]
    refine ⟨⟨castCells_wf h _, rfl, fun d e => by rw [e]; rfl, fun e => absurd (by rw [e]; rfl) hd, rfl, castCells_numbers ok a _⟩, rfl,
      fun _ h' => absurd h' hd, fun _ => rfl⟩

/-- C140 is false of `as_contig` for an array without dimensions and another type: it gets a dimension. -/
theorem C140_contig_wrong (M : Machine) (new : Nat) (a : Arr) (d : DType) (hs : a.shape = []) (hd : a.dtype ≠ d) :
    (asContig M new a (some d)).shape = [1] := by
  simp [asContig, hs, Ne.symm hd]

example : (asContig (exMachine .little) 1 ⟨.numpy, exInt32, [], true, 0, [[7, 0, 0, 0]]⟩ (some exInt16)) =
    ⟨.numpy, exInt16, [1], true, 1, [[7, 0]]⟩ := by decide

/-! ### `to_numpy` and the bytes of a model -/

theorem newByteOrder_format (d : DType) (b : ByteOrder) : (d.newByteOrder M b).format = d.format := by
  unfold DType.newByteOrder
  split
  · rfl
  · cases b <;> rfl

theorem reorder_numbers (ok : Sane M) (new : Nat) {a : Arr} (h : WellFormed a) (b : Option ByteOrder) :
    WellFormed (a.reorder M new b) ∧ (a.reorder M new b).lib = a.lib ∧ (a.reorder M new b).shape = a.shape ∧
      (a.reorder M new b).dtype.format = a.dtype.format ∧ numbers (a.reorder M new b) = numbers a := by
  cases b with
  | none => exact ⟨h, rfl, rfl, rfl, rfl⟩
  | some b =>
    have n := astype_numbers ok new h (a.dtype.newByteOrder M b)
    have f : (a.astype M new (a.dtype.newByteOrder M b)).dtype.format = a.dtype.format := by
      rw [astype_dtype, newByteOrder_format]
    refine ⟨astype_wf new h _, astype_lib new a _, n.1, f, ?_⟩
    have := n.2
    rwa [f, map_conv_same ok h] at this

/-- C140: `to_numpy` gives an array of numpy with the numbers of the data, whatever the order of bytes. -/
theorem C140_to_numpy (ok : Sane M) (new : Nat) {a : Arr} (h : WellFormed a) (b : Option ByteOrder) :
    ∃ r, cupyToNumpy M new (.array a) b = .ok r ∧ WellFormed r ∧ r.lib = .numpy ∧ r.shape = a.shape ∧ r.dtype.format = a.dtype.format ∧
      numbers r = numbers a ∧ (a.lib = .numpy → toNumpy M new (.array a) b = .ok r) := by
  cases hl : a.lib with
  | numpy =>
    obtain ⟨h1, h2, h3⟩ := reorder_numbers ok new h b
    exact ⟨a.reorder M new b, by simp only [cupyToNumpy, hl], h1, h2.trans hl, h3.1, h3.2.1, h3.2.2, fun _ => by simp only [toNumpy, hl]⟩
  | cupy =>
    obtain ⟨h1, h2, h3⟩ := reorder_numbers (a := a.get new) ok new (wf_congr h rfl rfl rfl) b
    exact ⟨(a.get new).reorder M new b, by simp only [cupyToNumpy, hl], h1, h2, h3.1, h3.2.1, h3.2.2, fun e => by simp at e⟩

/-- The bytes of a well-formed array are its numbers, written in its order. -/
theorem tobytes_numbers {a : Arr} (h : WellFormed a) : tobytes a = (numbers a).flatMap (encode a.dtype.order a.dtype.size) := by
  have : a.cells = (numbers a).map (encode a.dtype.order a.dtype.size) := by
    simp only [numbers, List.map_map]
    conv_lhs => rw [← List.map_id a.cells]
    refine List.map_congr_left fun c hc => ?_
    have h1 := h.1 c hc
    have := encode_decode a.dtype.order c h1.2
    rw [h1.1] at this
    exact this.symm
  rw [tobytes, this, List.flatMap_def]

/-- C140: the bytes of an array that was converted with `byte_order="<"` are its numbers with the lowest byte first, on every machine and
whatever the order of the array was: machines of both kinds write the same bytes. -/
theorem C140_bytes (ok : Sane M) (new : Nat) {a : Arr} (h : WellFormed a) (hs : 1 < a.dtype.size) :
    ∃ r, cupyToNumpy M new (.array a) (some .little) = .ok r ∧ tobytes r = (numbers a).flatMap (toLittle a.dtype.size) := by
  obtain ⟨r, h1, h2, h3, h4, h5, h6, h7⟩ := C140_to_numpy ok new h (some .little)
  have ho : r.dtype.order = .little := by
    have key (c : Arr) (hc : c.dtype = a.dtype) : (c.reorder M new (some .little)).dtype.order = .little := by
      simp only [Arr.reorder, astype_dtype, DType.newByteOrder, hc]
      rw [if_neg (by omega)]
    cases hl : a.lib with
    | numpy =>
      simp only [cupyToNumpy, hl] at h1
      cases h1
      exact key a rfl
    | cupy =>
      simp only [cupyToNumpy, hl] at h1
      cases h1
      exact key (a.get new) rfl
  have hsz : r.dtype.size = a.dtype.size := congrArg Prod.snd h5
  refine ⟨r, h1, ?_⟩
  rw [tobytes_numbers h2, ho, hsz, h6]
  rfl

/-- C140: an array that is written by `to_bytes` on one machine and read by `from_bytes` on another, with any two backends, has the same
shape, format and numbers, and is written as the same bytes again. -/
theorem C140_machines {M₁ M₂ : Machine} (ok₁ : Sane M₁) (ok₂ : Sane M₂) (n₁ n₂ n₃ : Nat) {a : Arr} (h : WellFormed a) (hs : 1 < a.dtype.size)
    (gpu : Bool) :
    ∃ r s t, cupyToNumpy M₁ n₁ (.array a) (some .little) = .ok r ∧
      (if gpu then cupyAsarray else numpyAsarray) M₂ n₂ (.array r) none = .ok s ∧ s.shape = a.shape ∧ s.dtype.format = a.dtype.format ∧
      numbers s = numbers a ∧ cupyToNumpy M₂ n₃ (.array s) (some .little) = .ok t ∧ tobytes t = tobytes r := by
  obtain ⟨r, h1, h2, h3, h4, h5, h6, h7⟩ := C140_to_numpy ok₁ n₁ h (some .little)
  obtain ⟨r', e1, e2⟩ := C140_bytes ok₁ n₁ h hs
  rw [h1] at e1
  cases e1
  have : ∃ s, (if gpu then cupyAsarray else numpyAsarray) M₂ n₂ (.array r) none = .ok s ∧ ∃ lib, Converted M₂ lib none r s := by
    cases gpu
    · obtain ⟨s, g1, g2⟩ := C140_numpy ok₂ n₂ (.array r) h2 none
      exact ⟨s, g1, _, g2⟩
    · obtain ⟨s, g1, g2⟩ := C140_cupy ok₂ n₂ (.inl (.array r)) h2 none
      exact ⟨s, g1, _, g2⟩
  obtain ⟨s, g1, lib, g2⟩ := this
  have gf := g2.sameFormat rfl
  have gn : numbers s = numbers a := by
    rw [g2.sameNumbers.2, gf, map_conv_same ok₂ h2, h6]
  have gsz : s.dtype.size = a.dtype.size := congrArg Prod.snd (gf.trans h5)
  obtain ⟨t, t1, t2⟩ := C140_bytes ok₂ n₃ g2.wf (by rw [gsz]; exact hs)
  exact ⟨r, s, t, h1, g1, g2.sameNumbers.1.trans h4, gf.trans h5, gn, t1, by rw [t2, e2, gn, gsz]⟩

/-- C140: on a processor with the lowest byte first, an array of numpy in its order comes back the same (the hypothesis `SameArrays`
of C124). -/
theorem C140_same_arrays_partial (M : Machine) (n₁ n₂ : Nat) {a : Arr} (hl : a.lib = .numpy) (ho : a.dtype.order = .little) :
    ∃ r, toNumpy M n₁ (.array a) (some .little) = .ok r ∧ numpyAsarray M n₂ (.array r) none = .ok a := by
  have e : a.dtype.newByteOrder M .little = a.dtype := by
    unfold DType.newByteOrder
    split
    · rfl
    · simp only [← ho]
  refine ⟨a, ?_, ?_⟩
  · simp only [toNumpy, hl, Arr.reorder, e, astype_self n₁ a a.dtype rfl]
  · simp only [numpyAsarray, hl]; rfl

/-- C140 is false on a processor with the highest byte first: `from_bytes` does not convert the arrays back to its order, so that the
parameters that are read have another type than those that were written. -/
theorem C140_same_arrays_wrong (M : Machine) (n₁ n₂ : Nat) {a : Arr} (hl : a.lib = .numpy) (hs : 1 < a.dtype.size)
    (ho : a.dtype.order = .big) (ok : Sane M) (h : WellFormed a) :
    ∃ r s, toNumpy M n₁ (.array a) (some .little) = .ok r ∧ numpyAsarray M n₂ (.array r) none = .ok s ∧ s.dtype.order = .little ∧
      s.dtype ≠ a.dtype ∧ numbers s = numbers a := by
  have e : (a.reorder M n₁ (some .little)).dtype.order = .little := by
    simp only [Arr.reorder, astype_dtype, DType.newByteOrder]
    rw [if_neg (by omega)]
  obtain ⟨h1, h2, h3, h4, h5⟩ := reorder_numbers ok n₁ h (some .little)
  refine ⟨a.reorder M n₁ (some .little), a.reorder M n₁ (some .little), by simp only [toNumpy, hl], ?_, e, ?_, h5⟩
  · simp only [numpyAsarray, h2.trans hl]; rfl
  · intro h'
    rw [h', ho] at e
    cases e

/-! ### Instances -/

/-- The numbers of `exInts` with the highest byte first, not contiguous. -/
def exBig : Arr := ⟨.numpy, ⟨.int, 4, .big⟩, [3], false, 0, [[0, 0, 0, 1], [0, 0, 0, 2], [0, 0, 1, 2]]⟩

theorem exBig_wf : WellFormed exBig := by
  unfold WellFormed
  decide

example : numpyAsarray (exMachine .little) 1 (.array exBig) (some exInt16) = .ok ⟨.numpy, exInt16, [3], true, 1, [[1, 0], [2, 0], [2, 1]]⟩ := by decide
example : ∃ r, numpyAsarray (exMachine .little) 1 (.tensor false false exInts) (some exInt16) = .ok r ∧
    Converted (exMachine .little) .numpy (some exInt16) exInts r := C140_numpy (exMachine_sane _) 1 (.tensor _ rfl) exInts_wf _
example : ∃ r, cupyAsarray (exMachine .little) 1 (.array exBig) none = .ok r ∧ Converted (exMachine .little) .cupy none exBig r :=
  C140_cupy (exMachine_sane _) 1 (.inl (.array _)) exBig_wf _
example : cupyAsarray (exMachine .little) 1 (.array exBig) none = .ok { exInts with lib := .cupy, buf := 1 } := by decide
example : numpyAsarray (exMachine .little) 1 (.array exInts) (some exInt32) = .ok exInts := by decide
example : asContig (exMachine .big) 1 exBig none = { exBig with contig := true, buf := 1 } := by decide
example : toNumpy (exMachine .big) 1 (.array exBig) (some .little) = .ok { exInts with buf := 1 } := by decide
example : ∃ r s, toNumpy (exMachine .big) 1 (.array exBig) (some .little) = .ok r ∧ numpyAsarray (exMachine .big) 2 (.array r) none = .ok s ∧
    s.dtype.order = .little ∧ s.dtype ≠ exBig.dtype ∧ numbers s = numbers exBig :=
  C140_same_arrays_wrong _ 1 2 rfl (by decide) rfl (exMachine_sane _) exBig_wf
example := C140_machines (exMachine_sane .big) (exMachine_sane .little) 1 2 3 exBig_wf (by decide) true
example := C140_base_partial (exMachine_sane .big) 1 (.array exBig) exBig_wf (some exInt16) rfl (by simp)
example := C140_contig_partial (exMachine_sane .big) 1 exBig_wf (some exInt16) (by simp [exBig])
example := C140_numpy_memory (M := exMachine .big) (a := exBig) 1 rfl (by decide) (some exInt16) true
example := C140_cupy_memory (M := exMachine .big) (a := { exInts with lib := .cupy }) 1 rfl (by decide) none (some true)
example := C140_bytes (exMachine_sane .big) 1 exBig_wf (by decide)
example := C140_same_arrays_partial (exMachine .little) 1 2 (a := exInts) rfl rfl

end Thinc.ArrConv
