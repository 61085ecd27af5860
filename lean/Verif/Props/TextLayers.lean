import Verif.Model.TextLayers
import Verif.Spec.TextLayers
import Verif.Spec.Getitem
import Verif.Lemmas.Getitem
import Verif.Props.Uniqued
import Verif.Props.SeqLayersPadded
/-!
# C89: the first layers of a model for text
-/
namespace Thinc
open Spec Spec.Tensor

/-! ### Gradients of integer arrays -/

theorem joins_ids {n m : ℕ} (x : Fin n → Fin m → ℤ) : Joins Val.iadd (Kind.ids x) := by
  rintro _ _ _ _ ⟨A, rfl, rA, cA, hA⟩ ⟨B, rfl, rB, cB, hB⟩
  refine ⟨.intMat (Mat.ofFn A.rows A.cols fun i j => A.at i j + B.at i j), ?_, _, rfl, rA, cA, fun i j => ?_⟩
  · simp only [Val.iadd]
    rw [if_pos ⟨by omega, by omega⟩]
  · rw [ofFn_at _ _ _ _ _ (by omega), hA, hB]
    rfl

theorem addGradient_ids {n m : ℕ} (x : Fin n → Fin m → ℤ) : Joins addGradient (Kind.ids x) := by
  rintro v w a b ⟨A, rfl, hA⟩ hw
  exact joins_ids x _ w a b ⟨A, rfl, hA⟩ hw

section
variable {N : ℕ} {sh : Fin N → ℕ × ℕ} {train : Bool} {θ : Params sh} {n m : ℕ}

/-! ### Columns -/

/-- **C89**: a column of an integer array with at least one row, counted from the front or, if negative, from the end. -/
theorem C89_column (hn : 0 < n) (x : Fin n → Fin m → ℤ) {column : ℤ} {c : Fin m} (hc : IsPos m column c) (x₀ : Fin 0 → ℝ) :
    Exact (sh := sh) (intsGetitemColumn column) train (Kind.ids x) (Kind.ints (List.ofFn fun i => x i c)) (fun p => p.2) θ x₀ := by
  refine Exact.intro (IsVJP_snd (θ, x₀)) ?_
  rintro P _ hP ⟨A, rfl, rA, cA, hA⟩
  have hidx : npIndex A.cols column = .ok (c : ℕ) := by rw [cA]; exact (Getitem.npIndex_iff _ _ _).2 hc
  have hr' : A.rows ≠ 0 := by omega
  have hcolumn : A.column c = List.ofFn fun i => x i c := by
    refine List.ext_getElem (by simp [Mat.column, rA]) fun i h1 h2 => ?_
    simp only [List.length_ofFn] at h2
    simp only [Mat.column, List.getElem_map, List.getElem_range, List.getElem_ofFn]
    exact hA ⟨i, h2⟩ c
  apply ok_intro
  · simp only [intsGetitemColumn, hidx, hr', if_false, bind, Except.bind, pure, Except.pure]
    rfl
  · refine ⟨congrArg Val.ints hcolumn, ?_⟩
    rintro _ dy G g rfl hG
    refine ⟨.intMat (Mat.ofFn A.rows A.cols fun _ _ => 0), G, ?_, ⟨_, rfl, rA, cA, fun i j => ?_⟩, by simpa using hG⟩
    · have hl : ((List.ofFn fun i => x i c).map fun _ => (0 : ℤ)).length = A.rows := by simp [rA]
      simp only [Val.asInts, hl, not_true_eq_false, ne_eq, if_false]
      congr 4
      funext i j
      split
      · simp only [List.getD_eq_getElem?_getD, List.getElem?_map]
        cases (List.ofFn fun i => x i c)[i]? <;> rfl
      · rfl
    · rw [ofFn_at _ _ _ _ _ (by omega)]
      rfl

/-- **C89**: `Embed(column=column)` looks the column up in its table. -/
theorem C89_embed_column (hn : 0 < n) (x : Fin n → Fin m → ℤ) {column : ℤ} {c : Fin m} (hc : IsPos m column c) {V O : ℕ}
    (E : Fin N) (hE : sh E = (V, O)) (dropout : Option ℝ) (coinflips : ℕ → ℕ → ℝ) (fast : Bool) (row : Fin n → Fin V)
    (hrow : ∀ i, x i c = ((row i : ℕ) : ℤ)) (x₀ : Fin 0 → ℝ) :
    Exact (embedColumn column E dropout coinflips fast) train (Kind.ids x) (Kind.arr n O)
      (fun p i j => p.1.get E hE (row i) j * embedFactor train dropout coinflips j) θ x₀ := by
  have h1 := C89_column (train := train) (θ := θ) hn x hc x₀
  rw [show (fun i => x i c) = fun i => ((row i : ℕ) : ℤ) from funext hrow] at h1
  exact C51_chain (ExactChain.cons h1 (ExactChain.one (C58_embed_partial E hE dropout coinflips fast train row θ x₀)))

/-- HashEmbed on ids that are given by their positions. -/
theorem hashEmbed_ofFn (hn : 0 < n) {V O : ℕ} (hV : 0 < V) (hO : 0 < O) (ks : Fin n → ℤ) (E : Fin N) (hE : sh E = (V, O))
    (seed : BitVec 32) (dropout : Option ℝ) (coinflips : ℕ → ℕ → ℝ) (fast : Bool) (x₀ : Fin 0 → ℝ) :
    Exact (hashEmbed E seed dropout coinflips fast) train (Kind.ints (List.ofFn ks)) (Kind.arr n O)
      (fun p i j => (∑ k, p.1.get E hE (hashRow hV seed (ks i) k) j) * embedFactor train dropout coinflips j) θ x₀ := by
  have key : ∀ (ids : List ℤ) (n : ℕ) (ks : Fin n → ℤ) (hl : ids.length = n), 0 < n → (∀ i : Fin n, ids[(i : ℕ)]'(by omega) = ks i) →
      Exact (hashEmbed E seed dropout coinflips fast) train (Kind.ints ids) (Kind.arr n O)
      (fun p i j => (∑ k, p.1.get E hE (hashRow hV seed (ks i) k) j) * embedFactor train dropout coinflips j) θ x₀ := by
    rintro ids _ ks rfl h0 h
    obtain rfl : ks = fun i : Fin ids.length => ids[i] := funext fun i => (h i).symm
    exact C58_hash_embed_partial hV hO ids (by rintro rfl; simp at h0) E hE seed dropout coinflips fast train θ x₀
  exact key _ n ks (by simp) hn fun i => by simp

/-- **C89**: `HashEmbed(column=column)` adds up the four rows of its table to which the entry of the column is hashed. -/
theorem C89_hash_embed_column (hn : 0 < n) (x : Fin n → Fin m → ℤ) {column : ℤ} {c : Fin m} (hc : IsPos m column c) {V O : ℕ}
    (hV : 0 < V) (hO : 0 < O) (E : Fin N) (hE : sh E = (V, O)) (seed : BitVec 32) (dropout : Option ℝ) (coinflips : ℕ → ℕ → ℝ)
    (fast : Bool) (x₀ : Fin 0 → ℝ) :
    Exact (hashEmbedColumn column E seed dropout coinflips fast) train (Kind.ids x) (Kind.arr n O)
      (fun p i j => (∑ k, p.1.get E hE (hashRow hV seed (x i c) k) j) * embedFactor train dropout coinflips j) θ x₀ :=
  C51_chain (ExactChain.cons (C89_column hn x hc x₀)
    (ExactChain.one (hashEmbed_ofFn hn hV hO (fun i => x i c) E hE seed dropout coinflips fast x₀)))

/-- **C89**: layers for different features side by side. -/
theorem C89_concatenate {x : Fin n → Fin m → ℤ} {x₀ : Fin 0 → ℝ} {Ls : List Layer} {w : ℕ}
    {f : Params sh × (Fin 0 → ℝ) → Fin n → Fin w → ℝ} (h : ExactColumns train θ n (Kind.ids x) (Kind.arr n) x₀ Ls w f) :
    Exact (concatenate Ls) train (Kind.ids x) (Kind.arr n w) f θ x₀ :=
  concat_arrays (addGradient_ids x) h

/-- **C89**: the sum of layers for different features. -/
theorem C89_add {x : Fin n → Fin m → ℤ} {x₀ : Fin 0 → ℝ} {Ls : List Layer} (hLs : Ls ≠ []) {w : ℕ}
    {fs : List (Params sh × (Fin 0 → ℝ) → Fin n → Fin w → ℝ)}
    (h : List.Forall₂ (fun L f => Exact L train (Kind.ids x) (Kind.arr n w) f θ x₀) Ls fs) :
    Exact (addLayers Ls) train (Kind.ids x) (Kind.arr n w) (fun p => (fs.map fun f => f p).sum) θ x₀ :=
  add_exact (joins_ids x) hLs h

/-! ### with_array -/

theorem mapM_asIntMat (As : List (Mat ℤ)) : (As.map Val.intMat).mapM Val.asIntMat = .ok As := by
  induction As with
  | nil => rfl
  | cons A As ih => rw [List.map_cons, List.mapM_cons, ih]; rfl

theorem intArrays_of {v : Val} {ls : List ℕ} {x : Fin ls.sum → Fin m → ℤ} {x₀ : Fin 0 → ℝ} (h : (Kind.idSeqs ls x).val v x₀) :
    ∃ seqs, v.intArrays = .ok (asList m seqs) ∧ SeqRows seqs ls x := by
  obtain ⟨As, rfl, hA⟩ := h
  obtain ⟨seqs, e, hs⟩ := parts_of hA
  refine ⟨seqs, ?_, hs⟩
  simp only [Val.intArrays, Val.items, bind, Except.bind, mapM_asIntMat, pure, Except.pure, e]

/-- **C89**: `with_array(layer, pad=pad)` on a list of integer arrays: the layer sees all the rows one after the other, with `pad`
rows of zeros before each array and after the last one, and its output for these is dropped. -/
theorem C89_with_array {ls : List ℕ} {k : ℕ} (hm : 0 < m) (hk : 0 < k) (hne : ls ≠ []) (pad : ℕ)
    (place : Fin ls.sum → Fin (blankedRows pad ls)) (hplace : ∀ r, (place r : ℕ) = blankedPlace pad ls r) {L : Layer}
    {f : Params sh × (Fin 0 → ℝ) → Fin (blankedRows pad ls) → Fin k → ℝ} {x : Fin ls.sum → Fin m → ℤ} {x₀ : Fin 0 → ℝ}
    (h : Exact L train (Kind.ids (spread place x)) (Kind.arr (blankedRows pad ls) k) f θ x₀) :
    Exact (withArrayIdsL L pad) train (Kind.idSeqs ls x) (Kind.seqs ls k) (fun p => collect place (f p)) θ x₀ := by
  obtain rfl : place = blankedAt pad ls := funext fun r => Fin.ext (hplace r)
  refine exact_wrap (A := fun x => x) (B := collect (blankedAt pad ls)) (IsVJP_id x₀) (IsVJP_collect _ _) h fun P v hv => ?_
  obtain ⟨seqs, e1, hs⟩ := intArrays_of hv
  refine ⟨.intMat (Arr.toMat ⟨[m], rowsOf (spread (blankedAt pad ls) x)⟩), ⟨_, rfl, toMat_of _⟩, ?_⟩
  rintro y cb ey ⟨Y, rfl, hY⟩
  obtain ⟨yseqs, e2, hy⟩ := unflatten_pad_of pad ls (f (θ, x₀))
  apply Exists.intro
  apply Exists.intro
  refine ⟨?_, ofArrays_of hy, ?_⟩
  · simp only [withArrayIdsL, e1, bind, Except.bind, flatten_pad_of hm pad hs hne, lens_asList hs, ey, Val.asArr, toArr_of hY, e2,
      pure, Except.pure]
    rfl
  · intro dv dy G hdv
    obtain ⟨dseqs, e3, hds⟩ := arrays_of (hdv : (Kind.seqs ls k).val dv dy)
    refine ⟨.arr (Arr.toMat ⟨[k], rowsOf (spread (blankedAt pad ls) dy)⟩), ⟨_, rfl, toMat_of _⟩, ?_⟩
    rintro dx dxe G' ec ⟨D, rfl, hD⟩
    obtain ⟨xseqs, e4, hx⟩ := unflatten_pad_of pad ls (0 : Fin (blankedRows pad ls) → Fin m → ℤ)
    refine ⟨.list ((asList m xseqs).map fun x => .intMat x.toMat), ?_, _, by rw [List.map_map]; rfl, parts_toMat hx⟩
    simp only [e3, flatten_pad_of hk pad hds hne, ec, Val.unflatten, toArr_of hD, e4, Except.map]

end
end Thinc
