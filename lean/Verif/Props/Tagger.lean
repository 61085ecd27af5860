import Verif.Props.TextLayers
import Verif.Props.SequenceLoss
import Verif.Props.Training
import Verif.Props.WindowLayer
import Verif.Props.Dense
import Verif.Props.PoolLayers
/-!
# C89, continued: training a tagger
-/
namespace Thinc
open Spec Spec.Tensor

/-! ### Losses of sequences -/

/-- `SequenceCategoricalCrossentropy.get_grad` on the output of a model. -/
noncomputable def seqCceGrad (s : SeqCCE) (truths : List Truths) (Y : Val) : Except PyErr Val := do
  let Ys ← Y.items
  let Ys ← Ys.mapM Val.asArr
  return .list ((← s.getGrad Ys truths).map .arr)

/-- The gradient for a row. -/
noncomputable def tagRowGrad {k : ℕ} (target : Option (Fin k → ℝ)) (p : Fin k → ℝ) (j : Fin k) : ℝ :=
  match target with
  | none => 0
  | some t => p j - t j

theorem tagTarget_missing {k : ℕ} {missing : Missing} {s : ℝ} {t : ℤ} (h : missing = .int t) : tagTarget k missing s t = none := if_pos h

theorem tagTarget_label {k : ℕ} {missing : Missing} {s : ℝ} {t : ℤ} (h : missing ≠ .int t) :
    tagTarget k missing s t = some fun j : Fin k => smoothed k s t.toNat j := if_neg h

section
variable {ls : List ℕ} {k : ℕ} {normalize : Bool} {names : Option (List PyStr)} {missing : Missing} {negPrefix : Option PyStr}
  {smoothing : ℝ} {tag : Fin ls.sum → ℤ} {truths : List Truths}

theorem seqCce_parts (hs : validSmoothing k smoothing)
    (hn : (CCE.mk false names missing negPrefix smoothing).namesFit k)
    (htag : ∀ r, (0 ≤ tag r ∧ tag r < k) ∨ (missing = .int (tag r) ∧ -(k : ℤ) ≤ tag r ∧ tag r < k))
    (htruths : IsTags truths ls tag) (z : Fin ls.sum → Fin k → ℝ) {Ys : List (Mat ℝ)} (hY : IsParts Ys ls fun r => Spec.softmax (z r)) :
    ∃ Ds, (SeqCCE.init normalize names missing negPrefix smoothing).getGrad Ys truths = .ok Ds ∧
      IsParts Ds ls fun r j => tagRowGrad (tagTarget k missing smoothing (tag r)) (Spec.softmax (z r)) j /
        if normalize then (ls.length : ℝ) else 1 := by
  obtain ⟨hl, hc, hx⟩ := hY
  obtain ⟨ht1, ht2⟩ := htruths
  have hlen : Ys.length = ls.length := by rw [← hl]; simp
  have hrow : ∀ b (hb : b < Ys.length), Ys[b].rows = ls[b] := fun b hb => by simp [← hl]
  have hin : ∀ b (hb : b < Ys.length) r, r < Ys[b].rows → (ls.take b).sum + r < ls.sum := fun b hb r hr => by
    have := take_sum_le ls b (by omega)
    have := hrow b hb
    omega
  have key : ∀ b : Fin Ys.length, ∃ D, (CCE.mk false names missing negPrefix smoothing).getGrad Ys[b] (truths[b]'(by omega)) = .ok D ∧
      D.rows = Ys[b].rows ∧ D.cols = k ∧ ∀ (r : ℕ) (hr : r < Ys[b].rows) (j : Fin k),
        D.at r j = tagRowGrad (tagTarget k missing smoothing (tag ⟨_, hin b b.2 r hr⟩)) (Spec.softmax (z ⟨_, hin b b.2 r hr⟩)) j := by
    intro b
    have hcb : Ys[b].cols = k := hc _ (List.getElem_mem b.2)
    obtain ⟨ts, e1, e2, e3⟩ := ht2 b (by omega) (by omega)
    have hbr := hrow b b.2
    have htsl : ts.length = Ys[b].rows := by
      rw [e2]; exact hbr.symm
    have hp : isProb Ys[b] := by
      intro r hr j hj
      rw [hcb] at hj
      have e := hx b b.2 r ⟨_, hin b b.2 r hr⟩ ⟨j, hj⟩ hr rfl
      have : Nonempty (Fin k) := ⟨⟨j, hj⟩⟩
      have e' : (Ys[b]).at r j = Spec.softmax (z ⟨_, hin b b.2 r hr⟩) ⟨j, hj⟩ := e
      rw [e']
      refine ⟨(specSoftmax_pos _ _).le, ?_⟩
      rw [← specSoftmax_sum (z ⟨_, hin b b.2 r hr⟩)]
      exact Finset.single_le_sum (f := fun j => Spec.softmax (z ⟨_, hin b b.2 r hr⟩) j) (fun j _ => (specSoftmax_pos _ j).le) (Finset.mem_univ _)
    obtain ⟨D, d1, d2, d3, d4⟩ := C46_int_labels_partial (CCE.mk false names missing negPrefix smoothing) Ys[b]
      ⟨by rw [hcb]; exact hs, by rw [hcb]; exact hn, hp⟩ ts htsl (by
        intro y hy
        obtain ⟨r, hr, rfl⟩ := List.getElem_of_mem hy
        have := htag ⟨_, hin b b.2 r (by omega)⟩
        rw [← e3 r hr _ rfl] at this
        rw [hcb]
        exact this) _ e1
    refine ⟨D, d1, d2, d3.trans hcb, fun r hr j => ?_⟩
    obtain ⟨f1, f2⟩ := d4 r (by omega) j (by rw [hcb]; exact j.2)
    have et := e3 r (by omega) ⟨_, hin b b.2 r hr⟩ rfl
    rw [et] at f1 f2
    by_cases hm : missing = .int (tag ⟨_, hin b b.2 r hr⟩)
    · rw [tagTarget_missing hm, f1 hm]
      rfl
    · have e : (Ys[b]).at r j = Spec.softmax (z ⟨_, hin b b.2 r hr⟩) j := hx b b.2 r ⟨_, hin b b.2 r hr⟩ j hr rfl
      rw [tagTarget_label hm, f2 hm, e, hcb]
      simp [tagRowGrad, CCE.divisor]
  choose D hD using key
  obtain ⟨Ds, l, g1, -, -, g4, g5, -⟩ := C47_gradients normalize names missing negPrefix smoothing Ys truths (List.ofFn D) (by omega) (by simp)
    (fun i hi => by simpa using (hD ⟨i, hi⟩).1)
  have hcols : ∀ i (hi : i < Ys.length), Ds[i].rows = Ys[i].rows ∧ Ds[i].cols = k := fun i hi => by
    obtain ⟨a, b, -⟩ := g5 i hi
    simp only [List.getElem_ofFn] at a b
    exact ⟨a.trans (hD ⟨i, hi⟩).2.1, b.trans (hD ⟨i, hi⟩).2.2.1⟩
  refine ⟨Ds, g1, ?_, ?_, ?_⟩
  · rw [← hl]
    refine List.ext_getElem (by simpa using g4) fun i h1 h2 => ?_
    simp only [List.getElem_map]
    exact (hcols i (by simpa using h2)).1
  · intro A hA
    obtain ⟨i, hi, rfl⟩ := List.getElem_of_mem hA
    exact (hcols i (by omega)).2
  · intro b hb r i j hr hi
    have hb' : b < Ys.length := by omega
    have hr' : r < Ys[b].rows := by rw [← (hcols b hb').1]; exact hr
    obtain ⟨-, -, c⟩ := g5 b hb'
    simp only [List.getElem_ofFn] at c
    rw [c r (by rw [(hD ⟨b, hb'⟩).2.1]; exact hr') j (by rw [(hD ⟨b, hb'⟩).2.2.1]; exact j.2), (hD ⟨b, hb'⟩).2.2.2 r hr' j]
    obtain rfl : i = ⟨_, hin b hb' r hr'⟩ := Fin.ext hi
    have hcast : (Ys.length : ℝ) = ls.length := by rw [hlen]
    simp only [hcast]

theorem IsVJP_tagLoss (hs : validSmoothing k smoothing)
    (htag : ∀ r, (0 ≤ tag r ∧ tag r < k) ∨ (missing = .int (tag r) ∧ -(k : ℤ) ≤ tag r ∧ tag r < k))
    (z : Fin ls.sum → Fin k → ℝ) :
    IsVJP (tagLoss ls normalize missing smoothing tag) z (fun dl r j => dl *
      (tagRowGrad (tagTarget k missing smoothing (tag r)) (Spec.softmax (z r)) j / if normalize then (ls.length : ℝ) else 1)) := by
  have h1 := IsVJP_batchXent (CCE.mk false none .none none 0) (fun r => tagTarget k missing smoothing (tag r)) z (by
    intro r t ht
    by_cases hm : missing = .int (tag r)
    · rw [tagTarget_missing hm] at ht; simp at ht
    · rw [tagTarget_label hm] at ht
      obtain rfl := Option.some.inj ht
      rw [Fin.sum_univ_eq_sum_range (fun j => smoothed k smoothing (tag r).toNat j)]
      refine smoothed_sum k smoothing _ ?_ ?_
      · rcases htag r with h | h
        · omega
        · exact absurd h.1 hm
      · rcases hs with h | h
        · exact Or.inl h.1
        · exact Or.inr h.2.1)
  have h2 : IsVJP (fun y : ℝ => y / if normalize then (ls.length : ℝ) else 1)
      (batchXent (CCE.mk false none .none none 0) (fun r => tagTarget k missing smoothing (tag r)) z)
      (fun dl => dl / if normalize then (ls.length : ℝ) else 1) := by
    refine IsVJP_linear' (fun x y => add_div _ _ _) (fun a x => ?_) fun dy v => ?_
    · simp [mul_div_assoc]
    · simp only [dot_real]; ring
  refine IsVJP_congr₂ (IsVJP_comp h2 h1) (fun y => ?_) fun dl => ?_
  · simp only [tagLoss, batchXent, CCE.divisor, Bool.false_eq_true, if_false, div_one]
    congr 1
  · funext r j
    simp only [CCE.divisor, Bool.false_eq_true, if_false, div_one, tagRowGrad]
    cases tagTarget k missing smoothing (tag r) <;> simp
    rw [div_mul_eq_mul_div, mul_div_assoc]

end

/-! ### Training through with_array -/

/-- The loss of the parts of an array: the array is cut into its sequences, and the gradients are put together. -/
noncomputable def stackedGrad (lossGrad : Val → Except PyErr Val) (ls : List ℕ) (pad : ℕ) (Yf : Val) : Except PyErr Val := do
  let Ys ← opsUnflatten (← Yf.asArr).toArr ls pad
  let D ← lossGrad (Val.ofArrays Ys)
  let dYf ← opsFlatten (← D.arrays) pad
  return .arr dYf.toMat

theorem stackedGrad_ok {lossGrad : Val → Except PyErr Val} {ls : List ℕ} {pad : ℕ} {Yf D : Val}
    (h : stackedGrad lossGrad ls pad Yf = .ok D) : ∃ A Ys E Es F, Yf = .arr A ∧ opsUnflatten A.toArr ls pad = .ok Ys ∧
      lossGrad (Val.ofArrays Ys) = .ok E ∧ E.arrays = .ok Es ∧ opsFlatten Es pad = .ok F ∧ D = .arr F.toMat := by
  cases Yf with
  | arr A =>
    simp only [stackedGrad, Val.asArr, bind, Except.bind, pure, Except.pure] at h
    cases h1 : opsUnflatten A.toArr ls pad with
    | error e => rw [h1] at h; simp at h
    | ok Ys =>
      rw [h1] at h
      simp only at h
      cases h2 : lossGrad (Val.ofArrays Ys) with
      | error e => rw [h2] at h; simp at h
      | ok E =>
        rw [h2] at h
        simp only at h
        cases h3 : E.arrays with
        | error e => rw [h3] at h; simp at h
        | ok Es =>
          rw [h3] at h
          simp only at h
          cases h4 : opsFlatten Es pad with
          | error e => rw [h4] at h; simp at h
          | ok F =>
            rw [h4] at h
            exact ⟨A, Ys, E, Es, F, rfl, h1, h2, h3, h4, (Except.ok.inj h).symm⟩
  | _ => simp [stackedGrad, Val.asArr, bind, Except.bind] at h

section
variable {N : ℕ} {sh : Fin N → ℕ × ℕ} {train : Bool} {θ : Params sh} {ls : List ℕ} {m k : ℕ}

/-- **C89**: training through `with_array` is training the layer on all rows at once. -/
theorem C89_with_array_trains (hm : 0 < m) (hne : ls ≠ []) (pad : ℕ) (place : Fin ls.sum → Fin (blankedRows pad ls))
    (hplace : ∀ r, (place r : ℕ) = blankedPlace pad ls r) {L : Layer} {lossGrad : Val → Except PyErr Val}
    {ℓ : Params sh × (Fin 0 → ℝ) → ℝ} {x : Fin ls.sum → Fin m → ℤ} {x₀ : Fin 0 → ℝ}
    (h : Trains L train (Kind.ids (spread place x)) (stackedGrad lossGrad ls pad) ℓ θ x₀) :
    Trains (withArrayIdsL L pad) train (Kind.idSeqs ls x) lossGrad ℓ θ x₀ := by
  obtain rfl : place = blankedAt pad ls := funext fun r => Fin.ext (hplace r)
  intro P v hP hv
  obtain ⟨seqs, e1, hs⟩ := intArrays_of hv
  obtain ⟨Y, cb, D, back, e, eD, hb, hc⟩ := h P (.intMat (Arr.toMat ⟨[m], rowsOf (spread (blankedAt pad ls) x)⟩)) hP
    ⟨_, rfl, toMat_of _⟩
  obtain ⟨A, Ys, E, Es, F, rfl, h1, h2, h3, h4, rfl⟩ := stackedGrad_ok eD
  apply Exists.intro
  apply Exists.intro
  refine ⟨E, back, ?_, h2, hb, ?_⟩
  · simp only [withArrayIdsL, e1, bind, Except.bind, flatten_pad_of hm pad hs hne, lens_asList hs, e, Val.asArr, h1, pure, Except.pure]
    rfl
  · intro G g hG
    obtain ⟨dv, G', ec, ⟨Z, rfl, hZ⟩, hG'⟩ := hc G g hG
    obtain ⟨xseqs, e4, hx⟩ := unflatten_pad_of pad ls (0 : Fin (blankedRows pad ls) → Fin m → ℤ)
    refine ⟨.list ((asList m xseqs).map fun x => .intMat x.toMat), G', ?_, ⟨_, by rw [List.map_map]; rfl, parts_toMat hx⟩, hG'⟩
    simp only [h3, h4, ec, Val.unflatten, toArr_of hZ, e4, Except.map]

/-- The same for sequences of floats. -/
theorem C89_with_array_floats_trains (hm : 0 < m) (hne : ls ≠ []) (pad : ℕ) (place : Fin ls.sum → Fin (blankedRows pad ls))
    (hplace : ∀ r, (place r : ℕ) = blankedPlace pad ls r) {L : Layer} {lossGrad : Val → Except PyErr Val}
    {ℓ : Params sh × (Fin (blankedRows pad ls) → Fin m → ℝ) → ℝ} {x : Fin ls.sum → Fin m → ℝ}
    (h : Trains L train (Kind.arr (blankedRows pad ls) m) (stackedGrad lossGrad ls pad) ℓ θ (spread place x)) :
    Trains (withArray2dL L pad) train (Kind.seqs ls m) lossGrad (fun p => ℓ (p.1, spread place p.2)) θ x := by
  obtain rfl : place = blankedAt pad ls := funext fun r => Fin.ext (hplace r)
  intro P v hP hv
  obtain ⟨seqs, e1, hs⟩ := arrays_of hv
  obtain ⟨Y, cb, D, back, e, eD, hb, hc⟩ := h P (.arr (Arr.toMat ⟨[m], rowsOf (spread (blankedAt pad ls) x)⟩)) hP
    ⟨_, rfl, toMat_of _⟩
  obtain ⟨A, Ys, E, Es, F, rfl, h1, h2, h3, h4, rfl⟩ := stackedGrad_ok eD
  have hd : withArray2dL L pad train P v = withArrayListL L pad train P v := by
    obtain ⟨As, rfl, _⟩ := hv
    rfl
  have h0 : IsVJP (fun p : Params sh × (Fin ls.sum → Fin m → ℝ) => (p.1, spread (blankedAt pad ls) p.2)) (θ, x)
      (fun dy => (dy.1, collect (blankedAt pad ls) dy.2)) := by
    refine IsVJP_congr₂ (IsVJP_prod (IsVJP_fst (θ, x)) (IsVJP_comp (f := fun p : Params sh × (Fin ls.sum → Fin m → ℝ) => p.2)
      (IsVJP_spread (blankedAt pad ls) x) (IsVJP_snd (θ, x)))) (fun _ => rfl) fun dy => ?_
    simp
  rw [hd]
  apply Exists.intro
  apply Exists.intro
  refine ⟨E, _, ?_, h2, IsVJP_comp hb h0, ?_⟩
  · simp only [withArrayListL, e1, bind, Except.bind, flatten_pad_of hm pad hs hne, lens_asList hs, e, Val.asArr, h1, pure, Except.pure]
    rfl
  · intro G g hG
    obtain ⟨dv, G', ec, ⟨Z, rfl, hZ⟩, hG'⟩ := hc G g hG
    obtain ⟨xseqs, e4, hx⟩ := unflatten_pad_of pad ls (back 1).2
    refine ⟨Val.ofArrays (asList m xseqs), G', ?_, ofArrays_of hx, hG'⟩
    simp only [h3, h4, ec, Val.asArr, toArr_of hZ, e4]

section
variable {normalize : Bool} {names : Option (List PyStr)} {missing : Missing} {negPrefix : Option PyStr}
  {smoothing : ℝ} {tag : Fin ls.sum → ℤ} {truths : List Truths}

/-- Softmax on the rows of all sequences, trained with the loss of the sequences. -/
theorem softmax_stacked_trains (W b : Fin N) (hW : sh W = (k, m)) (hb : sh b = (1, k)) (hk : 0 < k) {normalizeOut : Bool} {T : ℝ}
    (hT : 0 < T) (hnt : (normalizeOut || train) = true) (hne : ls ≠ []) (pad : ℕ) (place : Fin ls.sum → Fin (blankedRows pad ls))
    (hplace : ∀ r, (place r : ℕ) = blankedPlace pad ls r) (hs : validSmoothing k smoothing)
    (hn : (CCE.mk false names missing negPrefix smoothing).namesFit k)
    (htag : ∀ r, (0 ≤ tag r ∧ tag r < k) ∨ (missing = .int (tag r) ∧ -(k : ℤ) ≤ tag r ∧ tag r < k))
    (htruths : IsTags truths ls tag) (x : Fin (blankedRows pad ls) → Fin m → ℝ) :
    Trains (softmaxLayer W b normalizeOut T) train (Kind.arr (blankedRows pad ls) m)
      (stackedGrad (seqCceGrad (SeqCCE.init normalize names missing negPrefix smoothing) truths) ls pad)
      (fun p => tagLoss ls normalize missing smoothing tag fun r j => affine p.2 (p.1.get W hW) (p.1.vec b hb) (place r) j / T) θ x := by
  obtain rfl : place = blankedAt pad ls := funext fun r => Fin.ext (hplace r)
  refine softmax_trains W b hW hb hk hT hnt θ x
    (ℓ := fun Z => tagLoss ls normalize missing smoothing tag (collect (blankedAt pad ls) Z))
    (d := spread (blankedAt pad ls) fun r j => tagRowGrad (tagTarget k missing smoothing (tag r)) (Spec.softmax fun j =>
      affine x (θ.get W hW) (θ.vec b hb) (blankedAt pad ls r) j / T) j / if normalize then (ls.length : ℝ) else 1) ?_ ?_
  · intro Y hY
    obtain ⟨yseqs, e2, hy⟩ := unflatten_pad_of pad ls (fun (i : Fin (blankedRows pad ls)) =>
      Spec.softmax fun j => affine x (θ.get W hW) (θ.vec b hb) i j / T)
    obtain ⟨Ds, e3, hD⟩ := seqCce_parts (normalize := normalize) (negPrefix := negPrefix) hs hn htag htruths
      (fun r j => affine x (θ.get W hW) (θ.vec b hb) (blankedAt pad ls r) j / T) (parts_toMat hy)
    obtain ⟨dseqs, e4, hds⟩ := arrays_of (v := .list (Ds.map .arr)) ⟨Ds, rfl, hD⟩
    refine ⟨_, ?_, toMat_of _⟩
    have e5 : seqCceGrad (SeqCCE.init normalize names missing negPrefix smoothing) truths (Val.ofArrays (asList k yseqs)) =
        .ok (.list (Ds.map .arr)) := by
      have e6 : Val.ofArrays (asList k yseqs) = .list (((asList k yseqs).map Arr.toMat).map .arr) := by
        unfold Val.ofArrays; rw [List.map_map]; rfl
      rw [e6]
      simp only [seqCceGrad, Val.items, bind, Except.bind, mapM_asArr, e3, pure, Except.pure]
    simp only [stackedGrad, Val.asArr, bind, Except.bind, toArr_of hY, e2, e5, e4, flatten_pad_of hk pad hds hne, pure, Except.pure]
  · refine IsVJP_congr₂ (IsVJP_comp (f := collect (blankedAt pad ls)) (IsVJP_tagLoss (normalize := normalize) hs htag _)
      (IsVJP_collect (blankedAt pad ls) _)) (fun _ => rfl) fun dl => ?_
    funext i j
    simp only [spread, Finset.mul_sum, mul_ite, mul_zero]
    rfl

/-- **C89**: a tagger.  Layers for integer features and, after them, Softmax, all inside `with_array` and trained with
`SequenceCategoricalCrossentropy`: the gradient of the mean (or sum) over the sequences of the cross entropies of all their tokens
is added to the gradients of all parameters. -/
theorem C89_tagger {n : ℕ} (W b : Fin N) (hW : sh W = (k, n)) (hb : sh b = (1, k)) (hm : 0 < m) (hk : 0 < k) {normalizeOut : Bool} {T : ℝ}
    (hT : 0 < T) (hnt : (normalizeOut || train) = true) (hne : ls ≠ []) (pad : ℕ) (place : Fin ls.sum → Fin (blankedRows pad ls))
    (hplace : ∀ r, (place r : ℕ) = blankedPlace pad ls r) (hs : validSmoothing k smoothing)
    (hn : (CCE.mk false names missing negPrefix smoothing).namesFit k)
    (htag : ∀ r, (0 ≤ tag r ∧ tag r < k) ∨ (missing = .int (tag r) ∧ -(k : ℤ) ≤ tag r ∧ tag r < k))
    (htruths : IsTags truths ls tag) {x : Fin ls.sum → Fin m → ℤ} {x₀ : Fin 0 → ℝ} {Ls : List Layer}
    {f : Params sh × (Fin 0 → ℝ) → Fin (blankedRows pad ls) → Fin n → ℝ}
    (hL : ExactChain train θ Ls (Kind.ids (spread place x)) (Kind.arr (blankedRows pad ls) n) f x₀) :
    Trains (withArrayIdsL (chain (Ls ++ [softmaxLayer W b normalizeOut T])) pad) train (Kind.idSeqs ls x)
      (seqCceGrad (SeqCCE.init normalize names missing negPrefix smoothing) truths)
      (fun p => tagLoss ls normalize missing smoothing tag fun r j => affine (f p) (p.1.get W hW) (p.1.vec b hb) (place r) j / T)
      θ x₀ :=
  C89_with_array_trains hm hne pad place hplace
    (C73_chain (ℓ := fun p => tagLoss ls normalize missing smoothing tag fun r j =>
        affine p.2 (p.1.get W hW) (p.1.vec b hb) (place r) j / T) hL
      (softmax_stacked_trains W b hW hb hk hT hnt hne pad place hplace hs hn htag htruths _))
end

/-- **C89**: a classifier.  A model that turns each token into a vector, the mean of the vectors of each text, and Softmax, trained
with `CategoricalCrossentropy` on one label for each text. -/
theorem C89_classifier {n : ℕ} (W b : Fin N) (hW : sh W = (k, n)) (hb : sh b = (1, k)) (hn : 0 < n) (hk : 0 < k) {normalizeOut : Bool}
    {T : ℝ} (hT : 0 < T) (hnt : (normalizeOut || train) = true) (hls : 0 < ls.sum) (c : CCE) (hs : validSmoothing k c.smoothing)
    (hnames : c.namesFit k) (ts : List ℤ) (hlen : ts.length = ls.length)
    (hts : ∀ y ∈ ts, (0 ≤ y ∧ y < k) ∨ (c.missing = .int y ∧ -(k : ℤ) ≤ y ∧ y < k))
    (truths : Truths) (htr : truths = .intList ts ∨ truths = .intArray ts) {x : Fin ls.sum → Fin m → ℤ} {x₀ : Fin 0 → ℝ} {L : Layer}
    {f : Params sh × (Fin 0 → ℝ) → Fin ls.sum → Fin n → ℝ} (hL : Exact L train (Kind.idSeqs ls x) (Kind.seqs ls n) f θ x₀) :
    Trains (chain [L, list2raggedL, reduceMeanLayer, softmaxLayer W b normalizeOut T]) train (Kind.idSeqs ls x) (cceGrad c truths)
      (fun p => (∑ i : Fin ls.length, rowLoss (tagTarget k c.missing c.smoothing (ts[i]))
        (Spec.softmax fun j => affine (poolMean ls (f p)) (p.1.get W hW) (p.1.vec b hb) i j / T)) /
          if c.normalize then (ls.length : ℝ) else 1) θ x₀ := by
  have h1 := C73_chain (ExactChain.cons hL (ExactChain.cons (C80_list2ragged hn hls _) (ExactChain.one (C75_mean_partial hls train θ _))))
    (C73_labels W b hW hb hk hT hnt θ (poolMean ls (f (θ, x₀))) c hs hnames ts hlen hts truths htr
      (fun i => tagTarget k c.missing c.smoothing (ts[i])) (fun i h => tagTarget_missing h) fun i h => tagTarget_label h)
  have e : (fun p : Params sh × (Fin 0 → ℝ) => (∑ i : Fin ls.length, rowLoss (tagTarget k c.missing c.smoothing (ts[i]))
        (Spec.softmax fun j => affine (poolMean ls (f p)) (p.1.get W hW) (p.1.vec b hb) i j / T)) /
          if c.normalize then (ls.length : ℝ) else 1) = fun p => batchXent c (fun i => tagTarget k c.missing c.smoothing (ts[i]))
            fun i j => affine (poolMean ls (f p)) (p.1.get W hW) (p.1.vec b hb) i j / T := by
    funext p
    rw [batchXent, Finset.sum_div]
    rfl
  rw [e]
  exact h1
end

/-- Two sentences with two and three tokens, two features for each token, and three tags of which one is missing.  The features are
embedded, each token sees its neighbours, and the tags are predicted after one more layer. -/
example (θ : Params (fun p : Fin 6 => if p = 0 then (10, 2) else if p = 1 then (7, 3) else if p = 2 then (4, 15) else
      if p = 3 then (1, 4) else if p = 4 then (3, 4) else (1, 3)))
    (x : Fin [2, 3].sum → Fin 2 → ℤ) (x₀ : Fin 0 → ℝ) (seed : BitVec 32) (coins : ℕ → ℕ → ℝ) :
    ∃ f : Params _ × (Fin 0 → ℝ) → Fin [2, 3].sum → Fin 4 → ℝ,
    Trains (withArrayIdsL (chain [concatenate [hashEmbedColumn 0 0 seed (some 0.5) coins true,
        hashEmbedColumn (-1) 1 seed none coins false], expandWindow 1, linear 2 3, softmaxLayer 4 5 true 1]) 1) true
      (Kind.idSeqs [2, 3] x) (seqCceGrad (SeqCCE.init true none (.int (-1)) none 0) [.intList [0, 2], .intArray [1, -1, 2]])
      (fun p => tagLoss [2, 3] true (.int (-1)) 0 (fun r => [0, 2, 1, -1, 2][(r : ℕ)]) fun r j =>
        affine (f p) (p.1.get 4 rfl) (p.1.vec 5 rfl) r j / 1) θ x₀ := by
  let place : Fin [2, 3].sum → Fin (blankedRows 1 [2, 3]) := blankedAt 1 [2, 3]
  have hcols := C89_concatenate (ExactColumns.cons
    (C89_hash_embed_column (train := true) (θ := θ) (n := blankedRows 1 [2, 3]) (by decide) (spread place x) (column := 0) (c := 0)
      ⟨by decide, Or.inl (by decide)⟩ (V := 10) (O := 2) (by decide) (by decide) 0 rfl seed (some 0.5) coins true x₀)
    (ExactColumns.one (C89_hash_embed_column (by decide) (spread place x) (column := -1) (c := 1)
      ⟨by decide, Or.inr (by decide)⟩ (V := 7) (O := 3) (by decide) (by decide) 1 rfl seed none coins false x₀)))
  have htag : ∀ r : Fin [2, 3].sum, (0 ≤ [0, 2, 1, -1, 2][(r : ℕ)] ∧ [0, 2, 1, -1, 2][(r : ℕ)] < ((3 : ℕ) : ℤ)) ∨
      (Missing.int (-1) = .int [0, 2, 1, -1, 2][(r : ℕ)] ∧ -((3 : ℕ) : ℤ) ≤ [0, 2, 1, -1, 2][(r : ℕ)] ∧
        [0, 2, 1, -1, 2][(r : ℕ)] < ((3 : ℕ) : ℤ)) := by
    intro r
    by_cases h : [0, 2, 1, -1, 2][(r : ℕ)] = -1
    · exact Or.inr ⟨by rw [h], by rw [h]; decide, by rw [h]; decide⟩
    · refine Or.inl ?_
      revert h
      revert r
      decide
  have htruths : IsTags [.intList [0, 2], .intArray [1, -1, 2]] [2, 3] fun r : Fin [2, 3].sum => [0, 2, 1, -1, 2][(r : ℕ)] := by
    refine ⟨rfl, fun b hb hb' => ?_⟩
    match b, hb, hb' with
    | 0, _, _ => exact ⟨[0, 2], Or.inl rfl, rfl, by decide⟩
    | 1, _, _ => exact ⟨[1, -1, 2], Or.inr rfl, rfl, by decide⟩
  have hwin := C76_floats (train := true) (θ := θ) (n := blankedRows 1 [2, 3]) (m := 5) 1
  exact ⟨_, C89_tagger (T := 1) 4 5 rfl rfl (by decide) (by decide) (by norm_num) rfl (by decide) 1 place (fun _ => rfl)
    (Or.inl ⟨rfl, by decide⟩) (fun _ h => by simp at h) htag htruths
    (ExactChain.cons hcols (ExactChain.cons (hwin _) (ExactChain.one (C56_linear 2 3 rfl rfl true θ _))))⟩

/-- Two texts with two and three tokens, and three classes. -/
example (θ : Params (fun p : Fin 3 => if p = 0 then (10, 2) else if p = 1 then (3, 2) else (1, 3)))
    (x : Fin [2, 3].sum → Fin 1 → ℤ) (x₀ : Fin 0 → ℝ) (seed : BitVec 32) (coins : ℕ → ℕ → ℝ) :=
  C89_classifier (T := 1) 1 2 rfl rfl (by decide) (by decide) (normalizeOut := true) (by norm_num) rfl (by decide)
    ⟨true, none, .none, none, 0.25⟩ (Or.inr (by norm_num)) (fun _ h => by simp at h) [2, 0] rfl (fun y h => Or.inl (by revert y; decide)) (.intList [2, 0]) (Or.inl rfl)
    (C89_with_array (by decide) (by decide) (by decide) 0 (blankedAt 0 [2, 3]) (fun _ => rfl)
      (C89_hash_embed_column (train := true) (θ := θ) (n := blankedRows 0 [2, 3]) (by decide) (spread (blankedAt 0 [2, 3]) x)
        (column := 0) (c := 0) ⟨by decide, Or.inl (by decide)⟩ (V := 10) (O := 2) (by decide) (by decide) 0 rfl seed none coins true x₀))

end Thinc
