import Verif.Spec.DocTraining
import Verif.Props.Documents
import Verif.Props.Tagger
import Verif.Props.SeqLayersPadded

/-! # C120: training on documents does not depend on how they are cut into batches -/

namespace Thinc
open Spec Spec.Tensor

/-! ### Rows of documents -/

section
variable {N : ℕ} {sh : Fin N → ℕ × ℕ}

theorem params_exist (θ : Params sh) : ∃ P, IsParams P θ := by
  refine ⟨fun p => if h : p < N then Mat.ofFn (sh ⟨p, h⟩).1 (sh ⟨p, h⟩).2 fun i j =>
    if h' : i < (sh ⟨p, h⟩).1 ∧ j < (sh ⟨p, h⟩).2 then θ ⟨p, h⟩ ⟨i, h'.1⟩ ⟨j, h'.2⟩ else 0 else Mat.ofFn 0 0 fun _ _ => 0, fun p => ?_⟩
  show IsMat (if h : (p : ℕ) < N then _ else _) _
  rw [dif_pos p.2]
  exact isMat_ofFn' _ _ fun i j => by rw [dif_pos ⟨i.2, j.2⟩]

/-- The numbers of all rows of the documents. -/
def docRows (m : ℕ) (ds : List Doc) : Fin (ds.map List.length).sum → Fin m → ℝ := fun i j => (ds.flatten.getD i []).getD j 0

theorem docRows_rows {m : ℕ} {ds : List Doc} (h : ∀ d ∈ ds, ∀ r ∈ d, r.length = m) : ds.flatten = rowsOf (docRows m ds) := by
  refine rowsOf_eq (by rw [sum_lengths]) fun i => ?_
  have hi : (i : ℕ) < ds.flatten.length := by rw [← sum_lengths]; exact i.2
  have hl : (ds.flatten[(i : ℕ)]).length = m := by
    obtain ⟨d, h1, h2⟩ := List.mem_flatten.1 (List.getElem_mem hi)
    exact h d h1 _ h2
  rw [List.getElem?_eq_getElem hi]
  congr 1
  refine List.ext_getElem (by simp [hl]) fun j h1 h2 => ?_
  simp [docRows, List.getD_eq_getElem?_getD, h1]

theorem docs_kind {a : DocForm} (ha : a ≠ .rows) {m : ℕ} {v : Val} {ds : List Doc} (h : IsDocs a m v ds) :
    (Kind.docs a (ds.map List.length) m).val v (docRows m ds) := by
  cases a with
  | rows => exact absurd rfl ha
  | list =>
    obtain ⟨-, hw⟩ := arrays_docs h
    have hrows := docRows_rows hw
    obtain ⟨As, rfl, hc, rfl⟩ := h
    refine ⟨As, rfl, ?_, hc, ?_⟩
    · rw [List.map_map]; exact List.map_congr_left fun A _ => (length_rowsList A).symm
    · intro b hb r i j hr hi
      have hb' : b < (As.map rowsList).length := by simpa using hb
      have hr' : r < ((As.map rowsList)[b]).length := by simpa [length_rowsList] using hr
      have e := flatten_getElem? (As.map rowsList) b r hb' hr'
      rw [← hi, hrows, rowsOf_getElem?] at e
      have e := Option.some.inj e
      have hj : (j : ℕ) < As[b].cols := by rw [hc _ (List.getElem_mem hb)]; exact j.2
      have e1 : (List.ofFn (docRows m (As.map rowsList) i))[(j : ℕ)]? = ((As.map rowsList)[b][r])[(j : ℕ)]? := by rw [e]
      simpa [rowsList, hj] using e1.symm
  | ragged =>
    obtain ⟨A, rfl, hc, hA⟩ := h
    refine ⟨A, rfl, by rw [← length_rowsList, hA, sum_lengths], hc, fun i j => ?_⟩
    have hi : (i : ℕ) < A.rows := by rw [← length_rowsList, hA, ← sum_lengths]; exact i.2
    have hj : (j : ℕ) < A.cols := by rw [hc]; exact j.2
    have : (A.at i j) = ((rowsList A).getD i []).getD j 0 := by
      simp [rowsList, List.getD_eq_getElem?_getD, hi, hj]
    rw [this, hA]
    rfl

theorem docs_sum {a : DocForm} {m : ℕ} {full : Bool} {Target : Type} (c : DocBatch a m full Target) :
    0 < ((c.examples.map Prod.fst).map List.length).sum ∧ (full = true → ∀ l ∈ (c.examples.map Prod.fst).map List.length, 0 < l) := by
  obtain ⟨e, he, hne⟩ := c.nonempty
  refine ⟨pos_sum ⟨e.1, List.mem_map_of_mem he, hne⟩, fun hf l hl => ?_⟩
  simp only [List.map_map, List.mem_map, Function.comp_apply] at hl
  obtain ⟨e, he, rfl⟩ := hl
  exact List.length_pos_of_ne_nil (c.whole hf e he)

theorem docs_some {a : DocForm} {m : ℕ} {full : Bool} {Target : Type} (c : DocBatch a m full Target) :
    (∃ d ∈ c.examples.map Prod.fst, d ≠ []) ∧ (full = true → ∀ d ∈ c.examples.map Prod.fst, d ≠ []) := by
  obtain ⟨e, he, hne⟩ := c.nonempty
  refine ⟨⟨e.1, List.mem_map_of_mem he, hne⟩, fun hf d hd => ?_⟩
  obtain ⟨e, he, rfl⟩ := List.mem_map.1 hd
  exact c.whole hf e he

/-! ### The output for a document -/

/-- What the layer gives for a document. -/
noncomputable def outOf {L : Layer} {a b : DocForm} {m k : ℕ} {full : Bool}
    (h : ∀ (θ : Params sh) P, IsParams P θ → PerDocument L true P a m b k full) (θ : Params sh) (d : Doc) : Doc :=
  (h θ _ (params_exist θ).choose_spec).choose d

theorem outOf_spec {L : Layer} {a b : DocForm} {m k : ℕ} {full : Bool}
    (h : ∀ (θ : Params sh) P, IsParams P θ → PerDocument L true P a m b k full) (θ : Params sh) :
    ∃ P, IsParams P θ ∧ (b ≠ .rows → ∀ d, (outOf h θ d).length = d.length) ∧ ∀ v ds, IsDocs a m v ds → (∃ d ∈ ds, d ≠ []) →
      (full = true → ∀ d ∈ ds, d ≠ []) → ∃ Y callback, L true P v = .ok (Y, callback) ∧ IsDocs b k Y (ds.map (outOf h θ)) :=
  ⟨_, (params_exist θ).choose_spec, (h θ _ (params_exist θ).choose_spec).choose_spec.2⟩

/-- The row for a document. -/
noncomputable def docRow (o : ℕ) (Y : Doc) : Fin o → ℝ := fun k => (Y.headD []).getD k 0

theorem out_rows {L : Layer} {a : DocForm} (ha : a ≠ .rows) {m k : ℕ} {full : Bool}
    (h : ∀ (θ : Params sh) P, IsParams P θ → PerDocument L true P a m .rows k full) {v : Val} {ds : List Doc} (hv : IsDocs a m v ds)
    (hs : ∃ d ∈ ds, d ≠ []) (hf : full = true → ∀ d ∈ ds, d ≠ []) {f : Params sh × (Fin (ds.map List.length).sum → Fin m → ℝ) → Fin (ds.map List.length).length → Fin k → ℝ}
    {θ : Params sh} (he : Exact L true (Kind.docs a (ds.map List.length) m) (Kind.arr (ds.map List.length).length k) f θ (docRows m ds))
    (i : Fin (ds.map List.length).length) : f (θ, docRows m ds) i = docRow k (outOf h θ (ds[(i : ℕ)]'(by simpa using i.2))) := by
  obtain ⟨P, hP, -, ho⟩ := outOf_spec h θ
  obtain ⟨Y, cb, e, A, rfl, hc, hA⟩ := ho v ds hv hs hf
  obtain ⟨_, cb', -, e', ⟨B, rfl, hB⟩, -⟩ := he P v hP (docs_kind ha hv)
  rw [e] at e'
  simp only [Except.ok.injEq, Prod.mk.injEq, Val.arr.injEq] at e'
  obtain ⟨rfl, -⟩ := e'
  have hi : (i : ℕ) < ds.length := by simpa using i.2
  have e1 : (ds.map (outOf h θ))[(i : ℕ)]? = ((rowsList A).map fun r => [r])[(i : ℕ)]? := by rw [hA]
  rw [rowsList_of hB, List.getElem?_map, List.getElem?_map, rowsOf_getElem?, List.getElem?_eq_getElem hi] at e1
  have e2 : outOf h θ ds[(i : ℕ)] = [List.ofFn (f (θ, docRows m ds) i)] := Option.some.inj e1
  rw [e2]
  funext j
  simp [docRow]

theorem out_seqs {L : Layer} {m k : ℕ} {full : Bool}
    (h : ∀ (θ : Params sh) P, IsParams P θ → PerDocument L true P .list m .list k full) {v : Val} {ds : List Doc} (hv : IsDocs .list m v ds)
    (hs : ∃ d ∈ ds, d ≠ []) (hf : full = true → ∀ d ∈ ds, d ≠ []) {f : Params sh × (Fin (ds.map List.length).sum → Fin m → ℝ) → Fin (ds.map List.length).sum → Fin k → ℝ}
    {θ : Params sh} (he : Exact L true (Kind.seqs (ds.map List.length) m) (Kind.seqs (ds.map List.length) k) f θ (docRows m ds)) :
    rowsOf (f (θ, docRows m ds)) = (ds.map (outOf h θ)).flatten := by
  obtain ⟨P, hP, -, ho⟩ := outOf_spec h θ
  obtain ⟨Y, cb, e, As, rfl, hc, hA⟩ := ho v ds hv hs hf
  obtain ⟨_, cb', -, e', ⟨Bs, rfl, hB⟩, -⟩ := he P v hP (docs_kind (by simp) hv)
  rw [e] at e'
  simp only [Except.ok.injEq, Prod.mk.injEq, Val.list.injEq] at e'
  obtain rfl : As = Bs := List.map_injective_iff.2 (fun _ _ h => Val.arr.inj h) e'.1
  obtain ⟨seqs, h1, h2⟩ := parts_of hB
  rw [← h2.2, ← hA]
  congr 1
  have : (As.map Mat.toArr).map Arr.rows = seqs := by
    rw [h1, asList, List.map_map]
    exact List.map_id seqs
  rw [← this, List.map_map]
  exact List.map_congr_left fun A _ => by rw [Function.comp_apply, toArr_rowsList]

/-! ### Training -/

variable {A : Type} {root : Nat} {slot : ℕ → Nat × String} {key : Fin N → Nat × String} {θ : Params sh}

theorem split_same {B Example : Type} {ℓ : Params sh → Example → ℝ} {L : Layer} (part : B → Part sh ℓ) (hT : ∀ c θ, Takes L θ (part c).batch)
    {cfg : OptCfg (Nat × String)} (hra : cfg.useRadam = false) (hb2 : ∀ t k s, cfg.b2 t k s = 0) (hL2 : ∀ t k s, cfg.L2 t k s = 0)
    (s : TrainState A) (its : List (List B × List B))
    (hsame : ∀ it ∈ its, (it.1.flatMap fun c => (part c).examples).Perm (it.2.flatMap fun c => (part c).examples))
    (H : Wired s.nodes root slot key θ 0) :
    ∃ (s₁ s₂ : TrainState A) (θ' : Params sh),
      trainLoop L N slot cfg root s (its.map fun it => it.1.map fun c => ((part c).batch.input, (part c).batch.lossGrad)) = .ok s₁ ∧
      trainLoop L N slot cfg root s (its.map fun it => it.2.map fun c => ((part c).batch.input, (part c).batch.lossGrad)) = .ok s₂ ∧
      Wired s₁.nodes root slot key θ' 0 ∧ Wired s₂.nodes root slot key θ' 0 := by
  have hS : ∀ it ∈ its.map fun it => (it.1.map part, it.2.map part), SameExamples it.1 it.2 := by
    intro it hit
    obtain ⟨it', hit', rfl⟩ := List.mem_map.1 hit
    have := hsame it' hit'
    unfold SameExamples
    simp only [List.flatMap_map] at this ⊢
    exact this
  have hT1 : ∀ bs ∈ (its.map fun it => (it.1.map part, it.2.map part)).map fun it => it.1.map Part.batch, ∀ b ∈ bs, ∀ θ, Takes L θ b := by
    intro bs hbs b hb θ
    simp only [List.map_map, List.mem_map, Function.comp_apply] at hbs
    obtain ⟨it, -, rfl⟩ := hbs
    simp only [List.mem_map, Function.comp_apply] at hb
    obtain ⟨c, -, rfl⟩ := hb
    exact hT c θ
  have hT2 : ∀ bs ∈ (its.map fun it => (it.1.map part, it.2.map part)).map fun it => it.2.map Part.batch, ∀ b ∈ bs, ∀ θ, Takes L θ b := by
    intro bs hbs b hb θ
    simp only [List.map_map, List.mem_map, Function.comp_apply] at hbs
    obtain ⟨it, -, rfl⟩ := hbs
    simp only [List.mem_map, Function.comp_apply] at hb
    obtain ⟨c, -, rfl⟩ := hb
    exact hT c θ
  obtain ⟨s₁, s₂, θ', e1, e2, w⟩ := C116_sgd hra hb2 hL2 (L := L) s _ hS H (takesAll_of_all hT1) (takesAll_of_all hT2)
  refine ⟨s₁, s₂, θ', ?_, ?_, w⟩
  · rw [← e1]; simp only [List.map_map, Function.comp_def]
  · rw [← e2]; simp only [List.map_map, Function.comp_def]

theorem takesEvery_of_all {L : Layer} {hyper : ℕ → Fin N → Hyper} {decay : Bool} {its : List (List (Batch sh))}
    (h : ∀ bs ∈ its, bs ≠ [] ∧ ∀ b ∈ bs, ∀ θ, TakesFully L θ b) {k : ℕ} {S : Vars sh} : TakesEvery L hyper decay k S its := by
  induction its generalizing k S with
  | nil => trivial
  | cons bs its ih => exact ⟨(h bs (by simp)).1, fun b hb => (h bs (by simp)).2 b hb _, ih fun bs' h' => h bs' (by simp [h'])⟩

theorem split_same_adam {B Example : Type} {ℓ : Params sh → Example → ℝ} {L : Layer} (part : B → Part sh ℓ) (hT : ∀ c θ, Takes L θ (part c).batch)
    {ps : List ℕ} (hfill : Fills L ps) (hps : ∀ p : Fin N, (p : ℕ) ∈ ps)
    {cfg : OptCfg (Nat × String)} (hra : cfg.useRadam = false) (hb : ∀ t k s, 0 < cfg.b2 t k s → 0 < cfg.b1 t k s) (hsh : ∀ p, 0 < (sh p).1)
    (s : TrainState A) {S : Vars sh} (its : List (List B × List B)) (hne : ∀ it ∈ its, it.1 ≠ [] ∧ it.2 ≠ [])
    (hsame : ∀ it ∈ its, (it.1.flatMap fun c => (part c).examples).Perm (it.2.flatMap fun c => (part c).examples))
    (H : Wired s.nodes root slot key S.weights 0) (hu : DistinctIds s.nodes root) (hrem : ∀ p, Remembers s.opt (key p) (S p)) :
    ∃ (s₁ s₂ : TrainState A) (S' : Vars sh),
      trainLoop L N slot cfg root s (its.map fun it => it.1.map fun c => ((part c).batch.input, (part c).batch.lossGrad)) = .ok s₁ ∧
      trainLoop L N slot cfg root s (its.map fun it => it.2.map fun c => ((part c).batch.input, (part c).batch.lossGrad)) = .ok s₂ ∧
      Wired s₁.nodes root slot key S'.weights 0 ∧ Wired s₂.nodes root slot key S'.weights 0 ∧
      ∀ p, Remembers s₁.opt (key p) (S' p) ∧ Remembers s₂.opt (key p) (S' p) := by
  have hS : ∀ it ∈ its.map fun it => (it.1.map part, it.2.map part), SameExamples it.1 it.2 := by
    intro it hit
    obtain ⟨it', hit', rfl⟩ := List.mem_map.1 hit
    have := hsame it' hit'
    unfold SameExamples
    simp only [List.flatMap_map] at this ⊢
    exact this
  have hT1 : ∀ bs ∈ (its.map fun it => (it.1.map part, it.2.map part)).map fun it => it.1.map Part.batch,
      bs ≠ [] ∧ ∀ b ∈ bs, ∀ θ, TakesFully L θ b := by
    intro bs hbs
    simp only [List.map_map, List.mem_map, Function.comp_apply] at hbs
    obtain ⟨it, hit, rfl⟩ := hbs
    refine ⟨by simpa using (hne it hit).1, fun b hb θ => ?_⟩
    simp only [List.mem_map, Function.comp_apply] at hb
    obtain ⟨c, -, rfl⟩ := hb
    exact C90_takes (hT c θ) hfill hps
  have hT2 : ∀ bs ∈ (its.map fun it => (it.1.map part, it.2.map part)).map fun it => it.2.map Part.batch,
      bs ≠ [] ∧ ∀ b ∈ bs, ∀ θ, TakesFully L θ b := by
    intro bs hbs
    simp only [List.map_map, List.mem_map, Function.comp_apply] at hbs
    obtain ⟨it, hit, rfl⟩ := hbs
    refine ⟨by simpa using (hne it hit).2, fun b hb θ => ?_⟩
    simp only [List.mem_map, Function.comp_apply] at hb
    obtain ⟨c, -, rfl⟩ := hb
    exact C90_takes (hT c θ) hfill hps
  obtain ⟨s₁, s₂, S', e1, e2, w⟩ := C116_adam hra hb hsh (L := L) s _ hS H hu hrem (takesEvery_of_all hT1) (takesEvery_of_all hT2)
  refine ⟨s₁, s₂, S', ?_, ?_, w⟩
  · rw [← e1]; simp only [List.map_map, Function.comp_def]
  · rw [← e2]; simp only [List.map_map, Function.comp_def]

theorem takes_loss {L : Layer} {v : Val} {g : Val → Except PyErr Val} {l l' : Params sh → ℝ} (h : Takes L θ ⟨v, g, l⟩) (e : l = l') :
    Takes L θ ⟨v, g, l'⟩ := e ▸ h

theorem sum_get {β : Type} {n : ℕ} (l : List β) (h : n = l.length) (g : β → ℝ) : ∑ i : Fin n, g (l[(i : ℕ)]'(h ▸ i.2)) = (l.map g).sum := by
  subst h
  rw [← List.sum_ofFn]
  congr 1
  refine List.ext_getElem (by simp) fun i h1 h2 => by simp

theorem vectors_takes {a : DocForm} (ha : a ≠ .rows) {m o : ℕ} {full : Bool} {L : Layer}
    (hdoc : ∀ (θ : Params sh) P, IsParams P θ → PerDocument L true P a m .rows o full)
    (hex : ∀ (ls : List ℕ) (x : Fin ls.sum → Fin m → ℝ), 0 < ls.sum → (full = true → ∀ l ∈ ls, 0 < l) → ∃ f, ∀ θ : Params sh,
      Exact L true (Kind.docs a ls m) (Kind.arr ls.length o) f θ x) :
    ∃ ℓ : Params sh → Doc × (Fin o → ℝ) → ℝ, ∀ (c : DocVectors a m full o) (θ : Params sh), Takes L θ ⟨c.input, l2GradVal false c.T, fun θ => (c.examples.map (ℓ θ)).sum⟩ := by
  let ℓ : Params sh → Doc × (Fin o → ℝ) → ℝ := fun θ e => (∑ k, (docRow o (outOf hdoc θ e.1) k - e.2 k) ^ 2) / 2
  refine ⟨ℓ, fun c θ => ?_⟩
  obtain ⟨f, hf⟩ := hex _ (docRows m (c.examples.map Prod.fst)) (docs_sum c.toDocBatch).1 (docs_sum c.toDocBatch).2
  have hT : IsMat c.T fun i : Fin ((c.examples.map Prod.fst).map List.length).length => (c.examples[(i : ℕ)]'(by simpa using i.2)).2 :=
    ⟨by rw [c.hT.1]; simp, c.hT.2.1, fun i j => c.hT.2.2 (i.cast (by simp)) j⟩
  refine takes_loss (C77_trains (C73_l2 (hf θ) false hT) (docs_kind ha c.isDocs)) (funext fun θ' => ?_)
  have e : ∀ i, f (θ', docRows m (c.examples.map Prod.fst)) i = docRow o (outOf hdoc θ' (c.examples[(i : ℕ)]'(by simpa using i.2)).1) := by
    intro i
    have := out_rows ha hdoc c.isDocs (docs_some c.toDocBatch).1 (docs_some c.toDocBatch).2 (hf θ') i
    simpa using this
  refine Eq.trans ?_ (sum_get (n := ((c.examples.map Prod.fst).map List.length).length) c.examples (by simp) (ℓ θ'))
  simp only [e, Bool.false_eq_true, if_false, mul_one, Finset.sum_div, ℓ]

/-- A model that turns documents into vectors, trained on vectors with `L2Distance(normalize=False)` and SGD: the documents may be cut
into batches in any way. -/
theorem C120_vectors {a : DocForm} (ha : a ≠ .rows) {m o : ℕ} {full : Bool} {L : Layer}
    (hdoc : ∀ (θ : Params sh) P, IsParams P θ → PerDocument L true P a m .rows o full)
    (hex : ∀ (ls : List ℕ) (x : Fin ls.sum → Fin m → ℝ), 0 < ls.sum → (full = true → ∀ l ∈ ls, 0 < l) → ∃ f, ∀ θ : Params sh,
      Exact L true (Kind.docs a ls m) (Kind.arr ls.length o) f θ x)
    {cfg : OptCfg (Nat × String)} (hra : cfg.useRadam = false) (hb2 : ∀ t k s, cfg.b2 t k s = 0) (hL2 : ∀ t k s, cfg.L2 t k s = 0)
    (s : TrainState A) (its : List (List (DocVectors a m full o) × List (DocVectors a m full o)))
    (hsame : ∀ it ∈ its, SameDocs (it.1.map DocVectors.toDocBatch) (it.2.map DocVectors.toDocBatch)) (H : Wired s.nodes root slot key θ 0) :
    ∃ (s₁ s₂ : TrainState A) (θ' : Params sh),
      trainLoop L N slot cfg root s (its.map fun it => it.1.map fun c => (c.input, l2GradVal false c.T)) = .ok s₁ ∧
      trainLoop L N slot cfg root s (its.map fun it => it.2.map fun c => (c.input, l2GradVal false c.T)) = .ok s₂ ∧
      Wired s₁.nodes root slot key θ' 0 ∧ Wired s₂.nodes root slot key θ' 0 := by
  obtain ⟨ℓ, hℓ⟩ := vectors_takes (sh := sh) ha hdoc hex
  exact split_same (ℓ := ℓ) (fun c => ⟨⟨c.input, l2GradVal false c.T, fun θ => (c.examples.map (ℓ θ)).sum⟩, c.examples, fun _ => rfl⟩) hℓ hra hb2 hL2 s its
    (fun it hit => by have := hsame it hit; simpa only [SameDocs, List.flatMap_map] using this) H

/-- The same with Adam (and L2 regularisation, weight decay, averages), for layers whose callbacks leave a gradient for every parameter: what the
optimizer remembers is the same as well. -/
theorem C120_vectors_adam {a : DocForm} (ha : a ≠ .rows) {m o : ℕ} {full : Bool} {L : Layer}
    (hdoc : ∀ (θ : Params sh) P, IsParams P θ → PerDocument L true P a m .rows o full)
    (hex : ∀ (ls : List ℕ) (x : Fin ls.sum → Fin m → ℝ), 0 < ls.sum → (full = true → ∀ l ∈ ls, 0 < l) → ∃ f, ∀ θ : Params sh,
      Exact L true (Kind.docs a ls m) (Kind.arr ls.length o) f θ x)
    {cfg : OptCfg (Nat × String)} (hra : cfg.useRadam = false) (hbb : ∀ t k s, 0 < cfg.b2 t k s → 0 < cfg.b1 t k s) (hsh : ∀ p, 0 < (sh p).1)
    {ps : List ℕ} (hfill : Fills L ps) (hps : ∀ p : Fin N, (p : ℕ) ∈ ps)
    (s : TrainState A) {S : Vars sh} (its : List (List (DocVectors a m full o) × List (DocVectors a m full o)))
    (hsame : ∀ it ∈ its, SameDocs (it.1.map DocVectors.toDocBatch) (it.2.map DocVectors.toDocBatch)) (hne : ∀ it ∈ its, it.1 ≠ [] ∧ it.2 ≠ [])
    (H : Wired s.nodes root slot key S.weights 0) (hu : DistinctIds s.nodes root) (hrem : ∀ p, Remembers s.opt (key p) (S p)) :
    ∃ (s₁ s₂ : TrainState A) (S' : Vars sh),
      trainLoop L N slot cfg root s (its.map fun it => it.1.map fun c => (c.input, l2GradVal false c.T)) = .ok s₁ ∧
      trainLoop L N slot cfg root s (its.map fun it => it.2.map fun c => (c.input, l2GradVal false c.T)) = .ok s₂ ∧
      Wired s₁.nodes root slot key S'.weights 0 ∧ Wired s₂.nodes root slot key S'.weights 0 ∧
      ∀ p, Remembers s₁.opt (key p) (S' p) ∧ Remembers s₂.opt (key p) (S' p) := by
  obtain ⟨ℓ, hℓ⟩ := vectors_takes (sh := sh) ha hdoc hex
  exact split_same_adam (ℓ := ℓ) (fun c => ⟨⟨c.input, l2GradVal false c.T, fun θ => (c.examples.map (ℓ θ)).sum⟩, c.examples, fun _ => rfl⟩) hℓ hfill hps hra hbb hsh s its hne
    (fun it hit => by have := hsame it hit; simpa only [SameDocs, List.flatMap_map] using this) H hu hrem

theorem labels_takes {a : DocForm} (ha : a ≠ .rows) {m n o : ℕ} {full : Bool} {Ls : List Layer}
    (hdoc : ∀ (θ : Params sh) P, IsParams P θ → PerDocument (chain Ls) true P a m .rows n full)
    (hex : ∀ (ls : List ℕ) (x : Fin ls.sum → Fin m → ℝ), 0 < ls.sum → (full = true → ∀ l ∈ ls, 0 < l) → ∃ f, ∀ θ : Params sh,
      ExactChain true θ Ls (Kind.docs a ls m) (Kind.arr ls.length n) f x)
    {W b : Fin N} (hW : sh W = (o, n)) (hb : sh b = (1, o)) (ho : 0 < o) {T : ℝ} (hT : 0 < T) (normalizeOutputs : Bool) (κ : CCE)
    (hc : κ.normalize = false) (hs : validSmoothing o κ.smoothing) (hnames : κ.namesFit o) :
    ∃ ℓ : Params sh → Doc × ℤ → ℝ, ∀ (c : DocLabels a m full o κ.missing) (θ : Params sh), Takes (chain (Ls ++ [softmaxLayer W b normalizeOutputs T])) θ ⟨c.input, cceGrad κ c.truths, fun θ => (c.examples.map (ℓ θ)).sum⟩ := by
  let ℓ : Params sh → Doc × ℤ → ℝ := fun θ e => rowLoss (tagTarget o κ.missing κ.smoothing e.2)
    (Spec.softmax fun k => affine (fun _ : Fin 1 => docRow n (outOf hdoc θ e.1)) (θ.get W hW) (θ.vec b hb) 0 k / T)
  refine ⟨ℓ, fun c θ => ?_⟩
  obtain ⟨f, hf⟩ := hex _ (docRows m (c.examples.map Prod.fst)) (docs_sum c.toDocBatch).1 (docs_sum c.toDocBatch).2
  have htr := C73_chain (hf θ)
    (C73_labels (n := ((c.examples.map Prod.fst).map List.length).length) W b hW hb ho hT (by simp : (normalizeOutputs || true) = true) θ _ κ hs hnames (c.examples.map Prod.snd) (by simp)
      (by
        intro z hz
        obtain ⟨e, he, rfl⟩ := List.mem_map.1 hz
        exact c.valid e he) c.truths c.labels (fun i => tagTarget o κ.missing κ.smoothing (c.examples[(i : ℕ)]'(by simpa using i.2)).2)
      (by
        intro i h
        refine tagTarget_missing ?_
        simpa using h)
      (by
        intro i h
        have h' : κ.missing ≠ .int (c.examples[(i : ℕ)]'(by simpa using i.2)).2 := by simpa using h
        rw [tagTarget_label h']
        simp))
  refine takes_loss (C77_trains htr (docs_kind ha c.isDocs)) (funext fun θ' => ?_)
  have e : ∀ i, f (θ', docRows m (c.examples.map Prod.fst)) i = docRow n (outOf hdoc θ' (c.examples[(i : ℕ)]'(by simpa using i.2)).1) := by
    intro i
    have := out_rows ha hdoc c.isDocs (docs_some c.toDocBatch).1 (docs_some c.toDocBatch).2 (C51_chain (hf θ')) i
    simpa using this
  refine Eq.trans ?_ (sum_get (n := ((c.examples.map Prod.fst).map List.length).length) c.examples (by simp) (ℓ θ'))
  simp only [batchXent, CCE.divisor, hc, Bool.false_eq_true, if_false, div_one]
  refine Finset.sum_congr rfl fun i _ => ?_
  simp only [ℓ]
  have e2 : (fun k => affine (f (θ', docRows m (c.examples.map Prod.fst))) (θ'.get W hW) (θ'.vec b hb) i k / T) =
      fun k => affine (fun _ : Fin 1 => docRow n (outOf hdoc θ' (c.examples[(i : ℕ)]'(by simpa using i.2)).1)) (θ'.get W hW) (θ'.vec b hb) 0 k / T := by
    funext k
    simp only [affine, e]
  rw [e2]
  rfl

/-- A classifier: layers that turn documents into vectors, then Softmax, trained with `CategoricalCrossentropy(normalize=False)` on labels,
some of which may be missing. -/
theorem C120_labels {a : DocForm} (ha : a ≠ .rows) {m n o : ℕ} {full : Bool} {Ls : List Layer}
    (hdoc : ∀ (θ : Params sh) P, IsParams P θ → PerDocument (chain Ls) true P a m .rows n full)
    (hex : ∀ (ls : List ℕ) (x : Fin ls.sum → Fin m → ℝ), 0 < ls.sum → (full = true → ∀ l ∈ ls, 0 < l) → ∃ f, ∀ θ : Params sh,
      ExactChain true θ Ls (Kind.docs a ls m) (Kind.arr ls.length n) f x)
    {W b : Fin N} (hW : sh W = (o, n)) (hb : sh b = (1, o)) (ho : 0 < o) {T : ℝ} (hT : 0 < T) (normalizeOutputs : Bool) (κ : CCE)
    (hc : κ.normalize = false) (hs : validSmoothing o κ.smoothing) (hnames : κ.namesFit o)
    {cfg : OptCfg (Nat × String)} (hra : cfg.useRadam = false) (hb2 : ∀ t k s, cfg.b2 t k s = 0) (hL2 : ∀ t k s, cfg.L2 t k s = 0)
    (s : TrainState A) (its : List (List (DocLabels a m full o κ.missing) × List (DocLabels a m full o κ.missing)))
    (hsame : ∀ it ∈ its, SameDocs (it.1.map DocLabels.toDocBatch) (it.2.map DocLabels.toDocBatch)) (H : Wired s.nodes root slot key θ 0) :
    ∃ (s₁ s₂ : TrainState A) (θ' : Params sh),
      trainLoop (chain (Ls ++ [softmaxLayer W b normalizeOutputs T])) N slot cfg root s
        (its.map fun it => it.1.map fun c => (c.input, cceGrad κ c.truths)) = .ok s₁ ∧
      trainLoop (chain (Ls ++ [softmaxLayer W b normalizeOutputs T])) N slot cfg root s
        (its.map fun it => it.2.map fun c => (c.input, cceGrad κ c.truths)) = .ok s₂ ∧
      Wired s₁.nodes root slot key θ' 0 ∧ Wired s₂.nodes root slot key θ' 0 := by
  obtain ⟨ℓ, hℓ⟩ := labels_takes (sh := sh) ha hdoc hex hW hb ho hT normalizeOutputs κ hc hs hnames
  exact split_same (ℓ := ℓ) (fun c => ⟨⟨c.input, cceGrad κ c.truths, fun θ => (c.examples.map (ℓ θ)).sum⟩, c.examples, fun _ => rfl⟩) hℓ hra hb2 hL2 s its
    (fun it hit => by have := hsame it hit; simpa only [SameDocs, List.flatMap_map] using this) H

/-- The same with Adam (and L2 regularisation, weight decay, averages), for layers whose callbacks leave a gradient for every parameter: what the
optimizer remembers is the same as well. -/
theorem C120_labels_adam {a : DocForm} (ha : a ≠ .rows) {m n o : ℕ} {full : Bool} {Ls : List Layer}
    (hdoc : ∀ (θ : Params sh) P, IsParams P θ → PerDocument (chain Ls) true P a m .rows n full)
    (hex : ∀ (ls : List ℕ) (x : Fin ls.sum → Fin m → ℝ), 0 < ls.sum → (full = true → ∀ l ∈ ls, 0 < l) → ∃ f, ∀ θ : Params sh,
      ExactChain true θ Ls (Kind.docs a ls m) (Kind.arr ls.length n) f x)
    {W b : Fin N} (hW : sh W = (o, n)) (hb : sh b = (1, o)) (ho : 0 < o) {T : ℝ} (hT : 0 < T) (normalizeOutputs : Bool) (κ : CCE)
    (hc : κ.normalize = false) (hs : validSmoothing o κ.smoothing) (hnames : κ.namesFit o)
    {cfg : OptCfg (Nat × String)} (hra : cfg.useRadam = false) (hbb : ∀ t k s, 0 < cfg.b2 t k s → 0 < cfg.b1 t k s) (hsh : ∀ p, 0 < (sh p).1)
    {ps : List ℕ} (hfill : Fills (chain (Ls ++ [softmaxLayer W b normalizeOutputs T])) ps) (hps : ∀ p : Fin N, (p : ℕ) ∈ ps)
    (s : TrainState A) {S : Vars sh} (its : List (List (DocLabels a m full o κ.missing) × List (DocLabels a m full o κ.missing)))
    (hsame : ∀ it ∈ its, SameDocs (it.1.map DocLabels.toDocBatch) (it.2.map DocLabels.toDocBatch)) (hne : ∀ it ∈ its, it.1 ≠ [] ∧ it.2 ≠ [])
    (H : Wired s.nodes root slot key S.weights 0) (hu : DistinctIds s.nodes root) (hrem : ∀ p, Remembers s.opt (key p) (S p)) :
    ∃ (s₁ s₂ : TrainState A) (S' : Vars sh),
      trainLoop (chain (Ls ++ [softmaxLayer W b normalizeOutputs T])) N slot cfg root s
        (its.map fun it => it.1.map fun c => (c.input, cceGrad κ c.truths)) = .ok s₁ ∧
      trainLoop (chain (Ls ++ [softmaxLayer W b normalizeOutputs T])) N slot cfg root s
        (its.map fun it => it.2.map fun c => (c.input, cceGrad κ c.truths)) = .ok s₂ ∧
      Wired s₁.nodes root slot key S'.weights 0 ∧ Wired s₂.nodes root slot key S'.weights 0 ∧
      ∀ p, Remembers s₁.opt (key p) (S' p) ∧ Remembers s₂.opt (key p) (S' p) := by
  obtain ⟨ℓ, hℓ⟩ := labels_takes (sh := sh) ha hdoc hex hW hb ho hT normalizeOutputs κ hc hs hnames
  exact split_same_adam (ℓ := ℓ) (fun c => ⟨⟨c.input, cceGrad κ c.truths, fun θ => (c.examples.map (ℓ θ)).sum⟩, c.examples, fun _ => rfl⟩) hℓ hfill hps hra hbb hsh s its hne
    (fun it hit => by have := hsame it hit; simpa only [SameDocs, List.flatMap_map] using this) H hu hrem

theorem zip_flatten {β : Type} (g : List ℝ → β → ℝ) (F : Doc → Doc) : ∀ es : List (Doc × List β), (∀ e ∈ es, (F e.1).length = e.2.length) →
    (List.zipWith g ((es.map fun e => F e.1).flatten) (es.map Prod.snd).flatten).sum = (es.map fun e => (List.zipWith g (F e.1) e.2).sum).sum
  | [], _ => rfl
  | e :: es, h => by
    simp only [List.map_cons, List.flatten_cons, List.sum_cons]
    rw [List.zipWith_append (h e (by simp)), List.sum_append, zip_flatten g F es fun e he => h e (by simp [he])]

theorem sum_rows {β : Type} {n k : ℕ} (y : Fin n → Fin k → ℝ) (ts : List β) (hl : ts.length = n) (g : (Fin k → ℝ) → β → ℝ) :
    ∑ r : Fin n, g (y r) (ts[(r : ℕ)]'(hl ▸ r.2)) = (List.zipWith (fun row t => g (fun j => row.getD j 0) t) (rowsOf y) ts).sum := by
  rw [← List.sum_ofFn]
  congr 1
  refine List.ext_getElem (by simp [rowsOf, hl]) fun i h1 h2 => ?_
  simp [rowsOf]

theorem isTags_docs {m : ℕ} {full : Bool} {o : ℕ} {missing : Missing} (c : DocTags m full o missing) :
    IsTags c.truths ((c.examples.map Prod.fst).map List.length) (fun i => (c.examples.map Prod.snd).flatten.getD i 0) := by
  have hlen : c.truths.length = c.examples.length := c.tags.length_eq
  refine ⟨by simpa using hlen, fun b hb hb' => ?_⟩
  have hbe : b < c.examples.length := by omega
  obtain ⟨h1, h2⟩ := (List.forall₂_iff_get.1 c.tags).2 b hb hbe
  refine ⟨(c.examples[b]).2, h1, by simpa using h2, fun r hr i hi => ?_⟩
  have e : (c.examples.map Prod.fst).map List.length = (c.examples.map Prod.snd).map List.length := by
    rw [List.map_map, List.map_map]
    refine List.map_congr_left fun e he => ?_
    obtain ⟨j, hj, rfl⟩ := List.getElem_of_mem he
    exact ((List.forall₂_iff_get.1 c.tags).2 j (by omega) hj).2.symm
  have := flatten_getElem? (c.examples.map Prod.snd) b r (by simpa using hbe) (by simpa using hr)
  rw [← e, ← hi] at this
  show _ = (c.examples.map Prod.snd).flatten.getD i 0
  rw [List.getD_eq_getElem?_getD, this]
  simp

theorem tags_takes {m n o : ℕ} {full : Bool} {Ls : List Layer}
    (hdoc : ∀ (θ : Params sh) P, IsParams P θ → PerDocument (chain Ls) true P .list m .list n full)
    (hex : ∀ (ls : List ℕ) (x : Fin ls.sum → Fin m → ℝ), 0 < ls.sum → (full = true → ∀ l ∈ ls, 0 < l) → ∃ f, ∀ θ : Params sh,
      ExactChain true θ Ls (Kind.seqs ls m) (Kind.seqs ls n) f x)
    {W b : Fin N} (hW : sh W = (o, n)) (hb : sh b = (1, o)) (hn : 0 < n) (ho : 0 < o) {T : ℝ} (hT : 0 < T) (normalizeOutputs : Bool) (pad : ℕ)
    {names : Option (List PyStr)} {missing : Missing} {negPrefix : Option PyStr} {smoothing : ℝ} (hs : validSmoothing o smoothing)
    (hnames : (CCE.mk false names missing negPrefix smoothing).namesFit o) :
    ∃ ℓ : Params sh → Doc × (List ℤ) → ℝ, ∀ (c : DocTags m full o missing) (θ : Params sh), Takes (chain (Ls ++ [withArray2dL (softmaxLayer W b normalizeOutputs T) pad])) θ ⟨c.input, seqCceGrad (SeqCCE.init false names missing negPrefix smoothing) c.truths, fun θ => (c.examples.map (ℓ θ)).sum⟩ := by
  let g : Params sh → (Fin n → ℝ) → ℤ → ℝ := fun θ row y => rowLoss (tagTarget o missing smoothing y)
    (Spec.softmax fun k => affine (fun _ : Fin 1 => row) (θ.get W hW) (θ.vec b hb) 0 k / T)
  let ℓ : Params sh → Doc × List ℤ → ℝ := fun θ e => (List.zipWith (fun row t => g θ (fun j => row.getD j 0) t) (outOf hdoc θ e.1) e.2).sum
  refine ⟨ℓ, fun c θ => ?_⟩
  obtain ⟨f, hf⟩ := hex _ (docRows m (c.examples.map Prod.fst)) (docs_sum c.toDocBatch).1 (docs_sum c.toDocBatch).2
  have hne : (c.examples.map Prod.fst).map List.length ≠ [] := by
    intro h
    have := (docs_sum c.toDocBatch).1
    rw [h] at this
    simp at this
  have hlens : ∀ e ∈ c.examples, e.2.length = e.1.length := by
    intro e he
    obtain ⟨j, hj, rfl⟩ := List.getElem_of_mem he
    exact ((List.forall₂_iff_get.1 c.tags).2 j (by rw [c.tags.length_eq]; exact hj) hj).2
  have htl : (c.examples.map Prod.snd).flatten.length = ((c.examples.map Prod.fst).map List.length).sum := by
    rw [List.length_flatten, List.map_map, List.map_map]
    exact congrArg List.sum (List.map_congr_left fun e he => hlens e he)
  have htag : ∀ r : Fin ((c.examples.map Prod.fst).map List.length).sum, IsLabel o missing ((c.examples.map Prod.snd).flatten.getD r 0) := by
    intro r
    have hr : (r : ℕ) < (c.examples.map Prod.snd).flatten.length := by rw [htl]; exact r.2
    rw [List.getD_eq_getElem?_getD, List.getElem?_eq_getElem hr, Option.getD_some]
    obtain ⟨ts, h1, h2⟩ := List.mem_flatten.1 (List.getElem_mem hr)
    obtain ⟨e, he, rfl⟩ := List.mem_map.1 h1
    exact c.valid e he _ h2
  have htr := C73_chain (hf θ) (C89_with_array_floats_trains hn hne pad (blankedAt pad _) (fun _ => rfl)
    (softmax_stacked_trains (normalize := false) (negPrefix := negPrefix) W b hW hb ho hT (by simp : (normalizeOutputs || true) = true) hne pad (blankedAt pad _) (fun _ => rfl)
      hs hnames htag (isTags_docs c) _))
  refine takes_loss (C77_trains htr (docs_kind (a := .list) (by simp) c.isDocs)) (funext fun θ' => ?_)
  have e1 := out_seqs hdoc c.isDocs (docs_some c.toDocBatch).1 (docs_some c.toDocBatch).2 (C51_chain (hf θ'))
  obtain ⟨-, -, hlen, -⟩ := outOf_spec hdoc θ'
  have e2 := zip_flatten (fun row t => g θ' (fun j => row.getD j 0) t) (outOf hdoc θ') c.examples fun e he => by rw [hlen (by simp), hlens e he]
  refine Eq.trans ?_ e2
  have e1' : (c.examples.map fun e => outOf hdoc θ' e.1).flatten = rowsOf (f (θ', docRows m (c.examples.map Prod.fst))) := by
    rw [e1]; exact congrArg List.flatten (List.map_map (l := c.examples)).symm
  rw [e1', ← sum_rows _ _ htl]
  simp only [tagLoss, Bool.false_eq_true, if_false, div_one]
  refine Finset.sum_congr rfl fun r _ => ?_
  have hr : (r : ℕ) < (c.examples.map Prod.snd).flatten.length := by rw [htl]; exact r.2
  rw [List.getD_eq_getElem?_getD, List.getElem?_eq_getElem hr, Option.getD_some]
  simp only [g]
  congr 2
  funext k
  congr 1
  simp only [affine]
  have e3 : spread (blankedAt pad _) (f (θ', docRows m (c.examples.map Prod.fst))) (blankedAt pad _ r) = f (θ', docRows m (c.examples.map Prod.fst)) r := by
    exact spread_at (blankedAt_inj pad _) _ r
  rw [e3]

/-- A tagger: layers that turn documents into documents, then `with_array(Softmax)`, trained with
`SequenceCategoricalCrossentropy(normalize=False)` on a tag for each token, some of which may be missing. -/
theorem C120_tags {m n o : ℕ} {full : Bool} {Ls : List Layer}
    (hdoc : ∀ (θ : Params sh) P, IsParams P θ → PerDocument (chain Ls) true P .list m .list n full)
    (hex : ∀ (ls : List ℕ) (x : Fin ls.sum → Fin m → ℝ), 0 < ls.sum → (full = true → ∀ l ∈ ls, 0 < l) → ∃ f, ∀ θ : Params sh,
      ExactChain true θ Ls (Kind.seqs ls m) (Kind.seqs ls n) f x)
    {W b : Fin N} (hW : sh W = (o, n)) (hb : sh b = (1, o)) (hn : 0 < n) (ho : 0 < o) {T : ℝ} (hT : 0 < T) (normalizeOutputs : Bool) (pad : ℕ)
    {names : Option (List PyStr)} {missing : Missing} {negPrefix : Option PyStr} {smoothing : ℝ} (hs : validSmoothing o smoothing)
    (hnames : (CCE.mk false names missing negPrefix smoothing).namesFit o)
    {cfg : OptCfg (Nat × String)} (hra : cfg.useRadam = false) (hb2 : ∀ t k s, cfg.b2 t k s = 0) (hL2 : ∀ t k s, cfg.L2 t k s = 0)
    (s : TrainState A) (its : List (List (DocTags m full o missing) × List (DocTags m full o missing)))
    (hsame : ∀ it ∈ its, SameDocs (it.1.map DocTags.toDocBatch) (it.2.map DocTags.toDocBatch)) (H : Wired s.nodes root slot key θ 0) :
    ∃ (s₁ s₂ : TrainState A) (θ' : Params sh),
      trainLoop (chain (Ls ++ [withArray2dL (softmaxLayer W b normalizeOutputs T) pad])) N slot cfg root s
        (its.map fun it => it.1.map fun c => (c.input, seqCceGrad (SeqCCE.init false names missing negPrefix smoothing) c.truths)) = .ok s₁ ∧
      trainLoop (chain (Ls ++ [withArray2dL (softmaxLayer W b normalizeOutputs T) pad])) N slot cfg root s
        (its.map fun it => it.2.map fun c => (c.input, seqCceGrad (SeqCCE.init false names missing negPrefix smoothing) c.truths)) = .ok s₂ ∧
      Wired s₁.nodes root slot key θ' 0 ∧ Wired s₂.nodes root slot key θ' 0 := by
  obtain ⟨ℓ, hℓ⟩ := tags_takes (sh := sh) hdoc hex hW hb hn ho hT normalizeOutputs pad hs hnames
  exact split_same (ℓ := ℓ) (fun c => ⟨⟨c.input, seqCceGrad (SeqCCE.init false names missing negPrefix smoothing) c.truths, fun θ => (c.examples.map (ℓ θ)).sum⟩, c.examples, fun _ => rfl⟩) hℓ hra hb2 hL2 s its
    (fun it hit => by have := hsame it hit; simpa only [SameDocs, List.flatMap_map] using this) H

/-- The same with Adam (and L2 regularisation, weight decay, averages), for layers whose callbacks leave a gradient for every parameter: what the
optimizer remembers is the same as well. -/
theorem C120_tags_adam {m n o : ℕ} {full : Bool} {Ls : List Layer}
    (hdoc : ∀ (θ : Params sh) P, IsParams P θ → PerDocument (chain Ls) true P .list m .list n full)
    (hex : ∀ (ls : List ℕ) (x : Fin ls.sum → Fin m → ℝ), 0 < ls.sum → (full = true → ∀ l ∈ ls, 0 < l) → ∃ f, ∀ θ : Params sh,
      ExactChain true θ Ls (Kind.seqs ls m) (Kind.seqs ls n) f x)
    {W b : Fin N} (hW : sh W = (o, n)) (hb : sh b = (1, o)) (hn : 0 < n) (ho : 0 < o) {T : ℝ} (hT : 0 < T) (normalizeOutputs : Bool) (pad : ℕ)
    {names : Option (List PyStr)} {missing : Missing} {negPrefix : Option PyStr} {smoothing : ℝ} (hs : validSmoothing o smoothing)
    (hnames : (CCE.mk false names missing negPrefix smoothing).namesFit o)
    {cfg : OptCfg (Nat × String)} (hra : cfg.useRadam = false) (hbb : ∀ t k s, 0 < cfg.b2 t k s → 0 < cfg.b1 t k s) (hsh : ∀ p, 0 < (sh p).1)
    {ps : List ℕ} (hfill : Fills (chain (Ls ++ [withArray2dL (softmaxLayer W b normalizeOutputs T) pad])) ps) (hps : ∀ p : Fin N, (p : ℕ) ∈ ps)
    (s : TrainState A) {S : Vars sh} (its : List (List (DocTags m full o missing) × List (DocTags m full o missing)))
    (hsame : ∀ it ∈ its, SameDocs (it.1.map DocTags.toDocBatch) (it.2.map DocTags.toDocBatch)) (hne : ∀ it ∈ its, it.1 ≠ [] ∧ it.2 ≠ [])
    (H : Wired s.nodes root slot key S.weights 0) (hu : DistinctIds s.nodes root) (hrem : ∀ p, Remembers s.opt (key p) (S p)) :
    ∃ (s₁ s₂ : TrainState A) (S' : Vars sh),
      trainLoop (chain (Ls ++ [withArray2dL (softmaxLayer W b normalizeOutputs T) pad])) N slot cfg root s
        (its.map fun it => it.1.map fun c => (c.input, seqCceGrad (SeqCCE.init false names missing negPrefix smoothing) c.truths)) = .ok s₁ ∧
      trainLoop (chain (Ls ++ [withArray2dL (softmaxLayer W b normalizeOutputs T) pad])) N slot cfg root s
        (its.map fun it => it.2.map fun c => (c.input, seqCceGrad (SeqCCE.init false names missing negPrefix smoothing) c.truths)) = .ok s₂ ∧
      Wired s₁.nodes root slot key S'.weights 0 ∧ Wired s₂.nodes root slot key S'.weights 0 ∧
      ∀ p, Remembers s₁.opt (key p) (S' p) ∧ Remembers s₂.opt (key p) (S' p) := by
  obtain ⟨ℓ, hℓ⟩ := tags_takes (sh := sh) hdoc hex hW hb hn ho hT normalizeOutputs pad hs hnames
  exact split_same_adam (ℓ := ℓ) (fun c => ⟨⟨c.input, seqCceGrad (SeqCCE.init false names missing negPrefix smoothing) c.truths, fun θ => (c.examples.map (ℓ θ)).sum⟩, c.examples, fun _ => rfl⟩) hℓ hfill hps hra hbb hsh s its hne
    (fun it hit => by have := hsame it hit; simpa only [SameDocs, List.flatMap_map] using this) H hu hrem

end

/-! ### Every parameter gets a gradient -/

theorem withArrayRaggedL_fills {L : Layer} {ps : List ℕ} (h : Fills L ps) : Fills (withArrayRaggedL L) ps := by
  intro train P v Y cb e D G dv G' hc
  obtain ⟨X, -, e⟩ := bind_ok e
  obtain ⟨⟨Y1, cb1⟩, e1, e⟩ := bind_ok e
  obtain ⟨Y2, -, e⟩ := bind_ok e
  cases e
  obtain ⟨d1, -, hc⟩ := bind_ok hc
  obtain ⟨⟨d2, G2⟩, e2, hc⟩ := bind_ok hc
  obtain ⟨d3, -, hc⟩ := bind_ok hc
  cases hc
  exact h _ _ _ _ _ e1 _ _ _ _ e2

theorem withArrayListL_fills {L : Layer} {ps : List ℕ} (h : Fills L ps) (pad : ℕ) : Fills (withArrayListL L pad) ps := by
  intro train P v Y cb e D G dv G' hc
  obtain ⟨Xs, -, e⟩ := bind_ok e
  obtain ⟨Xf, -, e⟩ := bind_ok e
  obtain ⟨⟨Y1, cb1⟩, e1, e⟩ := bind_ok e
  obtain ⟨Y2, -, e⟩ := bind_ok e
  obtain ⟨Y3, -, e⟩ := bind_ok e
  cases e
  obtain ⟨d1, -, hc⟩ := bind_ok hc
  obtain ⟨d1', -, hc⟩ := bind_ok hc
  obtain ⟨⟨d2, G2⟩, e2, hc⟩ := bind_ok hc
  obtain ⟨d3, -, hc⟩ := bind_ok hc
  obtain ⟨d4, -, hc⟩ := bind_ok hc
  cases hc
  exact h _ _ _ _ _ e1 _ _ _ _ e2

theorem withArray2dPaddedL_fills {L : Layer} {ps : List ℕ} (h : Fills L ps) : Fills (withArray2dPaddedL L) ps := by
  intro train P v Y cb e D G dv G' hc
  obtain ⟨Xs, -, e⟩ := bind_ok e
  obtain ⟨⟨Y1, cb1⟩, e1, e⟩ := bind_ok e
  obtain ⟨Y2, -, e⟩ := bind_ok e
  obtain ⟨Y3, -, e⟩ := bind_ok e
  cases e
  obtain ⟨d1, -, hc⟩ := bind_ok hc
  obtain ⟨⟨d2, G2⟩, e2, hc⟩ := bind_ok hc
  obtain ⟨d3, -, hc⟩ := bind_ok hc
  obtain ⟨d4, -, hc⟩ := bind_ok hc
  cases hc
  exact h _ _ _ _ _ e1 _ _ _ _ e2

/-- Around a layer, `with_array2d` fills what the layer fills. -/
theorem C120_with_array2d_fills {L : Layer} {ps : List ℕ} (h : Fills L ps) (pad : ℕ) : Fills (withArray2dL L pad) ps := by
  intro train P v Y cb e
  cases v with
  | ragged _ _ => exact withArrayRaggedL_fills h _ _ _ _ _ e
  | padded _ _ _ _ _ => exact withArray2dPaddedL_fills h _ _ _ _ _ e
  | list _ => exact withArrayListL_fills h pad _ _ _ _ _ e
  | tup _ => exact withArrayListL_fills h pad _ _ _ _ _ e
  | arr _ => exact h _ _ _ _ _ e
  | ints _ => exact h _ _ _ _ _ e
  | intMat _ => exact h _ _ _ _ _ e

/-- Layers without parameters keep the gradients there are. -/
theorem C120_expand_window_fills (nW : ℕ) : Fills (expandWindow nW) [] := by
  intro train P v Y cb e D G dv G' hc
  have key : ∀ (X : Val) , (X.asArr.bind fun X => expandWindowFloats nW X) = .ok (Y, cb) → (∀ q, G q ≠ none → G' q ≠ none) ∧ ∀ q ∈ ([] : List ℕ), G' q ≠ none := by
    intro X e
    obtain ⟨X, -, e⟩ := bind_ok e
    obtain ⟨Y, -, e⟩ := bind_ok e
    cases e
    obtain ⟨d1, -, hc⟩ := bind_ok hc
    obtain ⟨d2, -, hc⟩ := bind_ok hc
    cases hc
    exact ⟨fun _ h => h, by simp⟩
  cases v with
  | ragged X ls =>
    obtain ⟨Y, -, e⟩ := bind_ok (show Except.bind _ _ = _ from e)
    cases e
    obtain ⟨d1, -, hc⟩ := bind_ok hc
    obtain ⟨d2, -, hc⟩ := bind_ok hc
    cases hc
    exact ⟨fun _ h => h, by simp⟩
  | padded a b c d f => exact key (.padded a b c d f) e
  | list a => exact key (.list a) e
  | tup a => exact key (.tup a) e
  | arr a => exact key (.arr a) e
  | ints a => exact key (.ints a) e
  | intMat a => exact key (.intMat a) e

theorem C120_list2ragged_fills : Fills list2raggedL [] := by
  intro train P v Y cb e D G dv G' hc
  obtain ⟨X, -, e⟩ := bind_ok e
  obtain ⟨Y, -, e⟩ := bind_ok e
  cases e
  obtain ⟨d1, -, hc⟩ := bind_ok hc
  obtain ⟨d2, -, hc⟩ := bind_ok hc
  cases hc
  exact ⟨fun _ h => h, by simp⟩

theorem C120_reduce_mean_fills : Fills reduceMeanLayer [] := by
  intro train P v Y cb e D G dv G' hc
  obtain ⟨ls, -, e⟩ := bind_ok e
  obtain ⟨X, -, e⟩ := bind_ok e
  obtain ⟨Y, -, e⟩ := bind_ok e
  cases e
  obtain ⟨d1, -, hc⟩ := bind_ok hc
  obtain ⟨d2, -, hc⟩ := bind_ok hc
  obtain ⟨d3, -, hc⟩ := bind_ok hc
  cases hc
  exact ⟨fun _ h => h, by simp⟩
/-! ### Examples -/

/-- Shapes for windows of three tokens with one number each, two numbers for each token, and three labels. -/
def docTrainShapes : Fin 4 → ℕ × ℕ := ![(2, 3), (1, 2), (3, 2), (1, 3)]

/-- Each token is seen with its neighbours. -/
noncomputable def docTok2vec : Layer := withArray2dL (chain [expandWindow 1, linear 0 1]) 1

theorem docTok2vec_doc (θ : Params docTrainShapes) (P : ParamVals) (hP : IsParams P θ) : PerDocument docTok2vec true P .list 1 .list 2 false :=
  C119_with_array_list_partial (by decide) (le_refl 1) (C119_sees_chain (w := 1) (w' := 0) (k := 3) (by simp) (C119_sees_expand_window 1 1 true P)
    (C119_sees_chain_one (C119_maps_rows (C116_exact_rows (C116_linear 0 1 rfl rfl true θ)) hP)))

theorem docTok2vec_exact (ls : List ℕ) (x : Fin ls.sum → Fin 1 → ℝ) (h : 0 < ls.sum) : ∃ f, ∀ θ : Params docTrainShapes,
    Exact docTok2vec true (Kind.seqs ls 1) (Kind.seqs ls 2) f θ x := by
  refine ⟨fun p => collect (blankedAt 1 ls) (affine (windowOf (fun _ => 0) 1 (spread (blankedAt 1 ls) p.2)) (p.1.get (m := (2 * 1 + 1) * 1) 0 rfl)
    (p.1.vec 1 rfl)), fun θ => ?_⟩
  exact C80_with_array_list_pad (f := fun p => affine (windowOf (fun _ => 0) 1 p.2) (p.1.get (m := (2 * 1 + 1) * 1) 0 rfl) (p.1.vec 1 rfl))
    (by decide) (by decide) (by rintro rfl; simp at h) 1 (blankedAt 1 ls) (fun _ => rfl)
    (C51_chain (.cons (C76_floats 1 true θ _) (.one (C56_linear (sh := docTrainShapes) (nI := (2 * 1 + 1) * 1) (nO := 2) 0 1 rfl rfl true θ _))))

example {A : Type} {root : Nat} {slot : ℕ → Nat × String} {key : Fin 4 → Nat × String} {θ : Params docTrainShapes}
    {cfg : OptCfg (Nat × String)} (hra : cfg.useRadam = false) (hb2 : ∀ t k s, cfg.b2 t k s = 0) (hL2 : ∀ t k s, cfg.L2 t k s = 0)
    (s : TrainState A) (its : List (List (DocTags 1 false 3 (.int (-1))) × List (DocTags 1 false 3 (.int (-1)))))
    (hsame : ∀ it ∈ its, SameDocs (it.1.map DocTags.toDocBatch) (it.2.map DocTags.toDocBatch)) (H : Wired s.nodes root slot key θ 0) :=
  C120_tags (Ls := [docTok2vec]) (W := 2) (b := 3) (fun θ P hP => C119_chain_one (docTok2vec_doc θ P hP))
    (fun ls x h _ => (docTok2vec_exact ls x h).imp fun f hf θ => .one (hf θ)) rfl rfl (by decide) (by decide) (T := 1) (by norm_num) true 0
    (names := none) (negPrefix := none) (smoothing := 0) (by simp [validSmoothing]) (by simp [CCE.namesFit]) hra hb2 hL2 s its hsame H

example {A : Type} {root : Nat} {slot : ℕ → Nat × String} {key : Fin 4 → Nat × String} {θ : Params docTrainShapes}
    {cfg : OptCfg (Nat × String)} (hra : cfg.useRadam = false) (hb2 : ∀ t k s, cfg.b2 t k s = 0) (hL2 : ∀ t k s, cfg.L2 t k s = 0)
    (s : TrainState A) (its : List (List (DocLabels .list 1 false 3 (.int (-1))) × List (DocLabels .list 1 false 3 (.int (-1)))))
    (hsame : ∀ it ∈ its, SameDocs (it.1.map DocLabels.toDocBatch) (it.2.map DocLabels.toDocBatch)) (H : Wired s.nodes root slot key θ 0) :=
  C120_labels (Ls := [docTok2vec, list2raggedL, reduceMeanLayer]) (W := 2) (b := 3) (a := .list) (by simp)
    (fun θ P hP => C119_chain (by simp) (docTok2vec_doc θ P hP) (C119_chain (by simp) (C119_list2ragged (by decide) true P)
      (C119_chain_one (C119_reduce_mean 2 true P)) (by simp)) (by simp))
    (fun ls x h _ => by
      obtain ⟨f, hf⟩ := docTok2vec_exact ls x h
      exact ⟨_, fun θ => .cons (hf θ) (.cons (C80_list2ragged (by decide) h _) (.one (C75_mean_partial h true θ _)))⟩)
    rfl rfl (by decide) (T := 1) (by norm_num) true ⟨false, none, .int (-1), none, 0⟩ rfl (by simp [validSmoothing]) (by simp [CCE.namesFit])
    hra hb2 hL2 s its hsame H

theorem docTok2vec_fills : Fills docTok2vec [0, 1] :=
  C120_with_array2d_fills (C90_chain_fills (.cons (C120_expand_window_fills 1) (.cons (C90_linear_fills 0 1) .nil))) 1

theorem docTrainShapes_pos (p : Fin 4) : 0 < (docTrainShapes p).1 := by fin_cases p <;> decide

/-- With Adam. -/
example {A : Type} {root : Nat} {slot : ℕ → Nat × String} {key : Fin 4 → Nat × String}
    (s : TrainState A) {S : Vars docTrainShapes} (its : List (List (DocTags 1 false 3 (.int (-1))) × List (DocTags 1 false 3 (.int (-1)))))
    (hsame : ∀ it ∈ its, SameDocs (it.1.map DocTags.toDocBatch) (it.2.map DocTags.toDocBatch)) (hne : ∀ it ∈ its, it.1 ≠ [] ∧ it.2 ≠ [])
    (H : Wired s.nodes root slot key S.weights 0) (hu : DistinctIds s.nodes root) (hrem : ∀ p, Remembers s.opt (key p) (S p)) :=
  C120_tags_adam (Ls := [docTok2vec]) (W := 2) (b := 3) (fun θ P hP => C119_chain_one (docTok2vec_doc θ P hP))
    (fun ls x h _ => (docTok2vec_exact ls x h).imp fun f hf θ => .one (hf θ)) rfl rfl (by decide) (by decide) (T := 1) (by norm_num) true 0
    (names := none) (negPrefix := none) (smoothing := 0) (by simp [validSmoothing]) (by simp [CCE.namesFit]) (cfg := exAdamTrain) rfl
    (fun _ _ _ _ => by norm_num [exAdamTrain]) docTrainShapes_pos
    (C90_chain_fills (.cons docTok2vec_fills (.cons (C120_with_array2d_fills (C90_softmax_fills 2 3 true 1) 0) .nil)))
    (fun p => by fin_cases p <;> decide) s its hsame hne H hu hrem

example {A : Type} {root : Nat} {slot : ℕ → Nat × String} {key : Fin 4 → Nat × String}
    (s : TrainState A) {S : Vars docTrainShapes} (its : List (List (DocLabels .list 1 false 3 (.int (-1))) × List (DocLabels .list 1 false 3 (.int (-1)))))
    (hsame : ∀ it ∈ its, SameDocs (it.1.map DocLabels.toDocBatch) (it.2.map DocLabels.toDocBatch)) (hne : ∀ it ∈ its, it.1 ≠ [] ∧ it.2 ≠ [])
    (H : Wired s.nodes root slot key S.weights 0) (hu : DistinctIds s.nodes root) (hrem : ∀ p, Remembers s.opt (key p) (S p)) :=
  C120_labels_adam (Ls := [docTok2vec, list2raggedL, reduceMeanLayer]) (W := 2) (b := 3) (a := .list) (by simp)
    (fun θ P hP => C119_chain (by simp) (docTok2vec_doc θ P hP) (C119_chain (by simp) (C119_list2ragged (by decide) true P)
      (C119_chain_one (C119_reduce_mean 2 true P)) (by simp)) (by simp))
    (fun ls x h _ => by
      obtain ⟨f, hf⟩ := docTok2vec_exact ls x h
      exact ⟨_, fun θ => .cons (hf θ) (.cons (C80_list2ragged (by decide) h _) (.one (C75_mean_partial h true θ _)))⟩)
    rfl rfl (by decide) (T := 1) (by norm_num) true ⟨false, none, .int (-1), none, 0⟩ rfl (by simp [validSmoothing]) (by simp [CCE.namesFit])
    (cfg := exAdamTrain) rfl (fun _ _ _ _ => by norm_num [exAdamTrain]) docTrainShapes_pos
    (C90_chain_fills (.cons docTok2vec_fills (.cons C120_list2ragged_fills (.cons C120_reduce_mean_fills (.cons (C90_softmax_fills 2 3 true 1) .nil)))))
    (fun p => by fin_cases p <;> decide) s its hsame hne H hu hrem

/-- A model that gives a vector for each document. -/
example {A : Type} {root : Nat} {slot : ℕ → Nat × String} {key : Fin 4 → Nat × String} {θ : Params docTrainShapes}
    {cfg : OptCfg (Nat × String)} (hra : cfg.useRadam = false) (hb2 : ∀ t k s, cfg.b2 t k s = 0) (hL2 : ∀ t k s, cfg.L2 t k s = 0)
    (s : TrainState A) (its : List (List (DocVectors .list 1 false 3) × List (DocVectors .list 1 false 3)))
    (hsame : ∀ it ∈ its, SameDocs (it.1.map DocVectors.toDocBatch) (it.2.map DocVectors.toDocBatch)) (H : Wired s.nodes root slot key θ 0) :=
  C120_vectors (a := .list) (by simp) (L := chain [docTok2vec, list2raggedL, reduceMeanLayer, linear 2 3])
    (fun θ P hP => C119_chain (by simp) (docTok2vec_doc θ P hP) (C119_chain (by simp) (C119_list2ragged (by decide) true P)
      (C119_chain (by simp) (C119_reduce_mean 2 true P)
        (C119_chain_one (C119_rows (C119_maps_rows (C116_exact_rows (C116_linear (i := 2) (o := 3) 2 3 rfl rfl true θ)) hP))) (by simp)) (by simp)) (by simp))
    (fun ls x h _ => by
      obtain ⟨f, hf⟩ := docTok2vec_exact ls x h
      exact ⟨_, fun θ => C51_chain (.cons (hf θ) (.cons (C80_list2ragged (by decide) h _) (.cons (C75_mean_partial h true θ _)
        (.one (C56_linear (sh := docTrainShapes) (nI := 2) (nO := 3) 2 3 rfl rfl true θ _)))))⟩)
    hra hb2 hL2 s its hsame H

example {A : Type} {root : Nat} {slot : ℕ → Nat × String} {key : Fin 4 → Nat × String}
    (s : TrainState A) {S : Vars docTrainShapes} (its : List (List (DocVectors .list 1 false 3) × List (DocVectors .list 1 false 3)))
    (hsame : ∀ it ∈ its, SameDocs (it.1.map DocVectors.toDocBatch) (it.2.map DocVectors.toDocBatch)) (hne : ∀ it ∈ its, it.1 ≠ [] ∧ it.2 ≠ [])
    (H : Wired s.nodes root slot key S.weights 0) (hu : DistinctIds s.nodes root) (hrem : ∀ p, Remembers s.opt (key p) (S p)) :=
  C120_vectors_adam (a := .list) (by simp) (L := chain [docTok2vec, list2raggedL, reduceMeanLayer, linear 2 3])
    (fun θ P hP => C119_chain (by simp) (docTok2vec_doc θ P hP) (C119_chain (by simp) (C119_list2ragged (by decide) true P)
      (C119_chain (by simp) (C119_reduce_mean 2 true P)
        (C119_chain_one (C119_rows (C119_maps_rows (C116_exact_rows (C116_linear (i := 2) (o := 3) 2 3 rfl rfl true θ)) hP))) (by simp)) (by simp)) (by simp))
    (fun ls x h _ => by
      obtain ⟨f, hf⟩ := docTok2vec_exact ls x h
      exact ⟨_, fun θ => C51_chain (.cons (hf θ) (.cons (C80_list2ragged (by decide) h _) (.cons (C75_mean_partial h true θ _)
        (.one (C56_linear (sh := docTrainShapes) (nI := 2) (nO := 3) 2 3 rfl rfl true θ _)))))⟩)
    (cfg := exAdamTrain) rfl (fun _ _ _ _ => by norm_num [exAdamTrain]) docTrainShapes_pos
    (C90_chain_fills (.cons docTok2vec_fills (.cons C120_list2ragged_fills (.cons C120_reduce_mean_fills (.cons (C90_linear_fills 2 3) .nil)))))
    (fun p => by fin_cases p <;> decide) s its hsame hne H hu hrem

/-- The same two documents (two tokens and one token) with their tags, in one batch or one by one. -/
noncomputable def exDocsTogether : DocTags 1 false 3 (.int (-1)) where
  input := .list [.arr (Arr.toMat ⟨[1], [[5], [7]]⟩), .arr (Arr.toMat ⟨[1], [[6]]⟩)]
  examples := [([[5], [7]], [2, -1]), ([[6]], [0])]
  isDocs := ⟨[Arr.toMat ⟨[1], [[5], [7]]⟩, Arr.toMat ⟨[1], [[6]]⟩], rfl, by simp [cols_toMat], by
    simp only [List.map_cons, List.map_nil]
    rw [rowsList_toMat (by simp), rowsList_toMat (by simp)]⟩
  nonempty := ⟨_, List.mem_cons_self, by simp⟩
  whole := by simp
  valid := by simp [IsLabel]
  truths := [.intList [2, -1], .intArray [0]]
  tags := .cons ⟨.inl rfl, rfl⟩ (.cons ⟨.inr rfl, rfl⟩ .nil)

noncomputable def exDocAlone (x : ℝ) (y : ℤ) (h : IsLabel 3 (.int (-1)) y) : DocTags 1 false 3 (.int (-1)) where
  input := .list [.arr (Arr.toMat ⟨[1], [[x]]⟩)]
  examples := [([[x]], [y])]
  isDocs := ⟨[Arr.toMat ⟨[1], [[x]]⟩], rfl, by simp [cols_toMat], by
    simp only [List.map_cons, List.map_nil]
    rw [rowsList_toMat (by simp)]⟩
  nonempty := ⟨_, List.mem_cons_self, by simp⟩
  whole := by simp
  valid := by simpa using h
  truths := [.intList [y]]
  tags := .cons ⟨.inl rfl, rfl⟩ .nil

noncomputable def exDocPair : DocTags 1 false 3 (.int (-1)) where
  input := .list [.arr (Arr.toMat ⟨[1], [[5], [7]]⟩)]
  examples := [([[5], [7]], [2, -1])]
  isDocs := ⟨[Arr.toMat ⟨[1], [[5], [7]]⟩], rfl, by simp [cols_toMat], by
    simp only [List.map_cons, List.map_nil]
    rw [rowsList_toMat (by simp)]⟩
  nonempty := ⟨_, List.mem_cons_self, by simp⟩
  whole := by simp
  valid := by simp [IsLabel]
  truths := [.intArray [2, -1]]
  tags := .cons ⟨.inr rfl, rfl⟩ .nil

example : SameDocs ([exDocsTogether].map DocTags.toDocBatch) ([exDocAlone 6 0 (by simp [IsLabel]), exDocPair].map DocTags.toDocBatch) :=
  List.Perm.swap _ _ _

end Thinc
