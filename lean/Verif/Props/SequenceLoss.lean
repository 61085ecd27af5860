import Verif.Props.CrossentropyGrad
/-! # C47 Cross entropy of a list of sequences -/
namespace Thinc
open Spec Finset

/-- **C47** (gradients).  If the cross entropy of every sequence has a gradient, without dividing by the number of
rows, the result is the list of these gradients, in order, divided by the number of sequences if `normalize` is set;
the loss is the sum of all squared entries. -/
theorem C47_gradients (normalize : Bool) (names : Option (List PyStr)) (missing : Missing) (negPrefix : Option PyStr)
    (smoothing : ℝ) (guesses : List (Mat ℝ)) (truths : List Truths) (grads : List (Mat ℝ))
    (hlen : guesses.length = truths.length) (hlen2 : grads.length = guesses.length)
    (h : ∀ (i : Nat) (hi : i < guesses.length),
      (CCE.mk false names missing negPrefix smoothing).getGrad guesses[i] truths[i] = .ok grads[i]) :
    ∃ Ds l, (SeqCCE.init normalize names missing negPrefix smoothing).getGrad guesses truths = .ok Ds ∧
      (SeqCCE.init normalize names missing negPrefix smoothing).getLoss guesses truths = .ok l ∧
      (SeqCCE.init normalize names missing negPrefix smoothing).call guesses truths = .ok (Ds, l) ∧
      ∃ hDs : Ds.length = guesses.length,
      (∀ (i : Nat) (hi : i < guesses.length), Ds[i].rows = grads[i].rows ∧ Ds[i].cols = grads[i].cols ∧
        ∀ r < grads[i].rows, ∀ k < grads[i].cols,
          Ds[i].at r k = grads[i].at r k / (if normalize then (guesses.length : ℝ) else 1)) ∧
      l = (Ds.map fun D => ∑ r ∈ range D.rows, ∑ k ∈ range D.cols, D.at r k ^ 2).sum := by
  let s := SeqCCE.init normalize names missing negPrefix smoothing
  let Ds : List (Mat ℝ) := grads.map fun d => if normalize then d.map (· / (guesses.length : ℝ)) else d
  have hg : s.getGrad guesses truths = .ok Ds := by
    unfold SeqCCE.getGrad
    rw [if_neg (by simpa using hlen)]
    refine mapM_forall2 ?_
    rw [List.forall₂_iff_get]
    refine ⟨by simp [Ds]; omega, fun i h1 h2 => ?_⟩
    have hi : i < guesses.length := by simp at h1; omega
    simp only [List.get_eq_getElem, List.getElem_zip, Ds, List.getElem_map]
    have := h i hi
    simp only [s, SeqCCE.init, this, bind, Except.bind]
    rfl
  have hl : seqLossFromGrad Ds = (Ds.map fun D => ∑ r ∈ range D.rows, ∑ k ∈ range D.cols, D.at r k ^ 2).sum := by
    unfold seqLossFromGrad
    have key : ∀ (xs : List (Mat ℝ)) (a : ℝ), xs.foldl (fun loss g => loss + lossFromGrad g) a =
        a + (xs.map fun D => ∑ r ∈ range D.rows, ∑ k ∈ range D.cols, D.at r k ^ 2).sum := by
      intro xs
      induction xs with
      | nil => intro a; simp
      | cons x xs ih =>
        intro a
        rw [List.foldl_cons, ih, List.map_cons, List.sum_cons, add_assoc]
        rfl
    rw [key, zero_add]
  refine ⟨Ds, seqLossFromGrad Ds, hg, ?_, ?_, by simp [Ds]; omega, fun i hi => ?_, hl⟩
  · show s.getLoss guesses truths = _
    simp only [SeqCCE.getLoss, hg, bind, Except.bind]; rfl
  · show s.call guesses truths = _
    simp only [SeqCCE.call, hg, bind, Except.bind]; rfl
  · simp only [Ds, List.getElem_map]
    cases normalize with
    | true => exact ⟨rfl, rfl, fun r _ k _ => rfl⟩
    | false => exact ⟨rfl, rfl, fun r _ k _ => by simp⟩

/-- Two sequences of different lengths for which every gradient exists. -/
example : ∃ (guesses : List (Mat ℝ)) (truths : List Truths) (grads : List (Mat ℝ)), guesses.length = 2 ∧
    truths.length = 2 ∧ grads.length = 2 ∧ ∀ (i : Nat) (h1 : i < guesses.length) (h2 : i < truths.length)
      (h3 : i < grads.length), (CCE.mk false none .none none 0).getGrad guesses[i] truths[i] = .ok grads[i] := by
  have key : ∀ n, ∃ D, (CCE.mk false none .none none 0).getGrad (Mat.ofFn n 2 (fun _ _ => 0.5)) (.intList (List.replicate n 1)) = .ok D := by
    intro n
    obtain ⟨D, hD, _⟩ := C46_int_labels_partial (CCE.mk false none .none none 0) (Mat.ofFn n 2 (fun _ _ => 0.5))
      ⟨Or.inl ⟨rfl, by show 0 < 2; decide⟩, fun _ h => by simp at h, fun i _ k hk => by
        rw [ofFn_at n 2 _ _ _ hk]; norm_num⟩ (List.replicate n 1) (by simp; rfl)
      (fun y hy => Or.inl (by
        have := List.eq_of_mem_replicate hy
        subst this
        exact ⟨by decide, by show (1 : Int) < 2; decide⟩)) _ (Or.inl rfl)
    exact ⟨D, hD⟩
  obtain ⟨D1, h1⟩ := key 1
  obtain ⟨D3, h3⟩ := key 3
  refine ⟨[Mat.ofFn 1 2 (fun _ _ => 0.5), Mat.ofFn 3 2 (fun _ _ => 0.5)],
    [.intList (List.replicate 1 1), .intList (List.replicate 3 1)], [D1, D3], rfl, rfl, rfl, fun i a b c => ?_⟩
  match i, a with
  | 0, _ => exact h1
  | 1, _ => exact h3

theorem mapM_error' {α β ε : Type} (f : α → Except ε β) (xs : List α) (y : α) (ys : List α) (e : ε)
    (h : ∀ x ∈ xs, ∃ z, f x = .ok z) (hy : f y = .error e) : (xs ++ y :: ys).mapM f = .error e := by
  induction xs with
  | nil => simp [List.mapM_cons, hy, bind, Except.bind]
  | cons x xs ih =>
    obtain ⟨z, hz⟩ := h x List.mem_cons_self
    rw [List.cons_append, List.mapM_cons, hz, ih (fun x hx => h x (List.mem_cons_of_mem _ hx))]
    rfl

/-- **C47** (lengths): a different number of guesses and truths is a ValueError. -/
theorem C47_length_mismatch (s : SeqCCE) (guesses : List (Mat ℝ)) (truths : List Truths)
    (h : guesses.length ≠ truths.length) : s.getGrad guesses truths = .error .valueError ∧
      s.getLoss guesses truths = .error .valueError ∧ s.call guesses truths = .error .valueError := by
  have : s.getGrad guesses truths = .error .valueError := by
    unfold SeqCCE.getGrad
    rw [if_pos h]
  refine ⟨this, ?_, ?_⟩
  · simp only [SeqCCE.getLoss, this, bind, Except.bind]
  · simp only [SeqCCE.call, this, bind, Except.bind]

/-- **C47** (errors): otherwise the first sequence whose cross entropy raises decides the exception. -/
theorem C47_first_error (normalize : Bool) (names : Option (List PyStr)) (missing : Missing) (negPrefix : Option PyStr)
    (smoothing : ℝ) (guesses : List (Mat ℝ)) (truths : List Truths) (hlen : guesses.length = truths.length)
    (i : Nat) (hi : i < guesses.length) (e : PyErr)
    (he : (CCE.mk false names missing negPrefix smoothing).getGrad guesses[i] truths[i] = .error e)
    (hbefore : ∀ (j : Nat) (hj : j < i), ∃ D,
      (CCE.mk false names missing negPrefix smoothing).getGrad guesses[j] truths[j] = .ok D) :
    (SeqCCE.init normalize names missing negPrefix smoothing).getGrad guesses truths = .error e := by
  unfold SeqCCE.getGrad
  rw [if_neg (by simpa using hlen)]
  have hz : i < (guesses.zip truths).length := by simp; omega
  have hsplit := List.take_append_drop i (guesses.zip truths)
  rw [List.drop_eq_getElem_cons hz] at hsplit
  rw [← hsplit]
  simp only
  refine mapM_error' _ _ _ _ e ?_ ?_
  · intro p hp
    obtain ⟨j, hj, rfl⟩ := List.getElem_of_mem hp
    simp only [List.length_take] at hj
    obtain ⟨D, hD⟩ := hbefore j (by omega)
    rw [List.getElem_take, List.getElem_zip]
    simp only [SeqCCE.init, hD, bind, Except.bind]
    exact ⟨_, rfl⟩
  · simp only [List.getElem_zip, SeqCCE.init, he, bind, Except.bind]

end Thinc
