import Verif.Lemmas.Layer
/-!
# C64: with_getitem
-/
namespace Thinc
open Spec Spec.Tensor

/-- The values of a tuple with `a` members before and `b` members after the one of kind `K`. -/
def Spec.Kind.around {a b : ℕ} {A : Fin a → Type} {B : Fin b → Type} {E : Type} (As : (i : Fin a) → Kind (A i))
    (K : Kind E) (Bs : (i : Fin b) → Kind (B i)) : Kind (((i : Fin a) → A i) × (E × ((i : Fin b) → B i))) where
  val v x := ∃ us u ws, v = .tup (List.ofFn us ++ u :: List.ofFn ws) ∧ (∀ i, (As i).val (us i) (x.1 i)) ∧ K.val u x.2.1 ∧
    ∀ i, (Bs i).val (ws i) (x.2.2 i)
  grad v x := ∃ us u ws, v = .tup (List.ofFn us ++ u :: List.ofFn ws) ∧ (∀ i, (As i).grad (us i) (x.1 i)) ∧ K.grad u x.2.1 ∧
    ∀ i, (Bs i).grad (ws i) (x.2.2 i)

/-- The index of the member with `a` members before and `b` after it: counted from the front, or from
the back if it is not the last one. -/
inductive Names (a b : ℕ) : Int → Prop
  | front : Names a b a
  | back (h : 0 < b) : Names a b (-(b + 1))

section
variable {α : Type} {a b : ℕ} {us ws : List α}

theorem pyIndex_around {idx : Int} (u : α) (h : Names us.length ws.length idx) :
    pyIndex (us ++ u :: ws) idx = .ok u := by
  have : (if idx < 0 then idx + ((us ++ u :: ws).length : Int) else idx) = us.length := by
    cases h with
    | front => rw [if_neg (by omega)]
    | back h => rw [if_pos (by omega)]; simp only [List.length_append, List.length_cons]; push_cast; ring
  simp only [pyIndex, this]
  rw [if_neg (by omega)]
  simp

theorem pyTake_around {idx : Int} (u : α) (h : Names us.length ws.length idx) :
    pyTake (us ++ u :: ws) idx = us := by
  have : (if idx < 0 then idx + ((us ++ u :: ws).length : Int) else idx) = us.length := by
    cases h with
    | front => rw [if_neg (by omega)]
    | back h => rw [if_pos (by omega)]; simp only [List.length_append, List.length_cons]; push_cast; ring
  simp only [pyTake, this]
  simp

theorem pyDrop_around {idx : Int} (u : α) (h : Names us.length ws.length idx) :
    pyDrop (us ++ u :: ws) (idx + 1) = ws := by
  have : (if idx + 1 < 0 then idx + 1 + ((us ++ u :: ws).length : Int) else idx + 1) = us.length + 1 := by
    cases h with
    | front => rw [if_neg (by omega)]
    | back h => rw [if_pos (by omega)]; simp only [List.length_append, List.length_cons]; push_cast; ring
  simp only [pyDrop, this]
  rw [show ((us.length : Int) + 1).toNat = us.length + 1 by omega, List.drop_append]
  simp

end

/-- `with_getitem(idx, layer)` on a tuple applies the layer to the member named by `idx` and passes the
other members and their gradients through unchanged, for every index that names a member, except `-1`. -/
theorem C64_with_getitem_partial {us ws : List Val} {idx : Int} (hidx : Names us.length ws.length idx) {layer : Layer} {train : Bool}
    {P : ParamVals} {X Y : Val} {cb : Callback} (h : layer train P X = .ok (Y, cb)) :
    ∃ callback, withGetitem idx layer train P (.tup (us ++ X :: ws)) = .ok (.tup (us ++ Y :: ws), callback) ∧
      ∀ dus dws dY dX G G', dus.length = us.length → dws.length = ws.length → cb dY G = .ok (dX, G') →
        callback (.tup (dus ++ dY :: dws)) G = .ok (.tup (dus ++ dX :: dws), G') := by
  refine ⟨fun dOutput G => (do
    let .tup ds := dOutput | .error .typeError
    let (dY, G) ← cb (← pyIndex ds idx) G
    return (.tup (pyTake ds idx ++ [dY] ++ pyDrop ds (idx + 1)), G)), ?_, ?_⟩
  · simp only [withGetitem, pyIndex_around X hidx, bind, Except.bind, h, pure, Except.pure, pyTake_around X hidx,
      pyDrop_around X hidx, List.append_assoc, List.singleton_append]
    rfl
  · intro dus dws dY dX G G' h1 h2 h3
    rw [← h1, ← h2] at hidx
    simp only [pyIndex_around dY hidx, bind, Except.bind, h3, pure, Except.pure, pyTake_around dY hidx,
      pyDrop_around dY hidx, List.append_assoc, List.singleton_append]

/-- With index `-1` the result is the tuple without its last member, the output, and the whole tuple
again. -/
theorem C64_last_index_wrong {us : List Val} {layer : Layer} {train : Bool} {P : ParamVals} {X Y : Val} {cb : Callback}
    (h : layer train P X = .ok (Y, cb)) :
    ∃ callback, withGetitem (-1) layer train P (.tup (us ++ [X])) = .ok (.tup (us ++ [Y] ++ (us ++ [X])), callback) := by
  have h1 : pyIndex (us ++ [X]) (-1) = .ok X := by
    simp [pyIndex]
  have h2 : pyTake (us ++ [X]) (-1) = us := by
    simp only [pyTake]
    rw [if_pos (by omega)]
    simp
  have h3 : pyDrop (us ++ [X]) (-1 + 1) = us ++ [X] := by
    simp [pyDrop]
  refine ⟨fun dOutput G => (do
    let .tup ds := dOutput | .error .typeError
    let (dY, G) ← cb (← pyIndex ds (-1)) G
    return (.tup (pyTake ds (-1) ++ [dY] ++ pyDrop ds (-1 + 1)), G)), ?_⟩
  simp only [withGetitem, h1, bind, Except.bind, h, pure, Except.pure, h2, h3]
  rfl

/-- An index that names no member raises IndexError. -/
theorem C64_out_of_range {xs : List Val} {idx : Int} (h : (xs.length : Int) ≤ idx ∨ idx < -xs.length) (layer : Layer)
    (train : Bool) (P : ParamVals) : withGetitem idx layer train P (.tup xs) = .error .indexError := by
  have : pyIndex xs idx = .error .indexError := by
    simp only [pyIndex]
    rcases h with h | h
    · have h0 : ¬ idx < 0 := by omega
      simp only [h0, if_false]
      rw [List.getElem?_eq_none (by omega)]
    · have h0 : idx < 0 := by omega
      simp only [h0, if_true]
      rw [if_pos (by omega)]
  simp only [withGetitem, this, bind, Except.bind]

section
variable {N : ℕ} {sh : Fin N → ℕ × ℕ} {E F : Type} [NormedAddCommGroup E] [NormedSpace ℝ E] [Tensor E]
  [NormedAddCommGroup F] [NormedSpace ℝ F] [Tensor F] {train : Bool} {θ : Params sh} {a b : ℕ} {A : Fin a → Type}
  {B : Fin b → Type} [∀ i, NormedAddCommGroup (A i)] [∀ i, NormedSpace ℝ (A i)] [∀ i, Tensor (A i)]
  [∀ i, NormedAddCommGroup (B i)] [∀ i, NormedSpace ℝ (B i)] [∀ i, Tensor (B i)]

/-- If the layer's gradients are exact, so are those of `with_getitem(idx, layer)`. -/
theorem C64_exact_partial {As : (i : Fin a) → Kind (A i)} {Bs : (i : Fin b) → Kind (B i)} {K : Kind E} {M : Kind F}
    {L : Layer} {f : Params sh × E → F} {x : E} {us : (i : Fin a) → A i} {ws : (i : Fin b) → B i} {idx : Int}
    (hidx : Names a b idx) (h : Exact L train K M f θ x) :
    Exact (withGetitem idx L) train (Kind.around As K Bs) (Kind.around As M Bs)
      (fun p => (p.2.1, (f (p.1, p.2.2.1), p.2.2.2))) θ (us, (x, ws)) := by
  rintro P _ hP ⟨uv, v, wv, rfl, hu, hv, hw⟩
  obtain ⟨Y, cb, bk, e, hY, hb, hc⟩ := h P v hP hv
  have hidx' : Names (List.ofFn uv).length (List.ofFn wv).length idx := by simpa using hidx
  obtain ⟨callback, e1, hcb⟩ := C64_with_getitem_partial hidx' e
  refine ⟨_, callback, fun dy => ((bk dy.2.1).1, (dy.1, ((bk dy.2.1).2, dy.2.2))), e1, ⟨uv, Y, wv, rfl, hu, hY, hw⟩, ?_, ?_⟩
  · have g0 : IsVJP (fun p : Params sh × (((i : Fin a) → A i) × (E × ((i : Fin b) → B i))) => f (p.1, p.2.2.1)) (θ, (us, (x, ws)))
        (fun dy => ((bk dy).1, (0, ((bk dy).2, 0)))) := by
      refine IsVJP_congr₂ (IsVJP_comp
        (f := fun p : Params sh × (((i : Fin a) → A i) × (E × ((i : Fin b) → B i))) => (p.1, p.2.2.1)) hb
        (IsVJP_prod (IsVJP_fst _) (IsVJP_comp
          (f := fun p : Params sh × (((i : Fin a) → A i) × (E × ((i : Fin b) → B i))) => p.2.2) (IsVJP_fst _)
          (IsVJP_comp (f := fun p : Params sh × (((i : Fin a) → A i) × (E × ((i : Fin b) → B i))) => p.2) (IsVJP_snd _)
            (IsVJP_snd _))))) (fun _ => rfl) fun dy => ?_
      simp
    have g1 : IsVJP (fun p : Params sh × (((i : Fin a) → A i) × (E × ((i : Fin b) → B i))) => p.2.1) (θ, (us, (x, ws)))
        (fun dy => (0, (dy, 0))) :=
      IsVJP_congr₂ (IsVJP_comp (f := fun p : Params sh × (((i : Fin a) → A i) × (E × ((i : Fin b) → B i))) => p.2)
        (IsVJP_fst _) (IsVJP_snd _)) (fun _ => rfl) fun dy => rfl
    have g2 : IsVJP (fun p : Params sh × (((i : Fin a) → A i) × (E × ((i : Fin b) → B i))) => p.2.2.2) (θ, (us, (x, ws)))
        (fun dy => (0, (0, (0, dy)))) :=
      IsVJP_congr₂ (IsVJP_comp
          (f := fun p : Params sh × (((i : Fin a) → A i) × (E × ((i : Fin b) → B i))) => p.2.2) (IsVJP_snd _)
          (IsVJP_comp (f := fun p : Params sh × (((i : Fin a) → A i) × (E × ((i : Fin b) → B i))) => p.2) (IsVJP_snd _)
            (IsVJP_snd _))) (fun _ => rfl) fun dy => rfl
    refine IsVJP_congr₂ (IsVJP_prod g1 (IsVJP_prod g0 g2)) (fun _ => rfl) fun dy => ?_
    simp
  · rintro _ dy G g ⟨du, d, dw, rfl, hdu, hd, hdw⟩ hG
    obtain ⟨dX, G', e2, hdX, hG'⟩ := hc d dy.2.1 G g hd hG
    exact ⟨_, G', hcb _ _ d dX G G' (by simp) (by simp) e2, ⟨du, dX, dw, rfl, hdu, hdX, hdw⟩, hG'⟩
end

/-- Both kinds of index are met: the member at position 1 of a tuple of 4. -/
example : Names 1 2 1 ∧ Names 1 2 (-3) := ⟨.front, .back (by decide)⟩

end Thinc
