import Verif.Spec.SeqBatch
import Verif.Props.Flatten
import Verif.Props.Padded
import Mathlib.Tactic.Conv
/-!
# C34 (sequence wrappers), C69 (conversion layers), C70 (with_flatten)
-/
namespace Thinc
variable {α : Type} [Zero α]
open Spec

/-! ### Conversions -/

omit [Zero α] in
theorem allSome_map {β : Type} (xs : List β) : allSome (xs.map some) = .ok xs := by
  induction xs with
  | nil => rfl
  | cons x xs ih => simp only [List.map_cons, allSome, ih]

omit [Zero α] in
theorem unpad_holds {w : Nat} {P : Padded α} {seqs : List (List (List α))} (h : HoldsPadded w P seqs) :
    unpadList P = .ok (asList w seqs) := by
  unfold unpadList
  rw [padded2list_valid P h.1 seqs h.2.2, h.2.1]
  simp only []
  have : seqs.map (fun s => some (⟨[w], s⟩ : Arr α)) = (asList w seqs).map some := by
    simp [asList, List.map_map]
  rw [this, allSome_map]

theorem pad_holds (w : Nat) (seqs : List (List (List α))) (hne : seqs ≠ []) :
    ∃ P, list2padded (asList w seqs) = .ok P ∧ HoldsPadded w P seqs := by
  obtain ⟨P, h1, h2, h3, h4, _⟩ := list2padded_spec (asList w seqs) w (by
    intro s hs
    obtain ⟨_, _, rfl⟩ := List.mem_map.1 hs
    rfl)
  refine ⟨P, h1, h2, h4 (by simpa [asList] using hne), ?_⟩
  have : (asList w seqs).map Arr.rows = seqs := by simp [asList, List.map_map, Function.comp_def]
  rwa [this] at h3

theorem flatten_asList (w : Nat) (hw : w ≠ 0) (seqs : List (List (List α))) (hne : seqs ≠ [])
    (pad : Nat) : opsFlatten (asList w seqs) pad =
      .ok ⟨[w], laidOut pad (List.replicate w 0) seqs⟩ := by
  rw [flatten_spec (asList w seqs) [w] pad (by
    intro s hs
    obtain ⟨_, _, rfl⟩ := List.mem_map.1 hs
    rfl) (by simpa using hw) (by simpa [asList] using hne)]
  have : (asList w seqs).map Arr.rows = seqs := by simp [asList, List.map_map, Function.comp_def]
  rw [this]
  simp

theorem flatten_asList0 (w : Nat) (hw : w ≠ 0) (seqs : List (List (List α))) (hne : seqs ≠ []) :
    opsFlatten (asList w seqs) 0 = .ok ⟨[w], seqs.flatten⟩ := by
  rw [flatten_asList w hw seqs hne, laidOut_zero]

omit [Zero α] in
theorem unflatten_asList (w : Nat) (seqs : List (List (List α))) :
    opsUnflatten (⟨[w], seqs.flatten⟩ : Arr α) (lens seqs) 0 = .ok (asList w seqs) := by
  have := unflatten_spec (⟨[w], seqs.flatten⟩ : Arr α) 0 [] seqs (by rw [laidOut_zero])
  exact this

omit [Zero α] in
theorem map_len_asList (w : Nat) (seqs : List (List (List α))) :
    (asList w seqs).map Arr.len = lens seqs := by
  simp [asList, lens, List.map_map, Function.comp_def, Arr.len]

omit [Zero α] in
theorem make_holds (w : Nat) (hw : w ≠ 0) (seqs : List (List (List α))) (hrow : seqs.flatten ≠ [])
    (ls : List Nat) (hl : ls = lens seqs) :
    HoldsRagged w (Ragged.make ⟨[w], seqs.flatten⟩ ls) seqs := by
  subst hl
  have : (⟨[w], seqs.flatten⟩ : Arr α).size ≠ 0 := by
    simp only [Arr.size, Arr.len, List.prod_cons, List.prod_nil, Nat.mul_one]
    exact Nat.mul_ne_zero (fun h => hrow (List.length_eq_zero_iff.1 h)) hw
  unfold Ragged.make
  rw [if_pos this]
  refine ⟨by simp, rfl, rfl⟩

omit [Zero α] in
theorem lens_ne {a b : List (List (List α))} (h : lens a = lens b) (hb : b ≠ []) : a ≠ [] := by
  rintro rfl
  exact hb (by simpa [lens] using h.symm)

omit [Zero α] in
theorem lens_rows {a b : List (List (List α))} (h : lens a = lens b) (hb : b.flatten ≠ []) :
    a.flatten ≠ [] := by
  intro ha
  apply hb
  have : a.flatten.length = b.flatten.length := by
    simp only [List.length_flatten]
    exact congrArg List.sum h
  rw [ha] at this
  exact List.length_eq_zero_iff.1 this.symm

omit [Zero α] in
theorem rows_ne {a : List (List (List α))} (ha : a.flatten ≠ []) : a ≠ [] := by
  rintro rfl; exact ha rfl

/-! ### with_list -/

/-- **C34**, with_list: for a layer that computes, on lists, `ys` from `xs` and `G` backwards and keeps the
lengths, the wrapped layer computes the same on every container type, returning the same type. -/
theorem C34_with_list (L : Fwd (List (Arr α)) (List (Arr α))) (w w' : Nat) (hw : w ≠ 0) (hw' : w' ≠ 0)
    (xs ys : List (List (List α))) (G : List (List (List α)) → List (List (List α)))
    (hrow : xs.flatten ≠ []) (hlen : lens ys = lens xs)
    (hG : ∀ dys, lens dys = lens ys → lens (G dys) = lens dys)
    (hL : Computes (fun X s => X = asList w s) (fun Y s => Y = asList w' s) anyLayout L xs ys G)
    (k : BatchKind) : Computes (Holds k w) (Holds k w') anyLayout (withList L) xs ys G := by
  obtain ⟨Ys, back, e1, e2, e3⟩ := hL (asList w xs) rfl
  have hne : xs ≠ [] := rows_ne hrow
  have hyne : ys ≠ [] := lens_ne hlen hne
  have hyrow : ys.flatten ≠ [] := lens_rows hlen hrow
  intro x hx
  cases k with
  | list =>
    cases x with
    | list Xs =>
      refine ⟨.list Ys, ?back1, ?fw, e2, ?bw⟩
      case fw =>
        have : Xs = asList w xs := hx
        subst this
        simp only [withList, directList, e1, bind, Except.bind, pure, Except.pure]
        rfl
      case bw =>
        intro dys dy hdl hdy _
        cases dy with
        | list dYs =>
          obtain ⟨dX, h1, h2⟩ := e3 dys dYs hdl hdy trivial
          exact ⟨.list dX, by simp only [h1, bind, Except.bind, pure, Except.pure], h2⟩
        | ragged => exact hdy.elim
        | padded => exact hdy.elim
    | ragged => exact hx.elim
    | padded => exact hx.elim
  | ragged =>
    cases x with
    | ragged r =>
      obtain ⟨hr1, hr2, hr3⟩ := (hx : HoldsRagged w r xs)
      have eY : opsFlatten Ys 0 = .ok ⟨[w'], ys.flatten⟩ := by
        rw [e2]; exact flatten_asList0 w' hw' ys hyne
      refine ⟨.ragged (Ragged.make ⟨[w'], ys.flatten⟩ r.lengths), ?back2, ?fw, ?hold, ?bw⟩
      case fw =>
        have eX : opsUnflatten r.data r.lengths 0 = .ok (asList w xs) := by
          rw [hr1, hr2]; exact unflatten_asList w xs
        simp only [withList, withListRagged, eX, e1, eY, bind, Except.bind, pure, Except.pure]
        rfl
      case hold =>
        exact make_holds w' hw' ys hyrow _ (by rw [hr2]; exact hlen.symm)
      case bw =>
        intro dys dy hdl hdy _
        cases dy with
        | ragged dr =>
          obtain ⟨hd1, hd2, hd3⟩ := (hdy : HoldsRagged w' dr dys)
          obtain ⟨dX, h1, h2⟩ := e3 dys (asList w' dys) hdl rfl trivial
          have hgl := hG dys hdl
          have hdrow := lens_rows hdl hyrow
          have eD : opsUnflatten dr.data dr.lengths 0 = .ok (asList w' dys) := by
            rw [hd1, hd2]; exact unflatten_asList w' dys
          have eF : opsFlatten dX 0 = .ok ⟨[w], (G dys).flatten⟩ := by
            rw [h2]; exact flatten_asList0 w hw _ (rows_ne (lens_rows hgl hdrow))
          refine ⟨.ragged (Ragged.make ⟨[w], (G dys).flatten⟩ dr.lengths), ?_, ?_⟩
          · simp only [eD, h1, eF, bind, Except.bind, pure, Except.pure]
          · exact make_holds w hw _ (lens_rows hgl hdrow) _ (by rw [hd2]; exact hgl.symm)
        | list => exact hdy.elim
        | padded => exact hdy.elim
    | list => exact hx.elim
    | padded => exact hx.elim
  | padded =>
    cases x with
    | padded P =>
      have hP : HoldsPadded w P xs := hx
      obtain ⟨YP, hy1, hy2⟩ := pad_holds w' ys hyne
      have hy1' : list2padded Ys = .ok YP := by rw [e2]; exact hy1
      refine ⟨.padded YP, ?back3, ?fw, hy2, ?bw⟩
      case fw =>
        simp only [withList, withListPadded, unpad_holds hP, e1, hy1', bind, Except.bind, pure,
          Except.pure]
        rfl
      case bw =>
        intro dys dy hdl hdy _
        cases dy with
        | padded dP =>
          obtain ⟨dX, h1, h2⟩ := e3 dys (asList w' dys) hdl rfl trivial
          have hgl := hG dys hdl
          obtain ⟨DP, hd1, hd2⟩ := pad_holds w (G dys) (lens_ne (hgl.trans hdl) hyne)
          have hd1' : list2padded dX = .ok DP := by rw [h2]; exact hd1
          refine ⟨.padded DP, ?_, hd2⟩
          simp only [unpad_holds (show HoldsPadded w' dP dys from hdy), h1, hd1', bind, Except.bind,
            pure, Except.pure]
        | list => exact hdy.elim
        | ragged => exact hdy.elim
    | list => exact hx.elim
    | ragged => exact hx.elim

/-! ### with_ragged -/

/-- **C34**, with_ragged. -/
theorem C34_with_ragged (L : Fwd (Ragged α) (Ragged α)) (w w' : Nat) (hw : w ≠ 0) (hw' : w' ≠ 0)
    (xs ys : List (List (List α))) (G : List (List (List α)) → List (List (List α)))
    (hrow : xs.flatten ≠ []) (hlen : lens ys = lens xs)
    (hG : ∀ dys, lens dys = lens ys → lens (G dys) = lens dys)
    (hL : Computes (HoldsRagged w) (HoldsRagged w') anyLayout L xs ys G)
    (k : BatchKind) : Computes (Holds k w) (Holds k w') anyLayout (withRagged L) xs ys G := by
  have hne : xs ≠ [] := rows_ne hrow
  have hyne : ys ≠ [] := lens_ne hlen hne
  have hyrow : ys.flatten ≠ [] := lens_rows hlen hrow
  intro x hx
  cases k with
  | ragged =>
    cases x with
    | ragged r =>
      obtain ⟨Yr, back, e1, e2, e3⟩ := hL r hx
      refine ⟨.ragged Yr, ?back4, ?fw, e2, ?bw⟩
      case fw =>
        simp only [withRagged, directRagged, e1, bind, Except.bind, pure, Except.pure]
        rfl
      case bw =>
        intro dys dy hdl hdy _
        cases dy with
        | ragged dYr =>
          obtain ⟨dX, h1, h2⟩ := e3 dys dYr hdl hdy trivial
          exact ⟨.ragged dX, by simp only [h1, bind, Except.bind, pure, Except.pure], h2⟩
        | list => exact hdy.elim
        | padded => exact hdy.elim
    | list => exact hx.elim
    | padded => exact hx.elim
  | list =>
    cases x with
    | list Xs =>
      have hX : Xs = asList w xs := hx
      subst hX
      obtain ⟨Yr, back, e1, e2, e3⟩ := hL _ (make_holds w hw xs hrow _ (map_len_asList w xs))
      have eU : opsUnflatten Yr.data Yr.lengths 0 = .ok (asList w' ys) := by
        rw [e2.1, e2.2.1]; exact unflatten_asList w' ys
      refine ⟨.list (asList w' ys), ?back5, ?fw, rfl, ?bw⟩
      case fw =>
        simp only [withRagged, withRaggedList, flatten_asList0 w hw xs hne, e1, eU, bind, Except.bind,
          pure, Except.pure]
        rfl
      case bw =>
        intro dys dy hdl hdy _
        cases dy with
        | list dYs =>
          have hD : dYs = asList w' dys := hdy
          subst hD
          have hdrow := lens_rows hdl hyrow
          have hgl := hG dys hdl
          obtain ⟨dX, h1, h2⟩ := e3 dys _ hdl
            (make_holds w' hw' dys hdrow ((asList w xs).map Arr.len)
              (by rw [map_len_asList, hdl, hlen])) trivial
          have eD : opsUnflatten dX.data ((asList w xs).map Arr.len) 0 = .ok (asList w (G dys)) := by
            rw [h2.1, map_len_asList, ← hlen, ← hdl, ← hgl]; exact unflatten_asList w (G dys)
          refine ⟨.list (asList w (G dys)), ?_, rfl⟩
          simp only [flatten_asList0 w' hw' dys (rows_ne hdrow), h1, eD, bind, Except.bind, pure,
            Except.pure]
        | ragged => exact hdy.elim
        | padded => exact hdy.elim
    | ragged => exact hx.elim
    | padded => exact hx.elim
  | padded =>
    cases x with
    | padded P =>
      have hP : HoldsPadded w P xs := hx
      obtain ⟨Yr, back, e1, e2, e3⟩ := hL _ (make_holds w hw xs hrow _ (map_len_asList w xs))
      have eU : opsUnflatten Yr.data Yr.lengths 0 = .ok (asList w' ys) := by
        rw [e2.1, e2.2.1]; exact unflatten_asList w' ys
      obtain ⟨YP, hy1, hy2⟩ := pad_holds w' ys hyne
      refine ⟨.padded YP, ?back6, ?fw, hy2, ?bw⟩
      case fw =>
        simp only [withRagged, withRaggedPadded, unpad_holds hP, flatten_asList0 w hw xs hne, e1, eU,
          hy1, bind, Except.bind, pure, Except.pure]
        rfl
      case bw =>
        intro dys dy hdl hdy _
        cases dy with
        | padded dP =>
          have hdrow := lens_rows hdl hyrow
          have hgl := hG dys hdl
          obtain ⟨dX, h1, h2⟩ := e3 dys _ hdl
            (make_holds w' hw' dys hdrow ((asList w xs).map Arr.len)
              (by rw [map_len_asList, hdl, hlen])) trivial
          have eD : opsUnflatten dX.data ((asList w xs).map Arr.len) 0 = .ok (asList w (G dys)) := by
            rw [h2.1, map_len_asList, ← hlen, ← hdl, ← hgl]; exact unflatten_asList w (G dys)
          obtain ⟨DP, hd1, hd2⟩ := pad_holds w (G dys) (lens_ne (hgl.trans hdl) hyne)
          refine ⟨.padded DP, ?_, hd2⟩
          simp only [unpad_holds (show HoldsPadded w' dP dys from hdy),
            flatten_asList0 w' hw' dys (rows_ne hdrow), h1, eD, hd1, bind, Except.bind, pure,
            Except.pure]
        | list => exact hdy.elim
        | ragged => exact hdy.elim
    | list => exact hx.elim
    | ragged => exact hx.elim

/-! ### with_padded -/

omit [Zero α] in
theorem zipIdx_len (w : Nat) (a : List (List (List α))) (n : Nat) :
    ((asList w a).zipIdx n).map (fun p => (p.1.len, p.2)) = (lens a).zipIdx n := by
  induction a generalizing n with
  | nil => rfl
  | cons x xs ih =>
    have := ih (n + 1)
    simp only [asList, lens, List.map_cons, List.zipIdx_cons] at this ⊢
    rw [this]
    rfl

/-- The columns that list2padded makes depend only on the lengths. -/
theorem list2padded_layout (w : Nat) (a : List (List (List α))) (P : Padded α)
    (hP : list2padded (asList w a) = .ok P) :
    P.indices = (sortDesc ((lens a).zipIdx)).map Prod.snd ∧
    P.lengths = (sortDesc ((lens a).zipIdx)).map Prod.fst ∧
    P.data.d0 = (lens a).foldl max 0 ∧ P.data.d1 = (lens a).length := by
  match a, hP with
  | [], hP =>
    simp only [asList, List.map_nil, list2padded, Except.ok.injEq] at hP
    subst hP
    exact ⟨rfl, rfl, rfl, rfl⟩
  | [x], hP =>
    simp only [asList, List.map_cons, List.map_nil, list2padded] at hP
    split at hP
    · simp only [Except.ok.injEq] at hP
      subst hP
      refine ⟨rfl, rfl, ?_, rfl⟩
      simp [lens, Arr.len]
    · cases hP
  | x :: y :: rest, hP =>
    have hz := zipIdx_len w (x :: y :: rest) 0
    have hl := map_len_asList w (x :: y :: rest)
    simp only [asList, List.map_cons] at hz hl hP
    unfold list2padded at hP
    simp only [List.map_cons] at hP
    rw [hz, hl] at hP
    split at hP
    · cases hP
    · rename_i arr harr
      by_cases hc : ¬ (arr.d0 = ((⟨[w], x⟩ : Arr α) :: ⟨[w], y⟩ :: List.map (fun s => ⟨[w], s⟩) rest).length ∧
          arr.d1 = List.foldl max 0 (lens (x :: y :: rest)) ∧ arr.tail = [w])
      · rw [if_pos hc] at hP; cases hP
      · rw [if_neg hc] at hP
        obtain ⟨h1, h2, _⟩ := Decidable.not_not.1 hc
        split at hP
        · simp only [Except.ok.injEq] at hP
          subst hP
          refine ⟨rfl, rfl, h2, ?_⟩
          simp only [Arr3.transpose, h1]
          simp [lens]
        · cases hP

theorem list2padded_same (w w' : Nat) (a b : List (List (List α))) (h : lens a = lens b)
    (P Q : Padded α) (hP : list2padded (asList w a) = .ok P)
    (hQ : list2padded (asList w' b) = .ok Q) : SameLayout P Q := by
  obtain ⟨p1, p2, p3, p4⟩ := list2padded_layout w a P hP
  obtain ⟨q1, q2, q3, q4⟩ := list2padded_layout w' b Q hQ
  exact ⟨by rw [p1, q1, h], by rw [p2, q2, h], by rw [p3, q3, h], by rw [p4, q4, h]⟩

omit [Zero α] in
theorem Spec.SameLayout.symm' {P Q : Padded α} (h : SameLayout P Q) : SameLayout Q P :=
  ⟨h.1.symm, h.2.1.symm, h.2.2.1.symm, h.2.2.2.symm⟩

omit [Zero α] in
theorem Spec.SameLayout.trans' {P Q R : Padded α} (h : SameLayout P Q) (g : SameLayout Q R) :
    SameLayout P R :=
  ⟨h.1.trans g.1, h.2.1.trans g.2.1, h.2.2.1.trans g.2.2.1, h.2.2.2.trans g.2.2.2⟩

/-- **C34**, with_padded: the layer keeps the columns where they are (`hlay`) and need only treat
gradients with the columns of its output. -/
theorem C34_with_padded (L : Fwd (Padded α) (Padded α)) (w w' : Nat) (hw : w ≠ 0) (hw' : w' ≠ 0)
    (xs ys : List (List (List α))) (G : List (List (List α)) → List (List (List α)))
    (hrow : xs.flatten ≠ []) (hlen : lens ys = lens xs)
    (hG : ∀ dys, lens dys = lens ys → lens (G dys) = lens dys)
    (hlay : ∀ P y back, HoldsPadded w P xs → L P = .ok (y, back) → SameLayout y P)
    (hL : Computes (HoldsPadded w) (HoldsPadded w') SameLayout L xs ys G) :
    Computes (Holds .list w) (Holds .list w') anyLayout (withPadded L) xs ys G ∧
    Computes (Holds .ragged w) (Holds .ragged w') anyLayout (withPadded L) xs ys G ∧
    Computes (Holds .padded w) (Holds .padded w') SameLayoutBatch (withPadded L) xs ys G := by
  have hne : xs ≠ [] := rows_ne hrow
  have hyne : ys ≠ [] := lens_ne hlen hne
  have hyrow : ys.flatten ≠ [] := lens_rows hlen hrow
  obtain ⟨XP, hx1, hx2⟩ := pad_holds w xs hne
  obtain ⟨YP, back, e1, e2, e3⟩ := hL XP hx2
  have hlayY := hlay XP YP back hx2 e1
  refine ⟨?_, ?_, ?_⟩
  · intro x hx
    cases x with
    | list Xs =>
      have hX : Xs = asList w xs := hx
      subst hX
      refine ⟨.list (asList w' ys), ?bk1, ?fw, rfl, ?bw⟩
      case fw =>
        simp only [withPadded, withPaddedList, hx1, e1, unpad_holds e2, bind, Except.bind, pure,
          Except.pure]
        rfl
      case bw =>
        intro dys dy hdl hdy _
        cases dy with
        | list dYs =>
          have hD : dYs = asList w' dys := hdy
          subst hD
          obtain ⟨DP, hd1, hd2⟩ := pad_holds w' dys (lens_ne hdl hyne)
          obtain ⟨dX, h1, h2⟩ := e3 dys DP hdl hd2
            (hlayY.trans' (list2padded_same w w' xs dys (hdl.trans hlen).symm XP DP hx1 hd1))
          exact ⟨.list (asList w (G dys)), by simp only [hd1, h1, unpad_holds h2], rfl⟩
        | ragged => exact hdy.elim
        | padded => exact hdy.elim
    | ragged => exact hx.elim
    | padded => exact hx.elim
  · intro x hx
    cases x with
    | ragged r =>
      obtain ⟨hr1, hr2, hr3⟩ := (hx : HoldsRagged w r xs)
      have eX : opsUnflatten r.data r.lengths 0 = .ok (asList w xs) := by
        rw [hr1, hr2]; exact unflatten_asList w xs
      refine ⟨.ragged (Ragged.make ⟨[w'], ys.flatten⟩ r.lengths), ?bk2, ?fw, ?hold, ?bw⟩
      case fw =>
        simp only [withPadded, withPaddedRagged, eX, hx1, e1, unpad_holds e2,
          flatten_asList0 w' hw' ys hyne, bind, Except.bind, pure, Except.pure]
        rfl
      case hold =>
        exact make_holds w' hw' ys hyrow _ (by rw [hr2]; exact hlen.symm)
      case bw =>
        intro dys dy hdl hdy _
        cases dy with
        | ragged dr =>
          obtain ⟨hd1, hd2, hd3⟩ := (hdy : HoldsRagged w' dr dys)
          have hgl := hG dys hdl
          have hdrow := lens_rows hdl hyrow
          have eD : opsUnflatten dr.data dr.lengths 0 = .ok (asList w' dys) := by
            rw [hd1, hd2]; exact unflatten_asList w' dys
          obtain ⟨DP, hp1, hp2⟩ := pad_holds w' dys (lens_ne hdl hyne)
          obtain ⟨dX, h1, h2⟩ := e3 dys DP hdl hp2
            (hlayY.trans' (list2padded_same w w' xs dys (hdl.trans hlen).symm XP DP hx1 hp1))
          refine ⟨.ragged (Ragged.make ⟨[w], (G dys).flatten⟩ dr.lengths), ?_, ?_⟩
          · simp only [eD, hp1, h1, unpad_holds h2,
              flatten_asList0 w hw _ (rows_ne (lens_rows hgl hdrow))]
          · exact make_holds w hw _ (lens_rows hgl hdrow) _ (by rw [hd2]; exact hgl.symm)
        | list => exact hdy.elim
        | padded => exact hdy.elim
    | list => exact hx.elim
    | padded => exact hx.elim
  · intro x hx
    cases x with
    | padded P =>
      obtain ⟨Y, bk, f1, f2, f3⟩ := hL P hx
      refine ⟨.padded Y, ?bk3, ?fw, f2, ?bw⟩
      case fw =>
        simp only [withPadded, directPadded, f1, bind, Except.bind, pure, Except.pure]
        rfl
      case bw =>
        intro dys dy hdl hdy hcompat
        cases dy with
        | padded dP =>
          obtain ⟨dX, h1, h2⟩ := f3 dys dP hdl hdy hcompat
          exact ⟨.padded dX, by simp only [h1], h2⟩
        | list => exact hdy.elim
        | ragged => exact hdy.elim
    | list => exact hx.elim
    | ragged => exact hx.elim

omit [Zero α] in
/-- **C34**, with_padded on a three-dimensional array: the layer is given a consistent padded batch in
which every column is a full-length sequence. -/
theorem C34_with_padded_array (X : Arr3 α) (h0 : X.data.length = X.d0)
    (h1 : ∀ r ∈ X.data, r.length = X.d1) :
    ValidPadded (paddedOfArray X) ∧
    Represents (paddedOfArray X)
      ((List.range X.d1).map (fun b => (List.range X.d0).map (fun t => X.cell t b))) := by
  refine ⟨⟨h0, h1, ?_, ?_, ?_, ?_, ?_⟩, ?_, ?_⟩
  · simp [paddedOfArray]
  · exact List.pairwise_replicate.2 (Or.inr (Nat.le_refl _))
  · intro l hl
    have := List.eq_of_mem_replicate hl
    simp only [paddedOfArray]
    omega
  · exact List.Perm.refl _
  · simp only [paddedOfArray]
    apply List.ext_getElem
    · simp
    · intro t ht _
      simp only [List.length_replicate] at ht
      simp [List.countP_replicate, ht]
  · simp [paddedOfArray]
  · intro b i hb
    simp only [paddedOfArray] at hb
    have hbl : b < X.d1 := by
      by_contra h
      rw [List.getElem?_eq_none (by simpa using h)] at hb
      cases hb
    rw [List.getElem?_range hbl] at hb
    cases hb
    simp [column, paddedOfArray, List.getElem?_range hbl, List.getD_eq_getElem?_getD, hbl]

/-! ### with_array -/

/-- **C34**, with_array on lists and ragged batches (no padding): any layer that computes, on the
concatenated rows, rows that split into `ys` (same lengths), and likewise backwards. -/
theorem C34_with_array (L : Fwd (ArrX α) (ArrX α)) (w w' : Nat) (hw : w ≠ 0) (hw' : w' ≠ 0)
    (xs ys : List (List (List α))) (G : List (List (List α)) → List (List (List α)))
    (hrow : xs.flatten ≠ []) (hlen : lens ys = lens xs)
    (hG : ∀ dys, lens dys = lens ys → lens (G dys) = lens dys)
    (back : ArrX α → Except PyErr (ArrX α))
    (hL : L (.a ⟨[w], xs.flatten⟩) = .ok (.a ⟨[w'], ys.flatten⟩, back))
    (hB : ∀ dys, lens dys = lens ys →
      back (.a ⟨[w'], dys.flatten⟩) = .ok (.a ⟨[w], (G dys).flatten⟩)) :
    Computes (Holds .list w) (Holds .list w') anyLayout (withArray L 0) xs ys G ∧
    Computes (Holds .ragged w) (Holds .ragged w') anyLayout (withArray L 0) xs ys G := by
  have hne : xs ≠ [] := rows_ne hrow
  have hyne : ys ≠ [] := lens_ne hlen hne
  have hyrow : ys.flatten ≠ [] := lens_rows hlen hrow
  constructor
  · intro x hx
    cases x with
    | list Xs =>
      have hX : Xs = asList w xs := hx
      subst hX
      have eU : opsUnflatten (⟨[w'], ys.flatten⟩ : Arr α) ((asList w xs).map Arr.len) 0 =
          .ok (asList w' ys) := by
        rw [map_len_asList, ← hlen]; exact unflatten_asList w' ys
      refine ⟨.list (asList w' ys), ?bk1, ?fw, rfl, ?bw⟩
      case fw =>
        simp only [withArray, withArrayList, flatten_asList0 w hw xs hne, hL, eU, bind, Except.bind,
          pure, Except.pure]
        rfl
      case bw =>
        intro dys dy hdl hdy _
        cases dy with
        | list dYs =>
          have hD : dYs = asList w' dys := hdy
          subst hD
          have eD : opsUnflatten (⟨[w], (G dys).flatten⟩ : Arr α) ((asList w xs).map Arr.len) 0 =
              .ok (asList w (G dys)) := by
            rw [map_len_asList, ← hlen, ← hdl, ← hG dys hdl]; exact unflatten_asList w (G dys)
          refine ⟨.list (asList w (G dys)), ?_, rfl⟩
          simp only [flatten_asList0 w' hw' dys (lens_ne hdl hyne), hB dys hdl, eD]
        | ragged => exact hdy.elim
        | padded => exact hdy.elim
    | ragged => exact hx.elim
    | padded => exact hx.elim
  · intro x hx
    cases x with
    | ragged r =>
      obtain ⟨hr1, hr2, hr3⟩ := (hx : HoldsRagged w r xs)
      have hd : r.dataXd = ⟨[w], xs.flatten⟩ := by unfold Ragged.dataXd; rw [hr1, hr3]
      refine ⟨.ragged (Ragged.make ⟨[w'], ys.flatten⟩ r.lengths), ?bk2, ?fw, ?hold, ?bw⟩
      case fw =>
        simp only [withArray, withArrayRagged, hd, hL, bind, Except.bind, pure, Except.pure]
        rfl
      case hold => exact make_holds w' hw' ys hyrow _ (by rw [hr2]; exact hlen.symm)
      case bw =>
        intro dys dy hdl hdy _
        cases dy with
        | ragged dr =>
          obtain ⟨hd1, hd2, hd3⟩ := (hdy : HoldsRagged w' dr dys)
          have hdd : dr.dataXd = ⟨[w'], dys.flatten⟩ := by unfold Ragged.dataXd; rw [hd1, hd3]
          have hgl := hG dys hdl
          refine ⟨.ragged (Ragged.make ⟨[w], (G dys).flatten⟩ dr.lengths), ?_, ?_⟩
          · simp only [hdd, hB dys hdl]
          · exact make_holds w hw _ (lens_rows (hgl.trans hdl) hyrow) _ (by rw [hd2]; exact hgl.symm)
        | list => exact hdy.elim
        | padded => exact hdy.elim
    | list => exact hx.elim
    | padded => exact hx.elim

/-- A layer that treats every row by itself: `φ` forwards, `ψ` (of the input row and the gradient row)
backwards, on arrays of two or three dimensions. -/
structure Spec.RowWise (L : Fwd (ArrX α) (ArrX α)) (w w' : Nat) (φ : List α → List α)
    (ψ : List α → List α → List α) : Prop where
  two : ∀ rows, ∃ back, L (.a ⟨[w], rows⟩) = .ok (.a ⟨[w'], rows.map φ⟩, back) ∧
    ∀ d, d.length = rows.length → back (.a ⟨[w'], d⟩) = .ok (.a ⟨[w], List.zipWith ψ rows d⟩)
  three : ∀ X : Arr3 α, X.tail = [w] → ∃ back,
    L (.a3 X) = .ok (.a3 ⟨X.d0, X.d1, [w'], X.data.map (fun r => r.map φ)⟩, back) ∧
    ∀ D : Arr3 α, D.tail = [w'] → D.d0 = X.d0 → D.d1 = X.d1 → back (.a3 D) =
      .ok (.a3 ⟨X.d0, X.d1, [w], List.zipWith (fun r d => List.zipWith ψ r d) X.data D.data⟩)

omit [Zero α] in
theorem laidOut_map {β γ : Type} (f : β → γ) (pad : Nat) (blank : β) (seqs : List (List β)) :
    (laidOut pad blank seqs).map f = laidOut pad (f blank) (seqs.map (List.map f)) := by
  unfold laidOut
  have hall : (seqs.map (List.map f)).all List.isEmpty = seqs.all List.isEmpty := by
    rw [List.all_map]
    congr 1
    funext s
    cases s <;> rfl
  rw [hall]
  split
  · rfl
  · simp only [List.map_append, List.map_flatMap, List.map_replicate]
    congr 1
    rw [List.filter_map, List.flatMap_map]
    have : (fun s : List β => !s.isEmpty) = ((fun s : List γ => !s.isEmpty) ∘ List.map f) := by
      funext s; cases s <;> rfl
    rw [← this]

omit [Zero α] in
theorem laidOut_length {β γ : Type} (pad : Nat) (b : β) (c : γ) (a : List (List β))
    (d : List (List γ)) (h : a.map List.length = d.map List.length) :
    (laidOut pad b a).length = (laidOut pad c d).length := by
  have h1 := congrArg List.length (laidOut_map (fun _ => ()) pad b a)
  have h2 := congrArg List.length (laidOut_map (fun _ => ()) pad c d)
  rw [List.length_map] at h1 h2
  rw [h1, h2]
  congr 2
  have : ∀ {δ : Type} (l : List (List δ)),
      l.map (List.map (fun _ => ())) = (l.map List.length).map (fun n => List.replicate n ()) := by
    intro δ l
    rw [List.map_map]
    apply List.map_congr_left
    intro s _
    simp [List.map_const']
  rw [this, this, h]

/-- Sequences zipped position by position. -/
def zipSeqs {β γ : Type} (a : List (List β)) (d : List (List γ)) : List (List (β × γ)) :=
  List.zipWith List.zip a d

omit [Zero α] in
theorem zipSeqs_fst {β γ : Type} (a : List (List β)) (d : List (List γ))
    (h : a.map List.length = d.map List.length) : (zipSeqs a d).map (List.map Prod.fst) = a := by
  induction a generalizing d with
  | nil => rfl
  | cons x a ih =>
    cases d with
    | nil => simp at h
    | cons y d =>
      simp only [List.map_cons, List.cons.injEq] at h
      have := ih d h.2
      simp only [zipSeqs, List.zipWith_cons_cons, List.map_cons] at this ⊢
      rw [this, List.map_fst_zip (by omega)]

omit [Zero α] in
theorem zipSeqs_snd {β γ : Type} (a : List (List β)) (d : List (List γ))
    (h : a.map List.length = d.map List.length) : (zipSeqs a d).map (List.map Prod.snd) = d := by
  induction a generalizing d with
  | nil =>
    cases d with
    | nil => rfl
    | cons y d => simp at h
  | cons x a ih =>
    cases d with
    | nil => simp at h
    | cons y d =>
      simp only [List.map_cons, List.cons.injEq] at h
      have := ih d h.2
      simp only [zipSeqs, List.zipWith_cons_cons, List.map_cons] at this ⊢
      rw [this, List.map_snd_zip (by omega)]

omit [Zero α] in
theorem laidOut_zipWith {β γ δ : Type} (f : β → γ → δ) (pad : Nat) (b : β) (c : γ)
    (a : List (List β)) (d : List (List γ)) (h : a.map List.length = d.map List.length) :
    List.zipWith f (laidOut pad b a) (laidOut pad c d) =
      laidOut pad (f b c) (List.zipWith (List.zipWith f) a d) := by
  have e1 := laidOut_map Prod.fst pad (b, c) (zipSeqs a d)
  have e2 := laidOut_map Prod.snd pad (b, c) (zipSeqs a d)
  have e3 := laidOut_map (fun p => f p.1 p.2) pad (b, c) (zipSeqs a d)
  rw [zipSeqs_fst a d h] at e1
  rw [zipSeqs_snd a d h] at e2
  rw [← e1, ← e2, List.zipWith_map, List.zipWith_self]
  rw [e3]
  congr 1
  unfold zipSeqs
  rw [List.map_zipWith]
  congr 1
  funext x y
  rw [List.zip, List.map_zipWith]

omit [Zero α] in
theorem lens_map (φ : List α → List α) (xs : List (List (List α))) :
    lens (xs.map (List.map φ)) = lens xs := by
  simp [lens, List.map_map, Function.comp_def]

omit [Zero α] in
theorem lens_zip (ψ : List α → List α → List α) (xs ds : List (List (List α)))
    (h : lens xs = lens ds) : lens (List.zipWith (List.zipWith ψ) xs ds) = lens xs := by
  unfold lens at *
  induction xs generalizing ds with
  | nil => rfl
  | cons x xs ih =>
    cases ds with
    | nil => simp at h
    | cons d ds =>
      simp only [List.map_cons, List.cons.injEq] at h
      simp only [List.zipWith_cons_cons, List.map_cons, List.length_zipWith, ih ds h.2, h.1,
        Nat.min_self]

omit [Zero α] in
theorem cell_map (φ : List α → List α) (X : Arr3 α) (w' : Nat) (h0 : X.data.length = X.d0)
    (h1 : ∀ r ∈ X.data, r.length = X.d1) (t b : Nat) (ht : t < X.d0) (hb : b < X.d1) :
    (⟨X.d0, X.d1, [w'], X.data.map (fun r => r.map φ)⟩ : Arr3 α).cell t b = φ (X.cell t b) := by
  have ht' : t < X.data.length := by omega
  have hb' : b < X.data[t].length := by rw [h1 _ (List.getElem_mem ht')]; exact hb
  simp [Arr3.cell, List.getD_eq_getElem?_getD, ht', hb']

omit [Zero α] in
theorem cell_zip (ψ : List α → List α → List α) (X D : Arr3 α) (w : Nat) (h0 : X.data.length = X.d0)
    (h1 : ∀ r ∈ X.data, r.length = X.d1) (g0 : D.data.length = X.d0)
    (g1 : ∀ r ∈ D.data, r.length = X.d1) (t b : Nat) (ht : t < X.d0) (hb : b < X.d1) :
    (⟨X.d0, X.d1, [w], List.zipWith (fun r d => List.zipWith ψ r d) X.data D.data⟩ : Arr3 α).cell t b =
      ψ (X.cell t b) (D.cell t b) := by
  have ht' : t < X.data.length := by omega
  have hb' : b < X.data[t].length := by rw [h1 _ (List.getElem_mem ht')]; exact hb
  have gt' : t < D.data.length := by omega
  have gb' : b < D.data[t].length := by rw [g1 _ (List.getElem_mem gt')]; exact hb
  simp [Arr3.cell, List.getD_eq_getElem?_getD, ht', hb', gt', gb', List.getElem?_zipWith]

omit [Zero α] in
theorem getD_fits {P : Padded α} (hv : ValidPadded P) (b : Nat) : P.lengths.getD b 0 ≤ P.data.d0 := by
  rw [List.getD_eq_getElem?_getD]
  by_cases hb : b < P.lengths.length
  · rw [List.getElem?_eq_getElem hb]; exact hv.fits _ (List.getElem_mem hb)
  · rw [List.getElem?_eq_none (by omega)]; simp

omit [Zero α] in
theorem holds_map (φ : List α → List α) (w w' : Nat) (P : Padded α) (xs : List (List (List α)))
    (h : HoldsPadded w P xs) :
    HoldsPadded w' ⟨⟨P.data.d0, P.data.d1, [w'], P.data.data.map (fun r => r.map φ)⟩, P.sizeAtT,
      P.lengths, P.indices⟩ (xs.map (List.map φ)) := by
  obtain ⟨hv, ht, hr⟩ := h
  have hil : P.indices.length = P.data.d1 := by simpa using hv.perm.length_eq
  refine ⟨⟨by simpa using hv.steps, ?_, hv.numLengths, hv.sorted, hv.fits, hv.perm, hv.sizes⟩, rfl,
    by simpa using hr.1, ?_⟩
  · intro r hr
    obtain ⟨r', h', rfl⟩ := List.mem_map.1 hr
    simpa using hv.cols r' h'
  · intro b i hb
    have hbl : b < P.data.d1 := by
      rw [← hil]
      exact (List.getElem?_eq_some_iff.1 hb).1
    rw [List.getElem?_map, hr.2 b i hb]
    simp only [Option.map_some, Option.some.injEq, column, List.map_map]
    apply List.map_congr_left
    intro t htm
    have := List.mem_range.1 htm
    have hf := getD_fits hv b
    exact (cell_map φ P.data w' hv.steps hv.cols t b (by omega) hbl).symm

omit [Zero α] in
theorem holds_zip (ψ : List α → List α → List α) (w w' : Nat) (P D : Padded α)
    (xs ds : List (List (List α))) (h : HoldsPadded w P xs) (g : HoldsPadded w' D ds)
    (hl : SameLayout P D) (hlen : lens xs = lens ds) :
    HoldsPadded w ⟨⟨P.data.d0, P.data.d1, [w], List.zipWith (fun r d => List.zipWith ψ r d) P.data.data
      D.data.data⟩, D.sizeAtT, D.lengths, D.indices⟩ (List.zipWith (List.zipWith ψ) xs ds) := by
  obtain ⟨hv, ht, hr⟩ := h
  obtain ⟨gv, gt, gr⟩ := g
  obtain ⟨l1, l2, l3, l4⟩ := hl
  have hil : P.indices.length = P.data.d1 := by simpa using hv.perm.length_eq
  refine ⟨⟨?_, ?_, ?_, gv.sorted, ?_, ?_, ?_⟩, rfl, ?_, ?_⟩
  · simp only [List.length_zipWith, hv.steps, gv.steps]; omega
  · intro r hr
    obtain ⟨i, hi, rfl⟩ := List.mem_iff_getElem.1 hr
    simp only [List.length_zipWith] at hi
    simp only [List.getElem_zipWith, List.length_zipWith]
    rw [hv.cols _ (List.getElem_mem _), gv.cols _ (List.getElem_mem _)]
    omega
  · exact gv.numLengths.trans l4.symm
  · intro l hl
    have := gv.fits l hl
    simp only []; omega
  · have := gv.perm
    rwa [← l4] at this
  · have := gv.sizes
    rwa [← l3] at this
  · have e1 := hr.1
    have e2 := gr.1
    simp only [List.length_zipWith]; omega
  · intro b i hb
    have hb' : D.indices[b]? = some i := hb
    have hb2 : P.indices[b]? = some i := by rw [l1]; exact hb'
    have hbl : b < P.data.d1 := by
      rw [← hil]
      exact (List.getElem?_eq_some_iff.1 hb2).1
    rw [List.getElem?_zipWith, hr.2 b i hb2, gr.2 b i hb']
    simp only [column, l2, List.zipWith_map, List.zipWith_self, Option.some.injEq]
    apply List.map_congr_left
    intro t htm
    have := List.mem_range.1 htm
    have hf := getD_fits gv b
    exact (cell_zip ψ P.data D.data w hv.steps hv.cols (gv.steps.trans l3.symm)
      (fun r h => (gv.cols r h).trans l4.symm) t b (by omega) hbl).symm

/-- **C34**, with_array around a layer that treats every row by itself: on every container type, and on
lists with any amount of padding between the sequences, the wrapped layer applies it to every row of
every sequence, forwards and backwards. -/
theorem C34_with_array_rowwise (L : Fwd (ArrX α) (ArrX α)) (w w' : Nat) (hw : w ≠ 0) (hw' : w' ≠ 0)
    (φ : List α → List α) (ψ : List α → List α → List α) (hL : RowWise L w w' φ ψ)
    (xs : List (List (List α))) (hrow : xs.flatten ≠ []) (pad : Nat) (k : BatchKind) :
    Computes (Holds k w) (Holds k w') SameLayoutBatch (withArray L pad) xs
      (xs.map (List.map φ)) (fun dys => List.zipWith (List.zipWith ψ) xs dys) := by
  have hne : xs ≠ [] := rows_ne hrow
  have hyrow : (xs.map (List.map φ)).flatten ≠ [] := lens_rows (lens_map φ xs) hrow
  intro x hx
  cases k with
  | list =>
    cases x with
    | list Xs =>
      have hX : Xs = asList w xs := hx
      subst hX
      obtain ⟨back, e1, e2⟩ := hL.two (laidOut pad (List.replicate w 0) xs)
      rw [laidOut_map] at e1
      have eU := unflatten_spec (⟨[w'], laidOut pad (φ (List.replicate w 0)) (xs.map (List.map φ))⟩ :
        Arr α) pad _ _ rfl
      have hl : (asList w xs).map Arr.len = (xs.map (List.map φ)).map List.length := by
        rw [map_len_asList]; exact (lens_map φ xs).symm
      rw [← hl] at eU
      refine ⟨.list (asList w' (xs.map (List.map φ))), ?bk1, ?fw, rfl, ?bw⟩
      case fw =>
        simp only [withArray, withArrayList, flatten_asList w hw xs hne, e1, eU, bind, Except.bind,
          pure, Except.pure]
        rfl
      case bw =>
        intro dys dy hdl hdy _
        cases dy with
        | list dYs =>
          have hD : dYs = asList w' dys := hdy
          subst hD
          rw [lens_map] at hdl
          have e3 := e2 (laidOut pad (List.replicate w' 0) dys) (laidOut_length pad _ _ _ _ hdl)
          rw [laidOut_zipWith ψ pad _ _ _ _ hdl.symm] at e3
          have eD := unflatten_spec (⟨[w], laidOut pad (ψ (List.replicate w 0) (List.replicate w' 0))
            (List.zipWith (List.zipWith ψ) xs dys)⟩ : Arr α) pad _ _ rfl
          have hl2 : (asList w xs).map Arr.len =
              (List.zipWith (List.zipWith ψ) xs dys).map List.length := by
            rw [map_len_asList]; exact (lens_zip ψ xs dys hdl.symm).symm
          rw [← hl2] at eD
          refine ⟨.list (asList w (List.zipWith (List.zipWith ψ) xs dys)), ?_, rfl⟩
          simp only [flatten_asList w' hw' dys (lens_ne hdl hne), e3, eD]
          rfl
        | ragged => exact hdy.elim
        | padded => exact hdy.elim
    | ragged => exact hx.elim
    | padded => exact hx.elim
  | ragged =>
    obtain ⟨back, e1, e2⟩ := hL.two xs.flatten
    have := (C34_with_array L w w' hw hw' xs (xs.map (List.map φ))
      (fun dys => List.zipWith (List.zipWith ψ) xs dys) hrow (lens_map φ xs)
      (fun dys h => by rw [lens_map] at h; rw [lens_zip ψ xs dys h.symm, h]) back
      (by rw [e1, List.map_flatten])
      (fun dys h => by
        rw [lens_map] at h
        rw [e2 dys.flatten (by
          simp only [List.length_flatten]; exact congrArg List.sum h)]
        have hz := laidOut_zipWith ψ 0 [] [] xs dys h.symm
        rw [laidOut_zero, laidOut_zero, laidOut_zero] at hz
        rw [hz])).2
    obtain ⟨y, b, f1, f2, f3⟩ := this x hx
    refine ⟨y, b, ?_, f2, fun dys dy h1 h2 _ => f3 dys dy h1 h2 trivial⟩
    cases x with
    | ragged r => exact f1
    | list => exact hx.elim
    | padded => exact hx.elim
  | padded =>
    cases x with
    | padded P =>
      have hP : HoldsPadded w P xs := hx
      obtain ⟨back, e1, e2⟩ := hL.three P.data hP.2.1
      refine ⟨.padded ⟨⟨P.data.d0, P.data.d1, [w'], P.data.data.map (fun r => List.map φ r)⟩, P.sizeAtT,
        P.lengths, P.indices⟩, ?bk2, ?fw, holds_map φ w w' P xs hP, ?bw⟩
      case fw =>
        simp only [withArray, withArrayPadded, e1, bind, Except.bind, pure, Except.pure]
        rfl
      case bw =>
        intro dys dy hdl hdy hcompat
        cases dy with
        | padded D =>
          have hD : HoldsPadded w' D dys := hdy
          rw [lens_map] at hdl
          have hlay : SameLayout P D := hcompat
          have e3 := e2 D.data hD.2.1 hlay.2.2.1.symm hlay.2.2.2.symm
          refine ⟨.padded ⟨⟨P.data.d0, P.data.d1, [w], List.zipWith (fun r d => List.zipWith ψ r d)
            P.data.data D.data.data⟩, D.sizeAtT, D.lengths, D.indices⟩, ?_,
            holds_zip ψ w w' P D xs dys hP hD hlay hdl.symm⟩
          simp only [e3]
        | list => exact hdy.elim
        | ragged => exact hdy.elim
    | list => exact hx.elim
    | ragged => exact hx.elim

/-! ### Concrete layers that meet the hypotheses -/

/-- A layer on lists of sequences that reverses every sequence (and its gradient). -/
def exReverse : Fwd (List (Arr Int)) (List (Arr Int)) := fun Xs =>
  .ok (Xs.map (fun x => ⟨x.tail, x.rows.reverse⟩),
    fun dYs => .ok (dYs.map (fun x => ⟨x.tail, x.rows.reverse⟩)))

theorem exReverse_computes (w : Nat) (xs : List (List (List Int))) :
    Computes (fun X s => X = asList w s) (fun Y s => Y = asList w s) anyLayout exReverse xs
      (xs.map List.reverse) (fun dys => dys.map List.reverse) := by
  rintro x rfl
  refine ⟨_, _, rfl, by simp [asList, List.map_map, Function.comp_def], ?_⟩
  rintro dys dy _ rfl _
  exact ⟨_, rfl, by simp [asList, List.map_map, Function.comp_def]⟩

example (k : BatchKind) : Computes (Holds k 1) (Holds k 1) anyLayout (withList exReverse)
    [[[1], [2]], [], [[3], [4], [5]]] [[[2], [1]], [], [[5], [4], [3]]]
    (fun dys => dys.map List.reverse) :=
  C34_with_list exReverse 1 1 (by decide) (by decide) _ _ _ (by decide) (by decide)
    (fun dys _ => by simp [lens, List.map_map, Function.comp_def]) (exReverse_computes 1 _) k

/-- The same layer on a ragged batch, made with the conversions. -/
def exReverseRagged : Fwd (Ragged Int) (Ragged Int) := fun r =>
  match withListRagged exReverse r with
  | .ok (.ragged y, back) => .ok (y, fun d => match back (.ragged d) with
    | .ok (.ragged dx) => .ok dx
    | .ok _ => .error .attributeError
    | .error e => .error e)
  | .ok _ => .error .attributeError
  | .error e => .error e

theorem exReverseRagged_computes : Computes (HoldsRagged 1) (HoldsRagged 1) anyLayout exReverseRagged
    [[[1], [2]], [], [[3], [4], [5]]] [[[2], [1]], [], [[5], [4], [3]]]
    (fun dys => dys.map List.reverse) := by
  intro r hr
  obtain ⟨y, back, h1, h2, h3⟩ := C34_with_list exReverse 1 1 (by decide) (by decide)
    [[[1], [2]], [], [[3], [4], [5]]] [[[2], [1]], [], [[5], [4], [3]]]
    (fun dys => dys.map List.reverse) (by decide) (by decide)
    (fun dys _ => by simp [lens, List.map_map, Function.comp_def]) (exReverse_computes 1 _) .ragged
    (.ragged r) hr
  have h1' : withListRagged exReverse r = .ok (y, back) := h1
  cases y with
  | ragged y =>
    refine ⟨y, ?bk, ?fw, h2, ?bw⟩
    case fw => unfold exReverseRagged; rw [h1']
    case bw =>
      intro dys dy hl hd _
      obtain ⟨dx, g1, g2⟩ := h3 dys (.ragged dy) hl hd trivial
      cases dx with
      | ragged dx => exact ⟨dx, by simp only [g1], g2⟩
      | list => exact g2.elim
      | padded => exact g2.elim
  | list => exact h2.elim
  | padded => exact h2.elim

example (k : BatchKind) : Computes (Holds k 1) (Holds k 1) anyLayout (withRagged exReverseRagged)
    [[[1], [2]], [], [[3], [4], [5]]] [[[2], [1]], [], [[5], [4], [3]]]
    (fun dys => dys.map List.reverse) :=
  C34_with_ragged exReverseRagged 1 1 (by decide) (by decide) _ _ _ (by decide) (by decide)
    (fun dys _ => by simp [lens, List.map_map, Function.comp_def]) exReverseRagged_computes k

/-- A layer on arrays that doubles everything, forwards and backwards. -/
def exDouble : Fwd (ArrX Int) (ArrX Int)
  | .a x => .ok (.a ⟨x.tail, x.rows.map (List.map (2 * ·))⟩, fun
    | .a d => .ok (.a ⟨d.tail, List.zipWith (fun _ r => r.map (2 * ·)) x.rows d.rows⟩)
    | .a3 _ => .error .valueError)
  | .a3 x => .ok (.a3 ⟨x.d0, x.d1, x.tail, x.data.map (fun r => r.map (List.map (2 * ·)))⟩, fun
    | .a _ => .error .valueError
    | .a3 d => .ok (.a3 ⟨x.d0, x.d1, d.tail,
        List.zipWith (fun r s => List.zipWith (fun _ r => List.map (2 * ·) r) r s) x.data d.data⟩))

theorem exDouble_rowwise (w : Nat) :
    RowWise exDouble w w (List.map (2 * ·)) (fun _ r => List.map (2 * ·) r) where
  two rows := ⟨_, rfl, fun _ _ => rfl⟩
  three X hX := by
    refine ⟨_, by rw [← hX]; rfl, fun D hD _ _ => by simp only [hD]⟩

/-- Three sequences, one of them empty. -/
def exNest : List (List (List Int)) := [[[1], [2]], [], [[3]]]

example (k : BatchKind) : Computes (Holds k 1) (Holds k 1) SameLayoutBatch (withArray exDouble 2)
    exNest (exNest.map (List.map (List.map (2 * ·))))
    (fun dys => List.zipWith (List.zipWith (fun _ r => List.map (2 * ·) r)) exNest dys) :=
  C34_with_array_rowwise exDouble 1 1 (by decide) (by decide) _ _ (exDouble_rowwise 1) exNest
    (by decide) 2 k

/-- Doubling on a padded batch, for `with_padded`. -/
def exDoublePadded : Fwd (Padded Int) (Padded Int) := fun P =>
  .ok (⟨⟨P.data.d0, P.data.d1, [1], P.data.data.map (fun r => List.map (List.map (2 * ·)) r)⟩,
      P.sizeAtT, P.lengths, P.indices⟩,
    fun D => .ok ⟨⟨P.data.d0, P.data.d1, [1], List.zipWith (fun r d => List.zipWith
      (fun _ s => List.map (2 * ·) s) r d) P.data.data D.data.data⟩, D.sizeAtT, D.lengths, D.indices⟩)

example : Computes (Holds .list 1) (Holds .list 1) anyLayout (withPadded exDoublePadded)
    exNest (exNest.map (List.map (List.map (2 * ·))))
    (fun dys => List.zipWith (List.zipWith (fun _ r => List.map (2 * ·) r)) exNest dys) :=
  (C34_with_padded exDoublePadded 1 1 (by decide) (by decide) exNest _
    (fun dys => List.zipWith (List.zipWith (fun _ r => List.map (2 * ·) r)) exNest dys)
    (by decide) (lens_map _ _)
    (fun dys h => by rw [lens_map] at h; rw [lens_zip _ exNest dys h.symm, h])
    (fun P y back _ h => by cases h; exact ⟨rfl, rfl, rfl, rfl⟩)
    (fun P hP => ⟨_, _, rfl, holds_map _ 1 1 P _ hP, fun dys D hl hD hc =>
      ⟨_, rfl, holds_zip _ 1 1 P D exNest dys hP hD hc (by rw [lens_map] at hl; exact hl.symm)⟩⟩)).1

/-! ### C69: conversion layers -/

/-- **C69**: the layers that convert one container into another hold the same sequences in the output,
and backwards in the gradient. -/
theorem C69_conversions (w : Nat) (hw : w ≠ 0) (xs : List (List (List α))) (hrow : xs.flatten ≠ []) :
    Computes (fun X s => X = asList w s) (HoldsRagged w) anyLayout list2raggedLayer xs xs id ∧
    Computes (HoldsRagged w) (fun X s => X = asList w s) anyLayout ragged2listLayer xs xs id ∧
    Computes (fun X s => X = asList w s) (HoldsPadded w) anyLayout list2paddedLayer xs xs id ∧
    Computes (HoldsPadded w) (fun X s => X = asList w s) anyLayout padded2listLayer xs xs id ∧
    Computes (fun X s => X = asList w s) (fun (Y : Arr α) s => Y = ⟨[w], s.flatten⟩) anyLayout
      list2arrayLayer xs xs id := by
  have hne := rows_ne hrow
  refine ⟨?_, ?_, ?_, ?_, ?_⟩
  · rintro x rfl
    refine ⟨Ragged.make ⟨[w], xs.flatten⟩ ((asList w xs).map Arr.len), ?bk1, ?fw,
      make_holds w hw xs hrow _ (map_len_asList w xs), ?bw⟩
    case fw =>
      simp only [list2raggedLayer, flatten_asList0 w hw xs hne, bind, Except.bind, pure, Except.pure]
      rfl
    case bw =>
      intro dys dy hl hd _
      refine ⟨asList w dys, ?_, rfl⟩
      simp only [hd.1, hd.2.1]
      exact unflatten_asList w dys
  · intro r hr
    have hd : r.dataXd = ⟨[w], xs.flatten⟩ := by unfold Ragged.dataXd; rw [hr.1, hr.2.2]
    have eU : opsUnflatten r.dataXd r.lengths 0 = .ok (asList w xs) := by
      rw [hd, hr.2.1]; exact unflatten_asList w xs
    refine ⟨asList w xs, ?bk2, ?fw, rfl, ?bw⟩
    case fw =>
      simp only [ragged2listLayer, eU, bind, Except.bind, pure, Except.pure]
      rfl
    case bw =>
      rintro dys dy hl rfl _
      have hdrow := lens_rows hl hrow
      refine ⟨Ragged.make ⟨[w], dys.flatten⟩ r.lengths, ?_, make_holds w hw dys hdrow _ ?_⟩
      · simp only [flatten_asList0 w hw dys (rows_ne hdrow)]
      · rw [hr.2.1]; exact hl.symm
  · rintro x rfl
    obtain ⟨P, h1, h2⟩ := pad_holds w xs hne
    refine ⟨P, ?bk3, ?fw, h2, ?bw⟩
    case fw =>
      simp only [list2paddedLayer, h1, bind, Except.bind, pure, Except.pure]
      rfl
    case bw =>
      intro dys dy hl hd _
      exact ⟨asList w dys, unpad_holds hd, rfl⟩
  · intro P hP
    refine ⟨asList w xs, ?bk4, ?fw, rfl, ?bw⟩
    case fw =>
      simp only [padded2listLayer, unpad_holds hP, bind, Except.bind, pure, Except.pure]
      rfl
    case bw =>
      rintro dys dy hl rfl _
      obtain ⟨D, h1, h2⟩ := pad_holds w dys (lens_ne hl hne)
      exact ⟨D, h1, h2⟩
  · rintro x rfl
    refine ⟨⟨[w], xs.flatten⟩, ?bk5, ?fw, rfl, ?bw⟩
    case fw =>
      simp only [list2arrayLayer, flatten_asList0 w hw xs hne, bind, Except.bind, pure, Except.pure]
      rfl
    case bw =>
      rintro dys dy hl rfl _
      refine ⟨asList w dys, ?_, rfl⟩
      simp only [map_len_asList, ← hl]
      exact unflatten_asList w dys

example : (list2raggedLayer [(⟨[2], [[1, 2], [3, 4]]⟩ : Arr Int), ⟨[2], []⟩, ⟨[2], [[5, 6]]⟩]).map
    (fun p => p.1) = .ok ⟨⟨[2], [[1, 2], [3, 4], [5, 6]]⟩, [2, 0, 1], [2]⟩ := by decide

/-- Without any row the ragged batch forgets the width, so that the gradient has width zero. -/
theorem C69_no_rows_loses_width :
    (list2raggedLayer [(⟨[2], []⟩ : Arr Int)]).map (fun p => p.2 p.1) = .ok (.ok [⟨[0], []⟩]) := by
  decide

/-! ### C70: with_flatten -/

theorem flattenNested_eq {β : Type} (xs : List (List β)) :
    flattenNested xs = (xs.flatten, xs.map List.length) := by
  induction xs with
  | nil => rfl
  | cons x xs ih => simp [flattenNested, ih]

theorem unflattenNested_eq {β : Type} (ys : List (List β)) :
    unflattenNested ys.flatten (ys.map List.length) = ys := by
  induction ys with
  | nil => rfl
  | cons y ys ih => simp [unflattenNested, ih]

/-- **C70**: with_flatten (v2) gives the layer the concatenation of the inner lists, once, and nests what it
returns like the input; the callback does the same backwards. -/
theorem C70_with_flatten_v2 {β γ : Type} (L : Fwd (List β) (List γ)) (xs : List (List β))
    (ys : List (List γ)) (hlen : ys.map List.length = xs.map List.length)
    (back : List γ → Except PyErr (List β)) (hL : L xs.flatten = .ok (ys.flatten, back)) :
    ∃ bk, withFlattenV2 L xs = .ok (ys, bk) ∧
      ∀ (dys : List (List γ)) (dxs : List (List β)), dxs.map List.length = xs.map List.length →
        back dys.flatten = .ok dxs.flatten → bk dys = .ok dxs := by
  refine ⟨?bk, ?fw, ?bw⟩
  case fw =>
    simp only [withFlattenV2, flattenNested_eq, hL, ← hlen, unflattenNested_eq, bind, Except.bind, pure,
      Except.pure]
    rfl
  case bw =>
    intro dys dxs hl hb
    simp only [hb, hlen, ← hl, unflattenNested_eq]

/-- A layer that raises makes the wrapper raise the same. -/
theorem C70_error {β γ : Type} (L : Fwd (List β) (List γ)) (xs : List (List β)) (e : PyErr)
    (hL : L xs.flatten = .error e) : withFlattenV2 L xs = .error e := by
  simp only [withFlattenV2, flattenNested_eq, hL, bind, Except.bind]

example : ((withFlattenV2 (fun (xs : List Nat) => .ok (xs.map (· * 10), fun ds => .ok ds)))
    [[1, 2], [], [3]]).map Prod.fst = .ok [[10, 20], [], [30]] := by decide

omit [Zero α] in
/-- **C70**, version 1, forward: the output is cut into one array per inner list. -/
theorem C70_v1_forward_partial [Zero α] {β : Type}
    (L : List β → Except PyErr (Arr α × (Arr α → Except PyErr (Arr α)))) (xs : List (List β))
    (hne : xs ≠ []) (w : Nat) (ys : List (List (List α)))
    (hlen : ys.map List.length = xs.map List.length) (back : Arr α → Except PyErr (Arr α))
    (hL : L xs.flatten = .ok (⟨[w], ys.flatten⟩, back)) :
    ∃ bk, withFlattenV1 L xs = .ok (asList w ys, bk) := by
  have hsplit : npSplit (⟨[w], ys.flatten⟩ : Arr α) (cumsumFrom 0 (xs.dropLast.map List.length)) =
      asList w ys := by
    have hyne : ys ≠ [] := by
      rintro rfl
      exact hne (by simpa using hlen.symm)
    have hd : xs.dropLast.map List.length = ys.dropLast.map List.length := by
      rw [List.map_dropLast, List.map_dropLast, hlen]
    rw [hd]
    have hflat : ys.flatten = ys.dropLast.flatten ++ ys.getLast hyne := by
      conv_lhs => rw [← List.dropLast_append_getLast hyne]
      simp
    have := npSplit_segs (⟨[w], ys.flatten⟩ : Arr α) ys.dropLast (ys.getLast hyne) hflat
    rw [this]
    conv_rhs => rw [← List.dropLast_append_getLast hyne]
    simp [asList]
  refine ⟨?bk, ?fw⟩
  case fw =>
    simp only [withFlattenV1, flattenNested_eq, hL, hsplit, bind, Except.bind, pure, Except.pure]
    rfl

/-- A layer that returns its items as rows, and the gradient unchanged. -/
def exRows : List (List Int) → Except PyErr (Arr Int × (Arr Int → Except PyErr (Arr Int))) :=
  fun xs => .ok (⟨[2], xs⟩, fun d => .ok d)

/-- Version 1, backward: the gradient is cut along its last axis: for two inner lists of two rows and one
row, both gradients have three rows. -/
theorem C70_v1_backward_wrong :
    ((withFlattenV1 exRows [[[1, 2], [3, 4]], [[5, 6]]]).toOption.map
      (fun p => (p.1, (p.2 p.1).toOption))) =
    some ([⟨[2], [[1, 2], [3, 4]]⟩, ⟨[2], [[5, 6]]⟩],
      some [⟨[2], [[1, 2], [3, 4], [5, 6]]⟩, ⟨[0], [[], [], []]⟩]) := by decide

/-- Version 1 on no inner lists returns one (empty) array instead of none. -/
theorem C70_v1_empty : (withFlattenV1 exRows []).toOption.map (fun p => p.1) = some [⟨[2], []⟩] := by
  decide

end Thinc
