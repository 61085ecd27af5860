import Verif.Lemmas.Arrays
/-! Helper lemmas for padding. -/
namespace Thinc
variable {α : Type}

theorem assignRows_prefix {β : Type} (L : Nat) (z : β) (src : List β) (h : src.length ≤ L) :
    assignRows (List.replicate L z) 0 src.length src =
      .ok (src ++ List.replicate (L - src.length) z) := by
  unfold assignRows
  simp [Nat.min_eq_left h]

theorem padLoop (L : Nat) (z : List α) (rest : List (Arr α)) :
    ∀ (done : List (List (List α))) (k : Nat), done.length = k → (∀ s ∈ rest, s.len ≤ L) →
    forM' (rest.zipIdx k) (done ++ List.replicate rest.length (List.replicate L z)) padAssign =
      .ok (done ++ rest.map (fun s => s.rows ++ List.replicate (L - s.len) z)) := by
  induction rest with
  | nil => intro done k _ _; simp [forM']
  | cons s rest ih =>
    intro done k hk hL
    have hs : s.rows.length ≤ L := hL s (by simp)
    have h1 : (done ++ List.replicate (s :: rest).length (List.replicate L z))[k]? =
        some (List.replicate L z) := by
      rw [List.getElem?_append_right (by omega)]
      simp [hk]
    have h2 : padAssign (done ++ List.replicate (s :: rest).length (List.replicate L z)) (s, k) =
        .ok (done ++ (s.rows ++ List.replicate (L - s.len) z) ::
          List.replicate rest.length (List.replicate L z)) := by
      unfold padAssign
      simp only [h1, Arr.len, assignRows_prefix L z s.rows hs]
      rw [List.set_append_right _ _ (by omega)]
      simp [hk, List.replicate_succ]
    have h3 := ih (done ++ [s.rows ++ List.replicate (L - s.len) z]) (k + 1) (by simp [hk])
      (fun t ht => hL t (by simp [ht]))
    simp only [List.append_assoc, List.singleton_append] at h3
    simp only [List.zipIdx_cons, forM', h2, h3, List.map_cons]

/-- The padded length that `opsPad` uses. -/
def padLen (seqs : List (Arr α)) (roundTo : Int) : Nat :=
  (seqs.map Arr.len).foldl max 0 +
    ((-(((seqs.map Arr.len).foldl max 0 : Nat) : Int)) % roundTo).toNat

theorem opsPad_ok [Zero α] (seqs : List (Arr α)) (tail : List Nat) (roundTo : Int)
    (h : ∀ s ∈ seqs, s.tail = tail) (hne : seqs ≠ []) (hr : 1 ≤ roundTo) :
    opsPad seqs roundTo = .ok ⟨seqs.length, padLen seqs roundTo, tail,
      seqs.map (fun s => s.rows ++
        List.replicate (padLen seqs roundTo - s.len) (List.replicate tail.prod 0))⟩ := by
  cases hS : seqs with
  | nil => exact absurd hS hne
  | cons s0 rest =>
    have hs0 := h s0 (by simp [hS])
    have hall : rest.all (fun s => s.tail == s0.tail) = true := by
      simp only [List.all_eq_true, beq_iff_eq]
      intro y hy; rw [h y (by simp [hS, hy]), hs0]
    have hL : ∀ s ∈ s0 :: rest, s.len ≤ padLen (s0 :: rest) roundTo := by
      intro s hs
      exact Nat.le_trans (le_foldl_max _ 0 s.len (List.mem_map.2 ⟨s, hs, rfl⟩)) (Nat.le_add_right _ _)
    have key := padLoop (padLen (s0 :: rest) roundTo) (List.replicate tail.prod (0 : α))
      (s0 :: rest) [] 0 rfl hL
    simp only [List.nil_append] at key
    unfold opsPad
    rw [if_neg (by omega)]
    simp only []
    rw [if_neg (by simpa using hall)]
    simp only [Arr3.zeros, hs0]
    unfold padLen at key ⊢
    rw [key]

theorem opsUnpad_ok (P : Arr3 α) (lens : List Nat) (h : lens.length ≤ P.d0) :
    opsUnpad P lens = .ok (lens.zipIdx.map (fun p => P.rowTake p.2 p.1)) := by
  have key : ∀ (ls : List Nat) (k : Nat) (out : List (Arr α)), k + ls.length ≤ P.d0 →
      forM' (ls.zipIdx k) out (fun out p =>
        if p.2 < P.d0 then .ok (out ++ [P.rowTake p.2 p.1]) else .error PyErr.indexError) =
      .ok (out ++ (ls.zipIdx k).map (fun p => P.rowTake p.2 p.1)) := by
    intro ls
    induction ls with
    | nil => intro k out _; simp [forM']
    | cons l ls ih =>
      intro k out hk
      simp only [List.length_cons] at hk
      simp only [List.zipIdx_cons, forM', if_pos (show k < P.d0 by omega)]
      rw [ih (k + 1) _ (by omega)]
      simp
  have := key lens 0 [] (by omega)
  simpa [opsUnpad] using this

end Thinc
