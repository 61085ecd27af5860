import Verif.Model.TreeWide
import Verif.Props.GraphEdit
import Mathlib.Data.List.Basic
import Mathlib.Data.List.GetD
import Mathlib.Tactic.ByContra
import Mathlib.Tactic.Conv
/-!
# `wrap_model_recursive`: the heap while it runs

`Q` are the nodes for which a wrapper exists (the wrapper of `Q[j]` is at `N + j`), `P` those that have been replaced.
-/
namespace Thinc.WrapTree
open Spec Thinc
variable {V A : Type}

/-- Where a layer points once the nodes `P` have been replaced. -/
def wr (N : Nat) (Q P : List Nat) (c : Nat) : Nat := if c ∈ P then N + Q.idxOf c else c

/-- A node once the nodes `P` have been replaced; a reference of a node to itself stays. -/
def upd (N : Nat) (Q P : List Nat) (b : Nat) (n : Node V A) : Node V A :=
  { n with layers := n.layers.map (wr N Q P)
           refs := n.refs.map fun p => (p.1, p.2.map fun c => if c = b then c else wr N Q P c) }

/-- A wrapper of the node `a`. -/
structure IsWrapper (a : Nat) (n : Node V A) : Prop where
  layers : n.layers = [a]
  refs : n.refs = []
  wf : n.WF

open Classical in
structure Inv (h : Heap V A) (root : Nat) (Q P : List Nat) (g : Heap V A) : Prop where
  len : g.length = h.length + Q.length
  old : ∀ b n, h[b]? = some n → g[b]? = some (if Reachable h root b then upd h.length Q P b n else n)
  new : ∀ j (hj : j < Q.length), ∃ n, g[h.length + j]? = some n ∧ IsWrapper Q[j] n

/-- The node that an address stands for. -/
def back (N : Nat) (Q : List Nat) (x : Nat) : Nat := if x < N then x else Q.getD (x - N) 0

section
variable {h g : Heap V A} {root : Nat} {Q P : List Nat}

theorem back_wr (hPQ : P ⊆ Q) {N : Nat} {c : Nat} (hc : c < N) : back N Q (wr N Q P c) = c := by
  unfold wr
  split
  · rename_i h
    have hQ := hPQ h
    have hl := List.idxOf_lt_length_of_mem hQ
    rw [back, if_neg (Nat.not_lt.2 (Nat.le_add_right _ _)), Nat.add_sub_cancel_left, List.getD_eq_getElem _ _ hl, List.getElem_idxOf hl]
  · rw [back, if_pos hc]

theorem back_lt {N : Nat} {c : Nat} (hc : c < N) : back N Q c = c := by rw [back, if_pos hc]

theorem back_new {N j : Nat} (hj : j < Q.length) : back N Q (N + j) = Q[j] := by
  rw [back, if_neg (Nat.not_lt.2 (Nat.le_add_right _ _)), Nat.add_sub_cancel_left, List.getD_eq_getElem _ _ hj]

theorem reach_lt (hd : ∀ a b, Child h a b → b < h.length) (hroot : root < h.length) {b : Nat}
    (hb : Reachable h root b) : b < h.length := by
  induction hb with
  | refl => exact hroot
  | tail _ hc _ => exact hd _ _ hc

/-- An edge of the heap is an edge of the original, or leads from a wrapper to the wrapped node. -/
theorem child_cases (hd : ∀ a b, Child h a b → b < h.length) (hPQ : P ⊆ Q) (hQ : ∀ c ∈ Q, c < h.length)
    (I : Inv h root Q P g) {x y : Nat} (hc : Child g x y) :
    (Child h (back h.length Q x) (back h.length Q y) ∧ x < h.length ∧
        (y < h.length ∨ ∃ c ∈ P, y = h.length + Q.idxOf c)) ∨
      (h.length ≤ x ∧ y < h.length ∧ back h.length Q x = back h.length Q y) := by
  obtain ⟨n, hn, hy⟩ := hc
  have hxl : x < g.length := by
    by_contra hx
    rw [List.getElem?_eq_none (Nat.le_of_not_lt hx)] at hn
    cases hn
  by_cases hx : x < h.length
  · left
    obtain ⟨m, hm⟩ : ∃ m, h[x]? = some m := ⟨h[x], List.getElem?_eq_getElem hx⟩
    have := I.old x m hm
    rw [hn] at this
    rw [back_lt hx]
    by_cases hr : Reachable h root x
    · rw [if_pos hr] at this
      cases this
      obtain ⟨c, hc, rfl⟩ := List.mem_map.1 hy
      have hcN := hd x c ⟨m, hm, hc⟩
      rw [back_wr hPQ hcN]
      refine ⟨⟨m, hm, hc⟩, hx, ?_⟩
      unfold wr
      split
      · rename_i hcP
        exact Or.inr ⟨c, hcP, rfl⟩
      · exact Or.inl hcN
    · rw [if_neg hr] at this
      cases this
      have hyN := hd x y ⟨_, hm, hy⟩
      rw [back_lt hyN]
      exact ⟨⟨_, hm, hy⟩, hx, Or.inl hyN⟩
  · right
    have hj : x - h.length < Q.length := by rw [I.len] at hxl; omega
    obtain ⟨m, hm, hw⟩ := I.new _ hj
    have hxe : h.length + (x - h.length) = x := by omega
    rw [hxe, hn] at hm
    cases hm
    rw [hw.layers, List.mem_singleton] at hy
    subst hy
    have hlt := hQ _ (List.getElem_mem hj)
    refine ⟨by omega, hlt, ?_⟩
    rw [back_lt hlt]
    conv_lhs => rw [← hxe]
    rw [back_new hj]

theorem acyclic (hd : ∀ a b, Child h a b → b < h.length) (hPQ : P ⊆ Q) (hQ : ∀ c ∈ Q, c < h.length)
    (hac : Acyclic h) (I : Inv h root Q P g) : Acyclic g := by
  have key : ∀ x y, Descendant g x y → Descendant h (back h.length Q x) (back h.length Q y) ∨
      (h.length ≤ x ∧ y < h.length ∧ back h.length Q x = back h.length Q y) := by
    intro x y hxy
    induction hxy with
    | single hc =>
      rcases child_cases hd hPQ hQ I hc with h1 | h1
      · exact Or.inl (.single h1.1)
      · exact Or.inr h1
    | tail _ hc ih =>
      rcases child_cases hd hPQ hQ I hc with h1 | h1
      · rcases ih with h2 | h2
        · exact Or.inl (.tail h2 h1.1)
        · left
          rw [h2.2.2]
          exact .single h1.1
      · rcases ih with h2 | h2
        · left
          rw [← h1.2.2]
          exact h2
        · exact absurd (Nat.lt_of_lt_of_le h2.2.1 h1.1) (Nat.lt_irrefl _)
  intro a ha
  rcases key a a ha with h1 | h1
  · exact hac _ h1
  · exact absurd (Nat.lt_of_lt_of_le h1.2.1 h1.1) (Nat.lt_irrefl _)

theorem reach_back (hd : ∀ a b, Child h a b → b < h.length) (hPQ : P ⊆ Q) (hQ : ∀ c ∈ Q, c < h.length)
    (hroot : root < h.length) (I : Inv h root Q P g) {b : Nat} (hb : Reachable g root b) :
    Reachable h root (back h.length Q b) := by
  induction hb with
  | refl => rw [back_lt hroot]; exact .refl
  | tail _ hc ih =>
    rcases child_cases hd hPQ hQ I hc with h1 | h1
    · exact .tail ih h1.1
    · rw [← h1.2.2]; exact ih

theorem reach_fwd (hPQ : P ⊆ Q) (I : Inv h root Q P g) {a b : Nat} (ha : Reachable h root a) (hb : Reachable h a b) :
    Reachable g a b := by
  induction hb with
  | refl => exact .refl
  | @tail b c hab hc ih =>
    refine Reachable.trans ih ?_
    obtain ⟨n, hn, hy⟩ := hc
    have hbr : Reachable h root b := Reachable.trans ha hab
    have := I.old _ n hn
    rw [if_pos hbr] at this
    have h1 : Child g b (wr h.length Q P c) := ⟨_, this, List.mem_map_of_mem hy⟩
    unfold wr at h1
    split at h1
    · rename_i hcP
      have hl := List.idxOf_lt_length_of_mem (hPQ hcP)
      obtain ⟨m, hm, hw⟩ := I.new _ hl
      refine .tail (.single h1) ⟨m, hm, ?_⟩
      rw [hw.layers, List.getElem_idxOf hl]
      simp
    · exact .single h1

theorem get?_upd_refs (N : Nat) (b : Nat) (n : Node V A) (name : String) :
    (upd N Q P b n).refs.get? name = (n.refs.get? name).map fun o => o.map fun c => if c = b then c else wr N Q P c := by
  unfold upd
  dsimp only
  induction n.refs with
  | nil => rfl
  | cons e l ih =>
    obtain ⟨k, v⟩ := e
    simp only [List.map_cons, PyDict.get?_cons, ih]
    split <;> rfl

theorem wf_upd (N : Nat) (b : Nat) (n : Node V A) (hn : n.WF) : (upd N Q P b n).WF := by
  refine ⟨?_, hn.dims, hn.hasParams, hn.params, hn.grads, hn.attrs⟩
  have : PyDict.keys (upd N Q P b n).refs = PyDict.keys n.refs := by
    simp [upd, PyDict.keys, Function.comp_def]
  unfold PyDict.WF
  rw [this]
  exact hn.refs

theorem inv_wf (w : h.WF) (I : Inv h root Q P g) : g.WF := by
  intro (a : Nat) n hn
  have hal : a < g.length := by
    by_contra hx
    rw [List.getElem?_eq_none (Nat.le_of_not_lt hx)] at hn
    cases hn
  by_cases hx : a < h.length
  · obtain ⟨m, hm⟩ : ∃ m, h[a]? = some m := ⟨h[a], List.getElem?_eq_getElem hx⟩
    have := I.old a m hm
    rw [hn] at this
    split at this
    · cases this; exact wf_upd _ _ _ (w a m hm)
    · cases this; exact w a _ hm
  · have hj : a - h.length < Q.length := by rw [I.len] at hal; omega
    obtain ⟨m, hm, hw⟩ := I.new _ hj
    rw [show h.length + (a - h.length) = a by omega, hn] at hm
    cases hm
    exact hw.wf

theorem wr_step {N : Nat} {x c : Nat} (hx : x ∉ P) (hxN : x < N) :
    (if wr N (P ++ [x]) P c = x then N + P.length else wr N (P ++ [x]) P c) = wr N (P ++ [x]) (P ++ [x]) c := by
  unfold wr
  by_cases hc : c ∈ P
  · rw [if_pos hc, if_neg (by omega), if_pos (by simp [hc])]
  · rw [if_neg hc]
    by_cases hcx : c = x
    · subst hcx
      simp [hc, List.idxOf_append]
    · rw [if_neg hcx, if_neg (by simp [hc, hcx])]

theorem wr_prefix {N : Nat} {x c : Nat} : wr N (P ++ [x]) P c = wr N P P c := by
  unfold wr
  split
  · rename_i h; rw [List.idxOf_append_of_mem h]
  · rfl

theorem wr_same {N : Nat} {x c : Nat} (hcx : c ≠ x) : wr N (P ++ [x]) (P ++ [x]) c = wr N (P ++ [x]) P c := by
  unfold wr
  simp [hcx]

/-- After a wrapper was made. -/
theorem inv_append (I : Inv h root P P g) {x : Nat} {n : Node V A} (hn : IsWrapper x n) :
    Inv h root (P ++ [x]) P (g ++ [n]) := by
  refine ⟨by simp [I.len]; omega, ?_, ?_⟩
  · intro b m hm
    have hb := I.old b m hm
    have hlt : b < g.length := by
      by_contra hx
      rw [List.getElem?_eq_none (Nat.le_of_not_lt hx)] at hb
      cases hb
    rw [List.getElem?_append_left hlt, hb]
    congr 2
    unfold upd
    congr 1
    · exact List.map_congr_left fun c _ => wr_prefix.symm
    · simp only [wr_prefix]
  · intro j hj
    by_cases hjP : j < P.length
    · obtain ⟨m, hm, hw⟩ := I.new j hjP
      refine ⟨m, ?_, ?_⟩
      · rw [List.getElem?_append_left (by rw [I.len]; omega), hm]
      · rw [List.getElem_append_left hjP]; exact hw
    · have hje : j = P.length := by simp at hj; omega
      subst hje
      refine ⟨n, ?_, ?_⟩
      · rw [← I.len]; simp
      · simpa using hn

end

section
variable {h : Heap V A} {root : Nat} {P : List Nat}

theorem inv_replace (w : h.WF) (hac : Acyclic h) (hd : ∀ a b, Child h a b → b < h.length) (hroot : root < h.length)
    (hrefs : ∀ a : Nat, Reachable h root a → ∀ n, h[a]? = some n → ∀ name o, n.refs.get? name = some o →
      ∃ c, o = some c ∧ Reachable h a c)
    {x : Nat} (hP : ∀ c ∈ P, Reachable h root c) (hxr : Reachable h root x) (hx : x ∉ P) {g : Heap V A}
    (I : Inv h root (P ++ [x]) P g) :
    ∃ g', replaceNode g root x (h.length + P.length) = (g', .ok true) ∧ Inv h root (P ++ [x]) (P ++ [x]) g' := by
  have hPQ : P ⊆ P ++ [x] := by simp
  have hxN := reach_lt hd hroot hxr
  have hQ : ∀ c ∈ P ++ [x], c < h.length := by
    intro c hc
    rcases List.mem_append.1 hc with h1 | h1
    · exact reach_lt hd hroot (hP c h1)
    · rw [List.mem_singleton] at h1; exact h1 ▸ hxN
  have hget : ∀ a : Nat, Reachable g root a → ∀ n, g[a]? = some n → ∀ name o, n.refs.get? name = some o →
      ∃ m c, h[a]? = some m ∧ Reachable h root a ∧ m.refs.get? name = some (some c) ∧ Reachable h a c ∧
        o = some (if c = a then c else wr h.length (P ++ [x]) P c) := by
    intro (a : Nat) ha n hn name o ho
    have hal : a < g.length := by
      by_contra hx
      rw [List.getElem?_eq_none (Nat.le_of_not_lt hx)] at hn
      cases hn
    by_cases haN : a < h.length
    · obtain ⟨m, hm⟩ : ∃ m, h[a]? = some m := ⟨h[a], List.getElem?_eq_getElem haN⟩
      have hr := reach_back hd hPQ hQ hroot I ha
      rw [back_lt haN] at hr
      have h2 := I.old a m hm
      rw [hn, if_pos hr] at h2
      cases h2
      rw [get?_upd_refs] at ho
      cases h3 : m.refs.get? name with
      | none => rw [h3] at ho; cases ho
      | some o' =>
        obtain ⟨c, rfl, hc⟩ := hrefs a hr m hm name o' h3
        rw [h3] at ho
        simp only [Option.map_some, Option.some.injEq] at ho
        exact ⟨m, c, hm, hr, h3, hc, ho.symm⟩
    · have hj : a - h.length < (P ++ [x]).length := by have := I.len; omega
      obtain ⟨m, hm, hw⟩ := I.new _ hj
      rw [show h.length + (a - h.length) = a by omega, hn] at hm
      cases hm
      rw [hw.refs] at ho
      cases ho
  obtain ⟨g', h1, h2⟩ := C07_replace_node_partial g (inv_wf w I) (acyclic hd hPQ hQ hac I) root x (h.length + P.length)
    (fun a ha _ n hn name => by
      unfold Node.hasRef
      cases ho : n.refs.get? name with
      | none => simp
      | some o =>
        obtain ⟨m, c, _, _, _, _, rfl⟩ := hget a ha n hn name o ho
        simp)
    (fun a ha _ n hn name hr => by
      unfold Node.getRef at hr
      cases ho : n.refs.get? name with
      | none => rw [ho] at hr; cases hr
      | some o =>
        obtain ⟨m, c, hm, har, _, hac', rfl⟩ := hget a ha n hn name o ho
        rw [ho] at hr
        have hcx : (if c = a then c else wr h.length (P ++ [x]) P c) = x := by simpa using hr
        have : c = x := by
          split at hcx
          · exact hcx
          · unfold wr at hcx
            split at hcx
            · exact absurd hcx (Nat.ne_of_gt (Nat.lt_of_lt_of_le hxN (Nat.le_add_right _ _)))
            · exact hcx
        subst this
        exact reach_fwd hPQ I har hac')
  have hreach : Reachable g root x := reach_fwd hPQ I .refl hxr
  refine ⟨g', by rw [h1]; simp [hreach], ?_, ?_, ?_⟩
  · -- length
    have hle : ∀ k : Nat, g'[k]? = none ↔ g[k]? = none := by
      intro k
      rw [h2]
      split <;> simp
    rw [← I.len]
    have a1 := (hle g.length).2 (by simp)
    have a2 := (hle g'.length).1 (by simp)
    rw [List.getElem?_eq_none_iff] at a1 a2
    omega
  · intro b n hn
    have h3 := I.old b n hn
    have hbN : b < h.length := by
      by_contra hx
      rw [List.getElem?_eq_none (Nat.le_of_not_lt hx)] at hn
      cases hn
    rw [h2, h3]
    by_cases hr : Reachable h root b
    · have hrg : Reachable g root b := reach_fwd hPQ I .refl hr
      simp only [if_pos hr]
      by_cases hbx : b = x
      · subst hbx
        rw [if_neg (by simp)]
        congr 1
        unfold upd
        congr 1
        · refine List.map_congr_left fun c hc => (wr_same ?_).symm
          rintro rfl
          exact hac c (.single ⟨n, hn, hc⟩)
        · refine List.map_congr_left fun p _ => ?_
          congr 1
          cases p.2 with
          | none => rfl
          | some c =>
            simp only [Option.map_some, Option.some.injEq]
            split
            · rfl
            · rename_i hc; exact (wr_same hc).symm
      · rw [if_pos ⟨hrg, hbx⟩, Option.map_some]
        congr 1
        unfold Spec.replaced upd
        dsimp only
        congr 1
        · rw [List.map_map]
          exact List.map_congr_left fun c _ => wr_step hx hxN
        · rw [List.map_map]
          refine List.map_congr_left fun p _ => ?_
          simp only [Function.comp]
          congr 1
          cases p.2 with
          | none => simp
          | some c =>
            simp only [Option.map_some, Option.some.injEq]
            by_cases hc : c = b
            · simp [hc, hbx]
            · simp only [hc, if_false]
              rw [← wr_step hx hxN]
              split <;> rfl
    · have hrg : ¬ Reachable g root b := by
        intro h5
        have := reach_back hd hPQ hQ hroot I h5
        rw [back_lt hbN] at this
        exact hr this
      simp [hr, hrg]
  · intro j hj
    obtain ⟨n, hn, hw⟩ := I.new j hj
    rw [h2, hn]
    by_cases hjP : j < P.length
    · have hjx : (P ++ [x])[j] ≠ x := by
        rw [List.getElem_append_left hjP]
        rintro rfl
        exact hx (List.getElem_mem hjP)
      have : Spec.replaced x (h.length + P.length) n = n := by
        unfold Spec.replaced
        rw [hw.layers, hw.refs]
        simp only [List.map_cons, List.map_nil, if_neg hjx]
        rw [← hw.layers, ← hw.refs]
      split
      · exact ⟨n, by rw [Option.map_some, this], hw⟩
      · exact ⟨n, rfl, hw⟩
    · have hje : j = P.length := by simp at hj; omega
      subst hje
      have hno : ¬ Reachable g root (h.length + P.length) := by
        intro hr
        rcases Relation.ReflTransGen.cases_tail hr with h5 | ⟨y, _, hc⟩
        · have h5 : h.length + P.length = root := h5
          omega
        · rcases child_cases hd hPQ hQ I hc with ⟨_, _, h6 | ⟨c, hcP, h6⟩⟩ | ⟨_, h6, _⟩
          · omega
          · rw [List.idxOf_append_of_mem hcP] at h6
            have := List.idxOf_lt_length_of_mem hcP
            omega
          · omega
      rw [if_neg (by simp [hno])]
      exact ⟨n, rfl, hw⟩

theorem wrap_loop (w : h.WF) (hac : Acyclic h) (hd : ∀ a b, Child h a b → b < h.length) (hroot : root < h.length)
    (hrefs : ∀ a : Nat, Reachable h root a → ∀ n, h[a]? = some n → ∀ name o, n.refs.get? name = some o →
      ∃ c, o = some c ∧ Reachable h a c)
    (wrapper : Heap V A → Nat → Heap V A × Nat)
    (hwrap : ∀ g a, ∃ n, wrapper g a = (g ++ [n], g.length) ∧ IsWrapper a n) (rest : List Nat) :
    ∀ (P : List Nat) (g : Heap V A), (P ++ rest).Nodup → (∀ c ∈ P ++ rest, Reachable h root c) → Inv h root P P g →
    ∃ g', loopE (wrapStep wrapper root) rest g = (g', .ok ()) ∧ Inv h root (P ++ rest) (P ++ rest) g' := by
  induction rest with
  | nil => intro P g _ _ I; exact ⟨g, rfl, by simpa using I⟩
  | cons x rest ih =>
    intro P g hnd hr I
    obtain ⟨n, h1, h2⟩ := hwrap g x
    have hx : x ∉ P := fun hxP => (List.nodup_append.1 hnd).2.2 x hxP x (by simp) rfl
    obtain ⟨g1, h3, h4⟩ := inv_replace w hac hd hroot hrefs (fun c hc => hr c (by simp [hc])) (hr x (by simp)) hx
      (inv_append I h2)
    obtain ⟨g', h5, h6⟩ := ih (P ++ [x]) g1 (by simpa using hnd) (by simpa using hr) h4
    refine ⟨g', ?_, by simpa using h6⟩
    have : wrapStep wrapper root g x = (g1, .ok ()) := by
      unfold wrapStep
      rw [h1]
      dsimp only
      rw [I.len, h3]
    rw [loopE, this]
    exact h5

end
end Thinc.WrapTree
