import Verif.Lemmas.TrainFrame
import Verif.Props.UseParams
import Verif.Model.Checkpoint
/-!
# C125: lemmas
-/
namespace Thinc
open Spec
variable {V A R : Type}

theorem swapIn_values (params : PyDict (Nat × String) V) (names : List String) (n : Node V A) (bk : PyDict String V)
    (hn : ∀ k ∈ names, k ∈ n.paramNames) (hb : ∀ k ∈ bk.keys, k ∈ n.paramNames) :
    OnlyValues n (swapIn params names n bk).1 ∧ ∀ bk', (swapIn params names n bk).2 = .ok bk' → ∀ k ∈ bk'.keys, k ∈ n.paramNames := by
  induction names generalizing n bk with
  | nil => exact ⟨.refl n, fun bk' h => by cases h; exact hb⟩
  | cons name rest ih =>
    unfold swapIn
    cases params.get? (n.id, name) with
    | none => exact ih n bk (fun k hk => hn k (List.mem_cons_of_mem _ hk)) hb
    | some v =>
      simp only
      cases n.getParam name with
      | error e => exact ⟨.refl n, fun bk' h => (by cases h)⟩
      | ok old =>
        have h1 := onlyValues_setParam (hn name List.mem_cons_self) v
        have hnames : (n.setParam name (some v)).paramNames = n.paramNames := h1.names
        obtain ⟨r1, r2⟩ := ih (n.setParam name (some v)) (bk.set name old) (fun k hk => by rw [hnames]; exact hn k (List.mem_cons_of_mem _ hk))
          (fun k hk => by
            rw [hnames]
            rcases (PyDict.mem_keys_set _ _ _ _).1 hk with rfl | hk
            · exact hn _ List.mem_cons_self
            · exact hb k hk)
        refine ⟨h1.trans r1, fun bk' h k hk => ?_⟩
        rw [← hnames]
        exact r2 bk' h k hk

theorem restoreNode_values (bk : PyDict String V) (n : Node V A) (hb : ∀ k ∈ bk.keys, k ∈ n.paramNames) : OnlyValues n (restoreNode bk n) := by
  unfold restoreNode
  induction bk generalizing n with
  | nil => exact .refl n
  | cons p bk ih =>
    have h1 := onlyValues_setParam (hb p.1 (by simp [PyDict.keys])) p.2
    have hnames : (n.setParam p.1 (some p.2)).paramNames = n.paramNames := h1.names
    refine h1.trans (ih _ fun k hk => ?_)
    rw [hnames]
    exact hb k (by simp only [PyDict.keys, List.map_cons, List.mem_cons] at hk ⊢; exact Or.inr hk)

/-- With a body that changes values and gradients only, nothing else changes over the whole `with` block. -/
theorem useParams_trained (params : PyDict (Nat × String) V) (body : Heap V A → Heap V A × Except PyErr R)
    (hbody : ∀ h, OnlyTrained h (body h).1) (depth : Nat) (a : Addr) (h : Heap V A) : OnlyTrained h (useParams params depth a body h).1 := by
  have key : ∀ (depth : Nat) (a : Addr) (body : Heap V A → Heap V A × Except PyErr R) (_ : ∀ h, OnlyTrained h (body h).1) (h : Heap V A),
      OnlyTrained h (useParams params depth a body h).1 := by
    intro depth
    induction depth with
    | zero => intro a body _ h; exact .refl h
    | succ depth ih =>
      intro a body hbody h
      have hlayers : ∀ (ls : List Addr) (h : Heap V A), OnlyTrained h (enterLayers (useParams params depth) ls body h).1 := by
        intro ls
        induction ls with
        | nil => exact hbody
        | cons l ls ihl => exact fun h => ih l _ ihl h
      unfold useParams
      cases hn : h[a]? with
      | none => exact .refl h
      | some n =>
        obtain ⟨q1, q2⟩ := swapIn_values params n.paramNames n [] (fun _ hk => hk) (fun k hk => by simp [PyDict.keys] at hk)
        simp only
        rcases hsw : swapIn params n.paramNames n [] with ⟨n', r⟩
        rw [hsw] at q1 q2
        have hmod : OnlyTrained h (h.modify a fun _ => n') := onlyTrained_modify fun m hm => by
          rw [hn] at hm; cases hm; exact q1
        cases r with
        | error e => exact hmod
        | ok bk =>
          simp only
          have h2 := hlayers n.layers (h.modify a fun _ => n')
          rcases hen : enterLayers (useParams params depth) n.layers body (h.modify a fun _ => n') with ⟨h2', r2⟩
          rw [hen] at h2
          cases r2 with
          | error e => exact hmod.trans h2
          | ok x =>
            refine (hmod.trans h2).trans (onlyTrained_modify fun m hm => restoreNode_values bk m fun k hk => ?_)
            obtain ⟨m0, hm0, r⟩ := (hmod.trans h2).node a n hn
            rw [hm] at hm0
            cases hm0
            show k ∈ m.hasParams.keys
            rw [r.names]
            exact q2 bk rfl k hk
  exact key depth a body hbody h

/-- The parameters of the nodes read alike, except that those of the numbered parameters may have changed; gradients are the same. -/
theorem wired_values {N : ℕ} {sh : Fin N → ℕ × ℕ} {h h' : Heap (Mat ℝ) A} {root : Addr} {slot : Slots} {key : Fin N → Nat × String}
    {θ θ' g : Params sh} (H : Wired h root slot key θ g) (T : OnlyTrained h h')
    (hgr : ∀ (a : Addr) n n', h[a]? = some n → h'[a]? = some n' → n'.grads = n.grads)
    (hpar : ∀ (a : Addr) n n' k X, Reachable h root a → h[a]? = some n → h'[a]? = some n' → n.getParam k = .ok X → ∃ X', n'.getParam k = .ok X')
    (hval : ∀ (p : Fin N) n n', h[(slot p).1]? = some n → h'[(slot p).1]? = some n' → ∃ X, n'.getParam (slot p).2 = .ok X ∧ IsMat X (θ' p)) :
    Wired h' root slot key θ' g := by
  have hid : ∀ {n n' : Node (Mat ℝ) A}, OnlyValues n n' → n'.id = n.id := fun r => by rw [r.rest]
  refine ⟨H.distinct, ?_, ?_, ?_⟩
  · intro a ha
    obtain ⟨n, h1, h2, h3⟩ := H.nodes a ((T.reachable _ _).1 ha)
    obtain ⟨n', h4, r⟩ := T.node a n h1
    refine ⟨n', h4, ?_, fun k hk hg => ?_⟩
    · show n'.hasParams.keys.Nodup
      rw [r.names]; exact h2
    · obtain ⟨X, hX⟩ := h3 k (by have := hk; unfold Node.paramNames at *; rwa [r.names] at this) (by
        unfold Node.hasGrad at *
        rw [hgr a n n' h1 h4, hid r] at hg
        exact hg)
      exact hpar a n n' k X ((T.reachable _ _).1 ha) h1 h4 hX
  · intro p
    obtain ⟨h1, n, X, h2, h3, h4, h5, h6⟩ := H.param p
    obtain ⟨n', h7, r⟩ := T.node _ n h2
    obtain ⟨X', h8, h9⟩ := hval p n n' h2 h7
    refine ⟨(T.reachable _ _).2 h1, n', X', h7, by rw [h3, hid r], ?_, h8, h9⟩
    show _ ∈ n'.hasParams.keys
    rw [r.names]; exact h4
  · intro p n' hn'
    obtain ⟨n, h1, r⟩ := T.back hn'
    have := H.grad p n h1
    unfold Node.hasGrad Node.getGrad at *
    rw [hgr _ n n' h1 hn', hid r]
    exact this

theorem ofVec_isMat {n m : ℕ} {v : List ℝ} {x : Fin n → Fin m → ℝ} (h : IsFlat v x) : IsMat (Mat.ofVec n m v) x := by
  refine ⟨rfl, rfl, fun i j => ?_⟩
  have := h.2 i j
  simp only [Mat.ofVec, Mat.at, List.getD_eq_getElem?_getD, this, Option.getD_some]

theorem descent_append {N : ℕ} {sh : Fin N → ℕ × ℕ} (lr clip : ℕ → Fin N → ℝ) (k : ℕ) (θ : Params sh) (l1 l2 : List (List (Params sh → ℝ))) :
    descent lr clip k θ (l1 ++ l2) = descent lr clip (k + l1.length) (descent lr clip k θ l1) l2 := by
  induction l1 generalizing k θ with
  | nil => rfl
  | cons x l1 ih =>
    rw [List.cons_append]
    simp only [descent]
    rw [ih]
    congr 1
    rw [List.length_cons]; omega

theorem descent_congr {N : ℕ} {sh : Fin N → ℕ × ℕ} {lr clip lr' clip' : ℕ → Fin N → ℝ} {k k' : ℕ} (hlr : ∀ t p, lr (k + t) p = lr' (k' + t) p)
    (hclip : ∀ t p, clip (k + t) p = clip' (k' + t) p) (θ : Params sh) (ls : List (List (Params sh → ℝ))) :
    descent lr clip k θ ls = descent lr' clip' k' θ ls := by
  induction ls generalizing k k' θ with
  | nil => rfl
  | cons x ls ih =>
    simp only [descent]
    have e1 : lr k = lr' k' := funext fun p => hlr 0 p
    have e2 : clip k = clip' k' := funext fun p => hclip 0 p
    rw [e1, e2]
    exact ih (fun t p => by have := hlr (1 + t) p; rwa [← Nat.add_assoc, ← Nat.add_assoc] at this)
      (fun t p => by have := hclip (1 + t) p; rwa [← Nat.add_assoc, ← Nat.add_assoc] at this) _

theorem takesAll_append {N : ℕ} {sh : Fin N → ℕ × ℕ} {L : Layer} {lr clip : ℕ → Fin N → ℝ} {k : ℕ} {θ : Params sh}
    {l1 l2 : List (List (Batch sh))} (h : TakesAll L lr clip k θ (l1 ++ l2)) :
    TakesAll L lr clip k θ l1 ∧
      TakesAll L lr clip (k + l1.length) (descent lr clip k θ (l1.map fun bs => bs.map Batch.loss)) l2 := by
  induction l1 generalizing k θ with
  | nil => exact ⟨trivial, h⟩
  | cons x l1 ih =>
    rw [List.cons_append] at h
    obtain ⟨h1, h2⟩ := h
    obtain ⟨h3, h4⟩ := ih h2
    refine ⟨⟨h1, h3⟩, ?_⟩
    rw [List.length_cons, show k + (l1.length + 1) = k + 1 + l1.length by omega]
    exact h4

theorem takesAll_congr {N : ℕ} {sh : Fin N → ℕ × ℕ} {L : Layer} {lr clip lr' clip' : ℕ → Fin N → ℝ} {k k' : ℕ}
    (hlr : ∀ t p, lr (k + t) p = lr' (k' + t) p) (hclip : ∀ t p, clip (k + t) p = clip' (k' + t) p) {θ : Params sh}
    {l : List (List (Batch sh))} (h : TakesAll L lr clip k θ l) : TakesAll L lr' clip' k' θ l := by
  induction l generalizing k k' θ with
  | nil => trivial
  | cons x l ih =>
    obtain ⟨h1, h2⟩ := h
    have e1 : lr k = lr' k' := funext fun p => hlr 0 p
    have e2 : clip k = clip' k' := funext fun p => hclip 0 p
    rw [e1, e2] at h2
    exact ⟨h1, ih (fun t p => by have := hlr (1 + t) p; rwa [← Nat.add_assoc, ← Nat.add_assoc] at this)
      (fun t p => by have := hclip (1 + t) p; rwa [← Nat.add_assoc, ← Nat.add_assoc] at this) h2⟩

end Thinc
