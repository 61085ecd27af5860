import Verif.Lemmas.Initialize
/-!
# Initialization changes the nodes of the network only
-/
namespace Thinc
open Spec

/-- Only the nodes in `S` are changed. -/
def Frame (S : List ℕ) (s s' : NetState) : Prop := ∀ j, j ∉ S → SameNode s s' j

theorem Frame.refl (S : List ℕ) (s : NetState) : Frame S s s := fun _ _ => ⟨rfl, rfl, rfl, rfl, rfl⟩

theorem Frame.trans {S : List ℕ} {a b c : NetState} (h : Frame S a b) (k : Frame S b c) : Frame S a c := by
  intro j hj
  obtain ⟨h1, h2, h3, h4, h5⟩ := h j hj
  obtain ⟨k1, k2, k3, k4, k5⟩ := k j hj
  exact ⟨k1.trans h1, k2.trans h2, k3.trans h3, k4.trans h4, k5.trans h5⟩

theorem Frame.mono {S T : List ℕ} {a b : NetState} (h : Frame S a b) (hST : ∀ j ∈ S, j ∈ T) : Frame T a b :=
  fun j hj => h j fun hS => hj (hST j hS)

theorem setO_frame {s s' : NetState} {id v : ℕ} (h : s.setO id v = .ok s') : Frame [id] s s' := by
  obtain ⟨rfl, -⟩ := setO_ok h
  intro j hj
  have : j ≠ id := by simpa using hj
  exact ⟨if_neg this, rfl, rfl, rfl, rfl⟩

theorem setI_frame {s s' : NetState} {id v : ℕ} (h : s.setI id v = .ok s') : Frame [id] s s' := by
  obtain ⟨rfl, -⟩ := setI_ok h
  intro j hj
  have : j ≠ id := by simpa using hj
  exact ⟨rfl, if_neg this, rfl, rfl, rfl⟩

theorem inferI_frame {s s' : NetState} {id : ℕ} {X : Option Val} (h : s.inferI id X = .ok s') : Frame [id] s s' := by
  unfold NetState.inferI at h
  split at h
  · cases h; exact Frame.refl _ _
  · obtain ⟨w, -, h⟩ := bind_ok h
    exact setI_frame h

theorem inferO_frame {s s' : NetState} {id : ℕ} {X : Option Val} (h : s.inferO id X = .ok s') : Frame [id] s s' := by
  unfold NetState.inferO at h
  split at h
  · cases h; exact Frame.refl _ _
  · obtain ⟨w, -, h⟩ := bind_ok h
    exact setO_frame h

theorem alloc_frame {E : NetEnv} {s s' : NetState} {id : ℕ} {sh : ℕ → ℕ → (ℕ × ℕ) × ℕ × ℕ} (h : s.alloc E id sh = .ok s') :
    Frame [id] s s' := by
  unfold NetState.alloc at h
  obtain ⟨o, ho, h⟩ := bind_ok h
  obtain ⟨i, hi, h⟩ := bind_ok h
  cases h
  intro j hj
  have hj : j ≠ id := by simpa using hj
  refine ⟨rfl, rfl, if_neg hj, ?_, ?_⟩
  · simp only [NetState.setParams]
    rw [if_neg (by omega), if_neg (by omega)]
  · simp only [NetState.setParams]
    rw [if_neg (by omega), if_neg (by omega)]

theorem leafInit_frame {E : NetEnv} {s s' : NetState} {id : ℕ} {X Y : Option Val} (h : leafInit E id X Y s = .ok s') :
    Frame [id] s s' := by
  have dense : ∀ sh, (s.inferI id X).bind (fun a => (a.inferO id Y).bind fun b => b.alloc E id sh) = .ok s' → Frame [id] s s' := by
    intro sh h
    obtain ⟨a, ha, h⟩ := bind_ok h
    obtain ⟨b, hb, h⟩ := bind_ok h
    exact (inferI_frame ha).trans ((inferO_frame hb).trans (alloc_frame h))
  unfold leafInit at h
  split at h
  · exact dense _ h
  · exact dense _ h
  · unfold softmaxInit at h
    obtain ⟨a, ha, h⟩ := bind_ok h
    obtain ⟨b, hb, h⟩ := bind_ok h
    refine Frame.trans (b := a) ?_ (Frame.trans (b := b) ?_ (alloc_frame h))
    · unfold NetState.inferUnsetI at ha
      split at ha
      · exact inferI_frame ha
      · cases ha; exact Frame.refl _ _
    · unfold NetState.inferUnsetO at hb
      split at hb
      · exact inferO_frame hb
      · cases hb; exact Frame.refl _ _
  · exact dense _ h
  · unfold layerNormInit at h
    obtain ⟨a, ha, h⟩ := bind_ok h
    obtain ⟨n, hn, h⟩ := bind_ok h
    obtain ⟨b, hb, h⟩ := bind_ok h
    refine Frame.trans (b := a) ?_ (Frame.trans (b := b) ?_ (alloc_frame h))
    · unfold layerNormInfer at ha
      split at ha
      · obtain ⟨w, hw, ha⟩ := bind_ok ha
        obtain ⟨c, hc, ha⟩ := bind_ok ha
        exact (setI_frame hc).trans (setO_frame ha)
      · obtain ⟨w, hw, ha⟩ := bind_ok ha
        obtain ⟨c, hc, ha⟩ := bind_ok ha
        exact (setI_frame hc).trans (setO_frame ha)
      · cases ha; exact Frame.refl _ _
    · unfold NetState.defaultO at hb
      split at hb
      · exact setO_frame hb
      · cases hb; exact Frame.refl _ _

theorem copyI_frame {s s' : NetState} {id : ℕ} {l : Option NetNode} (h : s.copyI id l = .ok s') : Frame [id] s s' := by
  unfold NetState.copyI at h
  split at h
  · cases h
  · split at h
    · exact setI_frame h
    · cases h; exact Frame.refl _ _

theorem copyO_frame {s s' : NetState} {id : ℕ} {l : Option NetNode} (h : s.copyO id l = .ok s') : Frame [id] s s' := by
  unfold NetState.copyO at h
  split at h
  · cases h
  · split at h
    · exact setO_frame h
    · cases h; exact Frame.refl _ _

theorem chainFinish_frame {s s' : NetState} {id : ℕ} {ls : List NetNode} {cur : Option Val}
    (h : chainFinish id ls cur s = .ok s') : Frame [id] s s' := by
  unfold chainFinish at h
  obtain ⟨a, ha, h⟩ := bind_ok h
  refine (copyI_frame ha).trans ?_
  split at h
  · unfold chainSetO at h
    split at h
    · exact copyO_frame h
    · split at h
      · exact setO_frame h
      · exact copyO_frame h
      · cases h
  · cases h; exact Frame.refl _ _

theorem NetNode.setI_frame {s s' : NetState} {t : NetNode} {w : ℕ} (h : t.setI s w = .ok s') : Frame (NetNode.ids t) s s' := by
  cases t with
  | plain L => cases h
  | _ => exact (Thinc.setI_frame h).mono fun j hj => by
          simp only [List.mem_singleton] at hj
          subst hj
          simp [NetNode.ids]

theorem NetNode.setO_frame {s s' : NetState} {t : NetNode} {w : ℕ} (h : t.setO s w = .ok s') : Frame (NetNode.ids t) s s' := by
  cases t with
  | plain L => cases h
  | _ => exact (Thinc.setO_frame h).mono fun j hj => by
          simp only [List.mem_singleton] at hj
          subst hj
          simp [NetNode.ids]

theorem setAllI_frame {w : ℕ} : ∀ {ls : List NetNode} {s s' : NetState}, setAllI w ls s = .ok s' → Frame (idsOf ls) s s'
  | [], s, s', h => by cases h; exact Frame.refl _ _
  | l :: ls, s, s', h => by
    unfold setAllI at h
    obtain ⟨a, ha, h⟩ := bind_ok h
    refine Frame.trans (b := a) ?_ ((setAllI_frame h).mono fun j hj => by simp [idsOf, hj])
    unfold NetNode.setIIfAny at ha
    split at ha
    · cases ha; exact Frame.refl _ _
    · exact (NetNode.setI_frame ha).mono fun j hj => by simp [idsOf, hj]

theorem setAllO_frame {w : ℕ} : ∀ {ls : List NetNode} {s s' : NetState}, setAllO w ls s = .ok s' → Frame (idsOf ls) s s'
  | [], s, s', h => by cases h; exact Frame.refl _ _
  | l :: ls, s, s', h => by
    unfold setAllO at h
    obtain ⟨a, ha, h⟩ := bind_ok h
    refine Frame.trans (b := a) ?_ ((setAllO_frame h).mono fun j hj => by simp [idsOf, hj])
    unfold NetNode.setOIfAny at ha
    split at ha
    · cases ha; exact Frame.refl _ _
    · exact (NetNode.setO_frame ha).mono fun j hj => by simp [idsOf, hj]

theorem combInferI_frame {s s' : NetState} {id : ℕ} {ls : List NetNode} {X : Option Val}
    (h : combInferI id ls X s = .ok s') : Frame (id :: idsOf ls) s s' := by
  unfold combInferI at h
  split at h
  · cases h; exact Frame.refl _ _
  · obtain ⟨w, -, h⟩ := bind_ok h
    obtain ⟨a, ha, h⟩ := bind_ok h
    refine Frame.trans (b := a) ?_ ((setAllI_frame h).mono fun j hj => by simp [hj])
    unfold NetState.setIIfAny at ha
    split at ha
    · cases ha; exact Frame.refl _ _
    · exact (Thinc.setI_frame ha).mono fun j hj => by simp at hj; simp [hj]

theorem addInferO_frame {s s' : NetState} {id : ℕ} {ls : List NetNode} {X : Option Val}
    (h : addInferO id ls X s = .ok s') : Frame (id :: idsOf ls) s s' := by
  unfold addInferO at h
  split at h
  · cases h; exact Frame.refl _ _
  · obtain ⟨w, -, h⟩ := bind_ok h
    obtain ⟨a, ha, h⟩ := bind_ok h
    refine Frame.trans (b := a) ?_ ((setAllO_frame h).mono fun j hj => by simp [hj])
    unfold NetState.setOIfAny at ha
    split at ha
    · cases ha; exact Frame.refl _ _
    · exact (Thinc.setO_frame ha).mono fun j hj => by simp at hj; simp [hj]

theorem Frame.head {id : ℕ} {S : List ℕ} {s s' : NetState} (h : Frame [id] s s') : Frame (id :: S) s s' :=
  h.mono fun j hj => by simp at hj; simp [hj]

theorem Frame.tail {id : ℕ} {S : List ℕ} {s s' : NetState} (h : Frame S s s') : Frame (id :: S) s s' :=
  h.mono fun j hj => by simp [hj]

theorem addFinish_frame {s s' : NetState} {id : ℕ} {ls : List NetNode}
    (h : addFinish id ls s = .ok s') : Frame [id] s s' := by
  unfold addFinish at h
  split at h
  · cases h
  · obtain ⟨w, -, h⟩ := bind_ok h
    exact setO_frame h

theorem concatFinish_frame {s s' : NetState} {id : ℕ} {ls : List NetNode}
    (h : concatFinish id ls s = .ok s') : Frame [id] s s' := by
  unfold concatFinish at h
  split at h
  · exact setO_frame h
  · cases h; exact Frame.refl _ _

mutual
theorem initialize_frame {E : NetEnv} : ∀ (t : NetNode) {X Y : Option Val} {s s' : NetState},
    NetNode.initialize E t X Y s = .ok s' → Frame (NetNode.ids t) s s'
  | .leaf id, X, Y, s, s', h => by
    rw [NetNode.initialize] at h
    exact leafInit_frame h
  | .plain L, X, Y, s, s', h => by
    rw [NetNode.initialize] at h
    cases h
    exact Frame.refl _ _
  | .chain id ls, X, Y, s, s', h => by
    rw [NetNode.initialize] at h
    obtain ⟨a, ha, h⟩ := bind_ok h
    obtain ⟨⟨cur, b⟩, hb, h⟩ := bind_ok h
    have h0 : Frame (id :: idsOf ls) s a := by
      unfold chainStart at ha
      split at ha
      · obtain ⟨c, hc, ha⟩ := bind_ok ha
        obtain ⟨d, hd, ha⟩ := bind_ok ha
        exact (initAll_frame ls hc).tail.trans ((copyI_frame hd).head.trans (copyO_frame ha).head)
      · cases ha; exact Frame.refl _ _
    exact h0.trans ((initChain_frame ls hb).tail.trans (chainFinish_frame h).head)
  | .add id ls, X, Y, s, s', h => by
    rw [NetNode.initialize] at h
    obtain ⟨a, ha, h⟩ := bind_ok h
    obtain ⟨b, hb, h⟩ := bind_ok h
    obtain ⟨c, hc, h⟩ := bind_ok h
    exact (combInferI_frame ha).trans ((addInferO_frame hb).trans ((initAll_frame ls hc).tail.trans (addFinish_frame h).head))
  | .concatenate id ls, X, Y, s, s', h => by
    rw [NetNode.initialize] at h
    obtain ⟨a, ha, h⟩ := bind_ok h
    obtain ⟨c, hc, h⟩ := bind_ok h
    exact (combInferI_frame ha).trans ((initAll_frame ls hc).tail.trans (concatFinish_frame h).head)
  | .residual id l, X, Y, s, s', h => by
    rw [NetNode.initialize] at h
    obtain ⟨a, ha, h⟩ := bind_ok h
    obtain ⟨b, hb, h⟩ := bind_ok h
    exact (initialize_frame l ha).tail.trans ((copyO_frame hb).head.trans (copyI_frame h).head)
theorem initAll_frame {E : NetEnv} : ∀ (ls : List NetNode) {X Y : Option Val} {s s' : NetState},
    NetNode.initAll E ls X Y s = .ok s' → Frame (idsOf ls) s s'
  | [], X, Y, s, s', h => by
    rw [NetNode.initAll] at h
    cases h
    exact Frame.refl _ _
  | l :: ls, X, Y, s, s', h => by
    rw [NetNode.initAll] at h
    obtain ⟨a, ha, h⟩ := bind_ok h
    exact ((initialize_frame l ha).mono fun j hj => by simp [idsOf, hj]).trans
      ((initAll_frame ls h).mono fun j hj => by simp [idsOf, hj])
theorem initChain_frame {E : NetEnv} : ∀ (ls : List NetNode) {X Y : Option Val} {s : NetState} {r : Option Val × NetState},
    NetNode.initChain E ls X Y s = .ok r → Frame (idsOf ls) s r.2
  | [], X, Y, s, r, h => by
    rw [NetNode.initChain] at h
    cases h
    exact Frame.refl _ _
  | l :: ls, X, Y, s, r, h => by
    rw [NetNode.initChain] at h
    obtain ⟨a, ha, h⟩ := bind_ok h
    obtain ⟨x, hx, h⟩ := bind_ok h
    exact ((initialize_frame l ha).mono fun j hj => by simp [idsOf, hj]).trans
      ((initChain_frame ls h).mono fun j hj => by simp [idsOf, hj])
end

end Thinc
