import Verif.Spec.DebugWrappers
/-!
# C98: wrappers for debugging and profiling change nothing else
-/
namespace Thinc
open Wrap Spec

variable {P V : Type}

/-! ### Helpers -/

theorem SameCallback_refl_onNode (i : Nat) (f : V → P → Except PyErr V × P) :
    SameCallback (fun dY => onNode i (f dY)) (fun dY => onNode i (f dY)) := by
  intro dY u u' h
  simp [onNode, World.setState, h]

theorem quiet_hook {α : Type} (e : Event V) (r : Except PyErr Unit) (hr : r = .ok ()) (k : Unit → Run P V α) :
    andThen (runHook e r) k = fun w => k () (w.record e) := by
  subst hr; rfl

/-- Running a function does not depend on the log. -/
def Ignores {α : Type} (R : α → α → Prop) (m m' : Run P V α) : Prop :=
  ∀ u u', u.state = u'.state → (m u).2.state = (m' u').2.state ∧
    ((∃ e, (m u).1 = .error e ∧ (m' u').1 = .error e) ∨ ∃ a a', (m u).1 = .ok a ∧ (m' u').1 = .ok a' ∧ R a a')

theorem sameCallback_iff (b b' : V → Run P V V) : SameCallback b b' ↔ ∀ dY, Ignores Eq (b dY) (b' dY) := by
  constructor
  · intro h dY u u' hu
    obtain ⟨h1, h2⟩ := h dY u u' hu
    refine ⟨h2, ?_⟩
    cases hb : (b dY u).1 with
    | error e => exact Or.inl ⟨e, rfl, by rw [← h1, hb]⟩
    | ok a => exact Or.inr ⟨a, a, rfl, by rw [← h1, hb], rfl⟩
  · intro h dY u u' hu
    obtain ⟨h2, h1⟩ := h dY u u' hu
    refine ⟨?_, h2⟩
    rcases h1 with ⟨e, e1, e2⟩ | ⟨a, a', e1, e2, rfl⟩ <;> rw [e1, e2]

theorem ignores_onNode {α : Type} (i : Nat) (f : P → Except PyErr α × P) : Ignores (V := V) Eq (onNode i f) (onNode i f) := by
  intro u u' h
  refine ⟨by simp [onNode, World.setState, h], ?_⟩
  simp only [onNode, h]
  cases (f (u'.state i)).1 with
  | error e => exact Or.inl ⟨e, rfl, rfl⟩
  | ok a => exact Or.inr ⟨a, a, rfl, rfl, rfl⟩

theorem ignores_andThen {α β : Type} {R : α → α → Prop} {S : β → β → Prop} {m m' : Run P V α} {k k' : α → Run P V β}
    (h : Ignores R m m') (hk : ∀ a a', R a a' → Ignores S (k a) (k' a')) : Ignores S (andThen m k) (andThen m' k') := by
  intro u u' hu
  obtain ⟨h1, h2⟩ := h u u' hu
  unfold andThen
  generalize m u = x at h1 h2 ⊢
  generalize m' u' = x' at h1 h2 ⊢
  obtain ⟨r, w⟩ := x
  obtain ⟨r', w'⟩ := x'
  simp only at h1 h2
  rcases h2 with ⟨e, rfl, rfl⟩ | ⟨a, a', rfl, rfl, ha⟩
  · exact ⟨h1, Or.inl ⟨e, rfl, rfl⟩⟩
  · exact hk a a' ha _ _ h1

theorem ignores_pure {α : Type} {R : α → α → Prop} {a a' : α} (h : R a a') :
    Ignores R (fun w : World P V => (.ok a, w)) (fun w => (.ok a', w)) :=
  fun _ _ hu => ⟨hu, Or.inr ⟨a, a', rfl, rfl, h⟩⟩

theorem ignores_say_left {α : Type} {R : α → α → Prop} {e : Event V} {k : Unit → Run P V α} {m : Run P V α}
    (h : Ignores R (k ()) m) : Ignores R (andThen (say e) k) m :=
  fun u u' hu => h _ _ (by simpa [World.record] using hu)

theorem ignores_say (e : Event V) : Ignores (P := P) Eq (say e) (say e) :=
  fun _ _ hu => ⟨hu, Or.inr ⟨(), (), rfl, rfl, rfl⟩⟩

theorem ignores_nvtx_left {α : Type} {R : α → α → Prop} {hasCupy : Bool} {s : String} {c : Int} {m m' : Run P V α}
    (h : Ignores R m m') : Ignores R (useNvtxRange hasCupy s c m) m' := by
  unfold useNvtxRange
  cases hasCupy
  · exact h
  · refine ignores_say_left fun u u' hu => ?_
    obtain ⟨h1, h2⟩ := h u u' hu
    simp only [andThen]
    generalize m u = x at h1 h2 ⊢
    obtain ⟨r, w⟩ := x
    simp only at h1 h2
    rcases h2 with ⟨e, rfl, e2⟩ | ⟨a, a', rfl, e2, ha⟩
    · exact ⟨h1, Or.inl ⟨e, rfl, e2⟩⟩
    · exact ⟨h1, Or.inr ⟨a, a', rfl, e2, ha⟩⟩

theorem ignores_interval_left {α : Type} {R : α → α → Prop} {s : String} {m m' : Run P V α}
    (h : Ignores R m m') : Ignores R (useInterval s m) m' := by
  unfold useInterval
  exact ignores_say_left fun u u' hu => h u u' hu

theorem ignores_nvtx {α : Type} {R : α → α → Prop} {hasCupy : Bool} {s : String} {c : Int} {m m' : Run P V α}
    (h : Ignores R m m') : Ignores R (useNvtxRange hasCupy s c m) (useNvtxRange hasCupy s c m') := by
  unfold useNvtxRange
  cases hasCupy
  · exact h
  · rw [if_pos rfl, if_pos rfl]
    exact ignores_andThen (ignores_say _) fun _ _ _ => ignores_andThen h fun a a' ha u u' hu => ⟨hu, Or.inr ⟨a, a', rfl, rfl, ha⟩⟩

theorem ignores_interval {α : Type} {R : α → α → Prop} {s : String} {m m' : Run P V α}
    (h : Ignores R m m') : Ignores R (useInterval s m) (useInterval s m') := by
  unfold useInterval
  exact ignores_andThen (ignores_say _) fun _ _ _ u u' hu => h u u' hu

theorem ignores_hook (e : Event V) (r : Except PyErr Unit) : Ignores (P := P) Eq (runHook e r) (runHook e r) := by
  intro u u' hu
  refine ⟨hu, ?_⟩
  cases r with
  | error e => exact Or.inl ⟨e, rfl, rfl⟩
  | ok a => exact Or.inr ⟨a, a, rfl, rfl, rfl⟩

/-- Outputs that agree, with callbacks that do the same. -/
def SameOut (a a' : V × (V → Run P V V)) : Prop := a.1 = a'.1 ∧ SameCallback a.2 a'.2

theorem call_ignores (hasCupy : Bool) (f : Func P V) : ∀ (model : Nat) (X : V) (t : Bool),
    Ignores SameOut (f.call hasCupy model X t) (f.call hasCupy model X t) := by
  induction f with
  | base f =>
    intro model X t
    refine ignores_andThen (ignores_onNode model _) ?_
    rintro ⟨Y, b⟩ _ rfl
    exact ignores_pure ⟨rfl, (sameCallback_iff _ _).2 fun dY => ignores_onNode _ _⟩
  | debug layer hooks orig ih =>
    intro model X t
    refine ignores_andThen (ignores_hook _ _) fun _ _ _ => ignores_andThen (ih layer X t) ?_
    rintro ⟨Y, b⟩ ⟨Y', b'⟩ ⟨h1, h2⟩
    exact ignores_pure ⟨h1, (sameCallback_iff _ _).2 fun dY =>
      ignores_andThen (ignores_hook _ _) fun _ _ _ => (sameCallback_iff _ _).1 h2 dY⟩
  | nvtx name fc bc orig ih =>
    intro model X t
    refine ignores_andThen (ignores_nvtx (ih model X t)) ?_
    rintro ⟨Y, b⟩ ⟨Y', b'⟩ ⟨h1, h2⟩
    exact ignores_pure ⟨h1, (sameCallback_iff _ _).2 fun dY => ignores_nvtx ((sameCallback_iff _ _).1 h2 dY)⟩
  | signpost name orig ih =>
    intro model X t
    refine ignores_andThen (ignores_interval (ih model X t)) ?_
    rintro ⟨Y, b⟩ ⟨Y', b'⟩ ⟨h1, h2⟩
    exact ignores_pure ⟨h1, (sameCallback_iff _ _).2 fun dY => ignores_interval ((sameCallback_iff _ _).1 h2 dY)⟩

/-- The closure a wrapper makes of a forward function. -/
def wrapFunc (layer : Nat) (f : Func P V) : Wrapper V → Func P V
  | .debug hooks => .debug layer hooks f
  | .nvtx name fc bc => .nvtx name fc bc f
  | .signpost name => .signpost name f

def wrapInit (layer : Nat) (g : InitFn P V) : Wrapper V → InitFn P V
  | .debug hooks => .debug layer hooks g
  | .nvtx _ _ _ => .nvtx layer g
  | .signpost name => .signpost layer name g

/-- A closure is as good as what it wraps. -/
theorem wrapFunc_same (hasCupy : Bool) (layer model : Nat) (f g : Func P V) (wr : Wrapper V) (hq : Quiet wr)
    (hd : IsDebug wr → model = layer) (X : V) (t : Bool)
    (hfg : Ignores SameOut (f.call hasCupy model X t) (g.call hasCupy model X t)) :
    Ignores SameOut ((wrapFunc layer f wr).call hasCupy model X t) (g.call hasCupy model X t) := by
  cases wr with
  | debug hooks =>
    obtain rfl := hd trivial
    obtain ⟨-, hf, hb⟩ := hq
    simp only [wrapFunc, Func.call]
    rw [quiet_hook _ _ (hf _ _ _)]
    intro u u' hu
    obtain ⟨h1, h2⟩ := hfg (u.record (.onForward hooks.tag model X t)) u' (by simpa [World.record] using hu)
    simp only [andThen]
    generalize f.call hasCupy model X t (u.record (.onForward hooks.tag model X t)) = x at h1 h2 ⊢
    obtain ⟨r, w⟩ := x
    simp only at h1 h2
    rcases h2 with ⟨e, rfl, e2⟩ | ⟨⟨Y, b⟩, a', rfl, e2, ha⟩
    · exact ⟨h1, Or.inl ⟨e, rfl, e2⟩⟩
    · refine ⟨h1, Or.inr ⟨_, a', rfl, e2, ha.1, (sameCallback_iff _ _).2 fun dY => ?_⟩⟩
      show Ignores Eq (andThen (runHook _ _) _) _
      rw [quiet_hook _ _ (hb _)]
      intro v v' hv
      exact (sameCallback_iff _ _).1 ha.2 dY _ _ (by simpa [World.record] using hv)
  | nvtx name fc bc =>
    intro u u' hu
    obtain ⟨h1, h2⟩ := ignores_nvtx_left (hasCupy := hasCupy) (s := name ++ " forward") (c := fc) hfg u u' hu
    simp only [wrapFunc, Func.call, andThen]
    generalize useNvtxRange hasCupy (name ++ " forward") fc (f.call hasCupy model X t) u = x at h1 h2 ⊢
    obtain ⟨r, w⟩ := x
    simp only at h1 h2
    rcases h2 with ⟨e, rfl, e2⟩ | ⟨⟨Y, b⟩, a', rfl, e2, ha⟩
    · exact ⟨h1, Or.inl ⟨e, rfl, e2⟩⟩
    · exact ⟨h1, Or.inr ⟨_, a', rfl, e2, ha.1, (sameCallback_iff _ _).2 fun dY =>
        ignores_nvtx_left ((sameCallback_iff _ _).1 ha.2 dY)⟩⟩
  | signpost name =>
    intro u u' hu
    obtain ⟨h1, h2⟩ := ignores_interval_left (s := name ++ " forward") hfg u u' hu
    simp only [wrapFunc, Func.call, andThen]
    generalize useInterval (name ++ " forward") (f.call hasCupy model X t) u = x at h1 h2 ⊢
    obtain ⟨r, w⟩ := x
    simp only at h1 h2
    rcases h2 with ⟨e, rfl, e2⟩ | ⟨⟨Y, b⟩, a', rfl, e2, ha⟩
    · exact ⟨h1, Or.inl ⟨e, rfl, e2⟩⟩
    · exact ⟨h1, Or.inr ⟨_, a', rfl, e2, ha.1, (sameCallback_iff _ _).2 fun dY =>
        ignores_interval_left ((sameCallback_iff _ _).1 ha.2 dY)⟩⟩

theorem wrapAll_func (ws : List (Wrapper V)) : ∀ (w : World P V) (l : Nat),
    (w.wrapAll l ws).func l = ws.foldl (wrapFunc l) (w.func l) ∧ (w.wrapAll l ws).init l = ws.foldl (wrapInit l) (w.init l) ∧
    (w.wrapAll l ws).state = w.state ∧ (w.wrapAll l ws).log = w.log ∧ (w.wrapAll l ws).next = w.next ∧
    ∀ i, i ≠ l → (w.wrapAll l ws).func i = w.func i ∧ (w.wrapAll l ws).init i = w.init i := by
  induction ws with
  | nil => intro w l; simp [World.wrapAll]
  | cons wr ws ih =>
    intro w l
    obtain ⟨h1, h2, h3, h4, h5, h6⟩ := ih (w.wrap l wr) l
    have e : w.wrapAll l (wr :: ws) = (w.wrap l wr).wrapAll l ws := rfl
    rw [e]
    have hf : (w.wrap l wr).func l = wrapFunc l (w.func l) wr := by cases wr <;> simp [World.wrap, World.replaceCallbacks, wrapFunc]
    have hi : (w.wrap l wr).init l = wrapInit l (w.init l) wr := by cases wr <;> simp [World.wrap, World.replaceCallbacks, wrapInit]
    have hs : (w.wrap l wr).state = w.state ∧ (w.wrap l wr).log = w.log ∧ (w.wrap l wr).next = w.next := by
      cases wr <;> simp [World.wrap, World.replaceCallbacks]
    refine ⟨by rw [h1, hf]; rfl, by rw [h2, hi]; rfl, by rw [h3, hs.1], by rw [h4, hs.2.1], by rw [h5, hs.2.2], fun i hi' => ?_⟩
    rw [(h6 i hi').1, (h6 i hi').2]
    cases wr <;> simp [World.wrap, World.replaceCallbacks, hi']

theorem foldl_same (hasCupy : Bool) (layer model : Nat) (ws : List (Wrapper V)) (X : V) (t : Bool) (g : Func P V) :
    ∀ (f : Func P V), (∀ wr ∈ ws, Quiet wr) → (∀ wr ∈ ws, IsDebug wr → model = layer) →
    Ignores SameOut (f.call hasCupy model X t) (g.call hasCupy model X t) →
    Ignores SameOut ((ws.foldl (wrapFunc layer) f).call hasCupy model X t) (g.call hasCupy model X t) := by
  induction ws with
  | nil => intro f _ _ h; exact h
  | cons wr ws ih =>
    intro f hq hd h
    exact ih _ (fun w hw => hq w (List.mem_cons_of_mem _ hw)) (fun w hw => hd w (List.mem_cons_of_mem _ hw))
      (wrapFunc_same hasCupy layer model f g wr (hq wr List.mem_cons_self) (hd wr List.mem_cons_self) X t h)

theorem sameCall_of {m m' : Run P V (V × (V → Run P V V))} (h : Ignores SameOut m m') (u u' : World P V)
    (hu : u.state = u'.state) : SameCall (m u) (m' u') := by
  obtain ⟨h1, h2⟩ := h u u' hu
  refine ⟨h1, ?_⟩
  rcases h2 with ⟨e, e1, e2⟩ | ⟨⟨Y, b⟩, ⟨Y', b'⟩, e1, e2, rfl, hb⟩
  · exact Or.inl ⟨e, e1, e2⟩
  · exact Or.inr ⟨_, b, b', e1, e2, hb⟩

theorem eq_of_ignores {α : Type} {m m' : Run P V α} (h : Ignores Eq m m') (u u' : World P V)
    (hu : u.state = u'.state) : (m u).1 = (m' u').1 ∧ (m u).2.state = (m' u').2.state := by
  obtain ⟨h1, h2⟩ := h u u' hu
  refine ⟨?_, h1⟩
  rcases h2 with ⟨e, e1, e2⟩ | ⟨a, _, e1, e2, rfl⟩ <;> rw [e1, e2]

theorem init_ignores (g : InitFn P V) : ∀ (model : Nat) (X Y : V), Ignores Eq (g.call model X Y) (g.call model X Y) := by
  induction g with
  | none => intro model X Y; exact ignores_pure rfl
  | base g => intro model X Y; exact ignores_onNode _ _
  | debug layer hooks orig ih => intro model X Y; exact ignores_andThen (ignores_hook _ _) fun _ _ _ => ih _ _ _
  | nvtx layer orig ih => intro model X Y; exact ih _ _ _
  | signpost layer name orig ih =>
    intro model X Y
    cases orig with
    | none => exact ignores_pure rfl
    | _ => exact ignores_interval (ih _ _ _)

theorem foldl_init_same (layer : Nat) (X Y : V) (g : InitFn P V) (ws : List (Wrapper V)) :
    ∀ (f : InitFn P V), (∀ wr ∈ ws, Quiet wr) → Ignores Eq (f.call layer X Y) (g.call layer X Y) →
    Ignores Eq ((ws.foldl (wrapInit layer) f).call layer X Y) (g.call layer X Y) := by
  induction ws with
  | nil => intro f _ h; exact h
  | cons wr ws ih =>
    intro f hq h
    refine ih _ (fun w hw => hq w (List.mem_cons_of_mem _ hw)) ?_
    have hq := hq wr List.mem_cons_self
    cases wr with
    | debug hooks =>
      show Ignores Eq (andThen (runHook _ _) _) _
      rw [quiet_hook _ _ (hq.1 _ _ _)]
      exact fun u u' hu => h _ _ (by simpa [World.record] using hu)
    | nvtx name fc bc => exact h
    | signpost name =>
      cases f with
      | none => exact h
      | _ => exact ignores_interval_left h

/-- What a call of `f` and its callback record, if the layer does not raise. -/
def Traces (hasCupy : Bool) (layer : Nat) (X : V) (t : Bool) (p : P) (Y : V) (back : V → P → Except PyErr V × P) (f : Func P V)
    (fl : List (Event V)) (bl : V → List (Event V)) : Prop :=
  ∀ u : World P V, u.state layer = p → ∃ b', (f.call hasCupy layer X t u).1 = .ok (Y, b') ∧
    (f.call hasCupy layer X t u).2.log = u.log ++ fl ∧
    ∀ dY v dX, (back dY (v.state layer)).1 = .ok dX → (b' dY v).1 = .ok dX ∧ (b' dY v).2.log = v.log ++ bl dY

theorem traces_wrap (hasCupy : Bool) (layer : Nat) (X : V) (t : Bool) (p : P) (Y : V) (back : V → P → Except PyErr V × P)
    (f : Func P V) (fl : List (Event V)) (bl : V → List (Event V)) (h : Traces hasCupy layer X t p Y back f fl bl)
    (wr : Wrapper V) (hq : Quiet wr) :
    Traces hasCupy layer X t p Y back (wrapFunc layer f wr) (forwardOpens hasCupy layer X t wr ++ fl ++ forwardCloses hasCupy wr)
      (fun dY => backpropOpens hasCupy dY wr ++ bl dY ++ backpropCloses hasCupy wr) := by
  intro u hu
  cases wr with
  | debug hooks =>
    obtain ⟨b', h1, h2, h3⟩ := h (u.record (.onForward hooks.tag layer X t)) hu
    simp only [wrapFunc, Func.call]
    rw [quiet_hook _ _ (hq.2.1 _ _ _)]
    simp only [andThen]
    generalize f.call hasCupy layer X t (u.record (.onForward hooks.tag layer X t)) = x at h1 h2 ⊢
    obtain ⟨r, w⟩ := x
    simp only at h1 h2
    subst h1
    refine ⟨_, rfl, by simp [h2, World.record, forwardOpens, forwardCloses], fun dY v dX hd => ?_⟩
    obtain ⟨g1, g2⟩ := h3 dY (v.record (.onBackprop hooks.tag dY)) dX hd
    have : runHook (P := P) (.onBackprop hooks.tag dY) (hooks.onBackprop dY) v = (.ok (), v.record (.onBackprop hooks.tag dY)) := by
      rw [hq.2.2]; rfl
    simp only [andThen, this]
    exact ⟨g1, by rw [g2]; simp [World.record, backpropOpens, backpropCloses]⟩
  | nvtx name fc bc =>
    cases hasCupy with
    | false =>
      obtain ⟨b', h1, h2, h3⟩ := h u hu
      simp only [wrapFunc, Func.call, useNvtxRange, andThen, Bool.false_eq_true, if_false]
      generalize f.call false layer X t u = x at h1 h2 ⊢
      obtain ⟨r, w⟩ := x
      simp only at h1 h2
      subst h1
      refine ⟨_, rfl, by simp [h2, forwardOpens, forwardCloses], fun dY v dX hd => ?_⟩
      simpa [backpropOpens, backpropCloses] using h3 dY v dX hd
    | true =>
      obtain ⟨b', h1, h2, h3⟩ := h (u.record (.rangePush (name ++ " forward") fc)) hu
      simp only [wrapFunc, Func.call, useNvtxRange, andThen, if_true, say]
      generalize f.call true layer X t (u.record (.rangePush (name ++ " forward") fc)) = x at h1 h2 ⊢
      obtain ⟨r, w⟩ := x
      simp only at h1 h2
      subst h1
      refine ⟨_, rfl, by simp [h2, World.record, forwardOpens, forwardCloses], fun dY v dX hd => ?_⟩
      obtain ⟨g1, g2⟩ := h3 dY (v.record (.rangePush (name ++ " backprop") bc)) dX hd
      simp only [andThen, say]
      generalize b' dY (v.record (.rangePush (name ++ " backprop") bc)) = x at g1 g2 ⊢
      obtain ⟨r, w⟩ := x
      simp only at g1 g2
      subst g1
      exact ⟨rfl, by simp [g2, World.record, backpropOpens, backpropCloses]⟩
  | signpost name =>
    obtain ⟨b', h1, h2, h3⟩ := h (u.record (.intervalBegin (name ++ " forward"))) hu
    simp only [wrapFunc, Func.call, useInterval, andThen, say]
    generalize f.call hasCupy layer X t (u.record (.intervalBegin (name ++ " forward"))) = x at h1 h2 ⊢
    obtain ⟨r, w⟩ := x
    simp only at h1 h2
    subst h1
    refine ⟨_, rfl, by simp [h2, World.record, forwardOpens, forwardCloses], fun dY v dX hd => ?_⟩
    obtain ⟨g1, g2⟩ := h3 dY (v.record (.intervalBegin (name ++ " backprop"))) dX hd
    simp only [andThen, say]
    exact ⟨g1, by simp only [World.record] at g2 ⊢; simp [g2, backpropOpens, backpropCloses]⟩

theorem foldl_trace (hasCupy : Bool) (layer : Nat) (X : V) (t : Bool) (p : P) (Y : V) (back : V → P → Except PyErr V × P)
    (ws : List (Wrapper V)) : ∀ (f : Func P V) (fl : List (Event V)) (bl : V → List (Event V)), (∀ wr ∈ ws, Quiet wr) →
    Traces hasCupy layer X t p Y back f fl bl →
    Traces hasCupy layer X t p Y back (ws.foldl (wrapFunc layer) f)
      (nested (forwardOpens hasCupy layer X t) (forwardCloses hasCupy) fl ws)
      (fun dY => nested (backpropOpens hasCupy dY) (backpropCloses hasCupy) (bl dY) ws) := by
  induction ws with
  | nil => intro f fl bl _ h; exact h
  | cons wr ws ih =>
    intro f fl bl hq h
    exact ih _ _ _ (fun w hw => hq w (List.mem_cons_of_mem _ hw))
      (traces_wrap hasCupy layer X t p Y back f fl bl h wr (hq wr List.mem_cons_self))

/-! ### The theorems -/

/-- C98: wrapping a layer for debugging or profiling, any number of times, changes neither outputs nor gradients, exceptions or
parameters, as long as the hooks do not raise. -/
theorem C98_forward (hasCupy : Bool) (w : World P V) (layer : Nat) (ws : List (Wrapper V)) (hq : ∀ wr ∈ ws, Quiet wr) (X : V)
    (isTrain : Bool) : SameCall ((w.wrapAll layer ws).call hasCupy layer X isTrain) (w.call hasCupy layer X isTrain) := by
  obtain ⟨h1, -, h3, -⟩ := wrapAll_func ws w layer
  unfold World.call
  rw [h1]
  exact sameCall_of (foldl_same hasCupy layer layer ws X isTrain _ _ hq (fun _ _ _ => rfl) (call_ignores hasCupy _ _ _ _)) _ _ h3

/-- C98: nor does it change what initialization does. -/
theorem C98_initialize (w : World P V) (layer : Nat) (ws : List (Wrapper V)) (hq : ∀ wr ∈ ws, Quiet wr) (X Y : V) :
    ((w.wrapAll layer ws).initialize layer X Y).1 = (w.initialize layer X Y).1 ∧
      ((w.wrapAll layer ws).initialize layer X Y).2.state = (w.initialize layer X Y).2.state := by
  obtain ⟨-, h2, h3, -⟩ := wrapAll_func ws w layer
  unfold World.initialize
  rw [h2]
  exact eq_of_ignores (foldl_init_same layer X Y (w.init layer) ws (w.init layer) hq (init_ignores _ _ _ _)) _ _ h3

/-- C98: a copy of a layer with profiling wrappers does what a copy of the layer without them does. -/
theorem C98_copy_partial (hasCupy : Bool) (w : World P V) (layer : Nat) (ws : List (Wrapper V)) (hq : ∀ wr ∈ ws, Quiet wr)
    (hd : ∀ wr ∈ ws, ¬ IsDebug wr) (states : Nat → P) (X : V) (isTrain : Bool) :
    SameCall (World.call hasCupy { (w.wrapAll layer ws).copy layer with state := states } w.next X isTrain)
      (World.call hasCupy { w.copy layer with state := states } w.next X isTrain) := by
  obtain ⟨h1, -, -, -, h5, -⟩ := wrapAll_func ws w layer
  have e1 : ((w.wrapAll layer ws).copy layer).func w.next = ws.foldl (wrapFunc layer) (w.func layer) := by
    simp [World.copy, h5, h1]
  have e2 : (w.copy layer).func w.next = w.func layer := by simp [World.copy]
  unfold World.call
  simp only [e1, e2]
  exact sameCall_of (foldl_same hasCupy layer w.next ws X isTrain _ _ hq (fun wr h hd' => absurd hd' (hd wr h))
    (call_ignores hasCupy _ _ _ _)) _ _ rfl

/-- C98: copying a model, with wrappers or without, gives a new model with the same parameters, and leaves every other model and
the log as they were. -/
theorem C98_copy_state (w : World P V) (layer : Nat) (ws : List (Wrapper V)) :
    ((w.wrapAll layer ws).copy layer).state w.next = w.state layer ∧
    (∀ m, m ≠ w.next → ((w.wrapAll layer ws).copy layer).state m = w.state m) ∧
    (∀ m, m ≠ w.next → ((w.wrapAll layer ws).copy layer).func m = (w.wrapAll layer ws).func m ∧
      ((w.wrapAll layer ws).copy layer).init m = (w.wrapAll layer ws).init m) ∧
    ((w.wrapAll layer ws).copy layer).log = w.log := by
  have h : ∀ (ws : List (Wrapper V)) (w : World P V), (w.wrapAll layer ws).state = w.state ∧ (w.wrapAll layer ws).next = w.next ∧
      (w.wrapAll layer ws).log = w.log := by
    intro ws
    induction ws with
    | nil => intro w; exact ⟨rfl, rfl, rfl⟩
    | cons wr ws ih =>
      intro w
      have e : (w.wrap layer wr).state = w.state ∧ (w.wrap layer wr).next = w.next ∧ (w.wrap layer wr).log = w.log := by
        cases wr <;> simp [World.wrap, World.replaceCallbacks]
      have := ih (w.wrap layer wr)
      exact ⟨this.1.trans e.1, this.2.1.trans e.2.1, this.2.2.trans e.2.2⟩
  obtain ⟨h1, h2, h3⟩ := h ws w
  refine ⟨by simp [World.copy, h1, h2], fun m hm => by simp [World.copy, h1, h2, hm], fun m hm => ⟨?_, ?_⟩, by simp [World.copy, h3]⟩
  · simp [World.copy, h2, hm]
  · simp [World.copy, h2, hm]

/-- C98 fails for copies of layers with `with_debug`: whatever the parameters of the copy are, calling it uses and changes those
of the original. -/
theorem C98_debug_copy (hasCupy : Bool) (w : World P V) (layer : Nat) (hooks : Hooks V) (hq : Quiet (.debug hooks))
    (states : Nat → P) (X : V) (isTrain : Bool) :
    SameCall (World.call hasCupy { (w.wrap layer (.debug hooks)).copy layer with state := states } w.next X isTrain)
      (World.call hasCupy { w with state := states } layer X isTrain) := by
  have e1 : ((w.wrap layer (.debug hooks)).copy layer).func w.next = .debug layer hooks (w.func layer) := by
    simp [World.copy, World.wrap, World.replaceCallbacks]
  unfold World.call
  simp only [e1]
  have hf := wrapFunc_same hasCupy layer layer (w.func layer) (w.func layer) (.debug hooks) hq (fun _ => rfl) X isTrain
    (call_ignores hasCupy _ _ _ _)
  have hsame : Ignores SameOut ((Func.debug layer hooks (w.func layer)).call hasCupy w.next X isTrain)
      ((w.func layer).call hasCupy layer X isTrain) := by
    simp only [wrapFunc, Func.call] at hf ⊢
    rw [quiet_hook _ _ (hq.2.1 _ _ _)] at hf ⊢
    intro u u' hu
    have := hf u u' hu
    have hrec := call_ignores hasCupy (w.func layer) layer X isTrain (u.record (.onForward hooks.tag w.next X isTrain)) u'
      (by simpa [World.record] using hu)
    obtain ⟨h1, h2⟩ := hrec
    simp only [andThen]
    generalize (w.func layer).call hasCupy layer X isTrain (u.record (.onForward hooks.tag w.next X isTrain)) = x at h1 h2 ⊢
    obtain ⟨r, v⟩ := x
    simp only at h1 h2
    rcases h2 with ⟨e, rfl, e2⟩ | ⟨⟨Y, b⟩, a', rfl, e2, ha⟩
    · exact ⟨h1, Or.inl ⟨e, rfl, e2⟩⟩
    · refine ⟨h1, Or.inr ⟨_, a', rfl, e2, ha.1, (sameCallback_iff _ _).2 fun dY => ?_⟩⟩
      show Ignores Eq (andThen (runHook _ _) _) _
      rw [quiet_hook _ _ (hq.2.2 _)]
      intro v v' hv
      exact (sameCallback_iff _ _).1 ha.2 dY _ _ (by simpa [World.record] using hv)
  exact sameCall_of hsame _ _ rfl

/-- C98 fails for the initialization of copies, with each of the wrappers: the original is initialized, the copy is not. -/
theorem C98_init_copy (w : World P V) (layer : Nat) (g : BaseInit P V) (hg : w.init layer = .base g) (wr : Wrapper V) (hq : Quiet wr)
    (states : Nat → P) (X Y : V) :
    (World.initialize { (w.wrap layer wr).copy layer with state := states } w.next X Y).2.state =
      Function.update states layer (g X Y (states layer)).2 := by
  have e1 : ((w.wrap layer wr).copy layer).init w.next = wrapInit layer (.base g) wr := by
    cases wr <;> simp [World.copy, World.wrap, World.replaceCallbacks, wrapInit, hg]
  unfold World.initialize
  simp only [e1]
  cases wr with
  | debug hooks =>
    simp only [wrapInit, InitFn.call]
    rw [quiet_hook _ _ (hq.1 _ _ _)]
    simp [onNode, World.setState, World.record]
  | nvtx name fc bc => simp [wrapInit, InitFn.call, onNode, World.setState]
  | signpost name => simp [wrapInit, InitFn.call, onNode, World.setState, useInterval, andThen, say, World.record]

/-- C98: what the hooks and the profiler see of a forward pass without exceptions, and of the backward pass: each wrapper
encloses those that were there before it. -/
theorem C98_trace (hasCupy : Bool) (w : World P V) (layer : Nat) (f : BaseForward P V) (hf : w.func layer = .base f)
    (ws : List (Wrapper V)) (hq : ∀ wr ∈ ws, Quiet wr) (X Y : V) (isTrain : Bool) (back : V → P → Except PyErr V × P)
    (hY : (f X isTrain (w.state layer)).1 = .ok (Y, back)) :
    ∃ back', ((w.wrapAll layer ws).call hasCupy layer X isTrain).1 = .ok (Y, back') ∧
      ((w.wrapAll layer ws).call hasCupy layer X isTrain).2.log =
        w.log ++ nested (forwardOpens hasCupy layer X isTrain) (forwardCloses hasCupy) [] ws ∧
      ∀ dY u dX, (back dY (u.state layer)).1 = .ok dX →
        (back' dY u).1 = .ok dX ∧
        (back' dY u).2.log = u.log ++ nested (backpropOpens hasCupy dY) (backpropCloses hasCupy) [] ws := by
  obtain ⟨h1, -, h3, h4, -⟩ := wrapAll_func ws w layer
  unfold World.call
  rw [h1, hf]
  obtain ⟨b', t1, t2, t3⟩ := foldl_trace hasCupy layer X isTrain (w.state layer) Y back ws (.base f) [] (fun _ => []) hq
    (fun u hu => by
      refine ⟨fun dY => onNode layer (back dY), ?_, ?_, ?_⟩
      · simp [Func.call, andThen, onNode, hu, hY]
      · simp [Func.call, andThen, onNode, hu, hY, World.setState]
      · intro dY v dX h
        simp [onNode, h, World.setState]) (w.wrapAll layer ws) (by rw [h3])
  exact ⟨b', t1, by rw [t2, h4], t3⟩

/-- C98 fails if the layer raises: its NVTX range is never closed, so that all later ranges are nested in it. -/
theorem C98_open_range (w : World P V) (layer : Nat) (name : String) (fc bc : Int) (f : BaseForward P V)
    (hf : w.func layer = .base f) (X : V) (isTrain : Bool) (e : PyErr) (he : (f X isTrain (w.state layer)).1 = .error e) :
    ((w.wrap layer (.nvtx name fc bc)).call true layer X isTrain).1 = .error e ∧
      openRanges ((w.wrap layer (.nvtx name fc bc)).call true layer X isTrain).2.log = openRanges w.log + 1 := by
  simp [World.call, World.wrap, World.replaceCallbacks, Func.call, useNvtxRange, andThen, say, World.record, onNode, hf, he,
    World.setState, openRanges]

/-! ### A case -/

namespace WrapCase

/-- A layer with one number as its parameter, which it adds; the callback adds the gradient to the parameter. -/
def f : BaseForward Int Int := fun X _ p => (.ok (X + p, fun dY p => (.ok dY, p + dY)), p)

def w : World Int Int where
  next := 1
  state _ := 5
  func _ := .base f
  init _ := .base fun X Y p => (.ok (), X + Y + p)
  log := []

def hooks : Hooks Int := ⟨0, fun _ _ _ => .ok (), fun _ _ _ => .ok (), fun _ => .ok ()⟩

/-- The hypotheses of the theorems hold; hooks and ranges are nested as said. -/
example : (∀ wr ∈ [Wrapper.debug hooks, .nvtx "a" (-1) 2, .signpost "b"], Quiet wr) ∧
    nested (forwardOpens true 0 (3 : Int) true) (forwardCloses true) [] [.debug hooks, .nvtx "a" (-1) 2, .signpost "b"] =
      [.intervalBegin ("b" ++ " forward"), .rangePush ("a" ++ " forward") (-1), .onForward 0 0 3 true, .rangePop,
        .intervalEnd ("b" ++ " forward")] := by
  refine ⟨fun wr h => ?_, rfl⟩
  simp only [List.mem_cons, List.not_mem_nil, or_false] at h
  rcases h with rfl | rfl | rfl
  · exact ⟨fun _ _ _ => rfl, fun _ _ _ => rfl, fun _ => rfl⟩
  · trivial
  · trivial

/-- Layers do raise. -/
example : ∃ f : BaseForward Int Int, (f 1 true 0).1 = .error .valueError := ⟨fun _ _ p => (.error .valueError, p), rfl⟩

end WrapCase

open WrapCase in
/-- After copying a layer with `with_debug` and setting the parameter of the copy to 100, the copy still adds 5. -/
theorem C98_debug_copy_violated :
    let copied : World Int Int := (w.wrap 0 (.debug hooks)).copy 0
    (World.call false { copied with state := fun i => if i = 1 then 100 else 5 } 1 3 false).1.map Prod.fst = .ok 8 ∧
    (World.call false { w.copy 0 with state := fun i => if i = 1 then 100 else 5 } 1 3 false).1.map Prod.fst = .ok 103 :=
  ⟨rfl, rfl⟩

end Thinc
