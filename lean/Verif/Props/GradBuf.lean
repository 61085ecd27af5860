import Verif.Model.GradBuf
import Verif.Lemmas.PyDict
/-!
# C14: gradient accumulation and aliasing
-/
namespace Thinc
variable {K V : Type} [DecidableEq K]

namespace Spec

/-- What the caller's arrays should contain: only the caller's own writes change them. -/
def callerArrays (arrays : List V) : List (GradOp K V) → List V
  | [] => arrays
  | .inc _ _ :: ops => callerArrays arrays ops
  | .write a v :: ops => callerArrays (arrays.set a v) ops

/-- What the gradient of `key` should be, starting from `acc`: every `inc_grad(key, a)` adds the
content array `a` has at that moment. -/
def accumulated [Add V] (key : K) (arrays : List V) (acc : Option V) : List (GradOp K V) → Option V
  | [] => acc
  | .write a v :: ops => accumulated key (arrays.set a v) acc ops
  | .inc k a :: ops =>
    if k = key then
      match arrays[a]?, acc with
      | some v, none => accumulated key arrays (some v) ops
      | some v, some g => accumulated key arrays (some (g + v)) ops
      | none, acc => accumulated key arrays acc ops
    else accumulated key arrays acc ops

end Spec

/-- Every operation names one of the caller's arrays (one of the first `N` objects). -/
def GradOp.valid (N : Nat) : GradOp K V → Prop
  | .inc _ a => a < N
  | .write a _ => a < N

structure GradInv (N : Nat) (s : GradBuf K V) : Prop where
  len : N ≤ s.bufs.length
  own : ∀ k g, s.grads.get? k = some g → N ≤ g ∧ g < s.bufs.length
  inj : ∀ k k' g, s.grads.get? k = some g → s.grads.get? k' = some g → k = k'

theorem GradBuf.getGrad_eq (s : GradBuf K V) (key : K) :
    s.getGrad key = match (s.grads.get? key).bind (fun g => s.bufs[g]?) with
      | some v => .ok v
      | none => .error .keyError := by
  unfold GradBuf.getGrad
  cases h : s.grads.get? key with
  | none => rfl
  | some g => simp only [Option.bind_some]; cases s.bufs[g]? <;> rfl

theorem GradInv.step [Add V] {N} {s : GradBuf K V} (i : GradInv N s) {op} (hv : op.valid N) :
    GradInv N (s.step op) := by
  cases op with
  | write a v => exact ⟨by simpa [GradBuf.step] using i.len,
      by simpa [GradBuf.step] using i.own, i.inj⟩
  | inc key a =>
    have ha : a < s.bufs.length := Nat.lt_of_lt_of_le hv i.len
    simp only [GradBuf.step, GradBuf.incGrad, List.getElem?_eq_getElem ha]
    cases hg : s.grads.get? key with
    | some g => exact ⟨by simpa using i.len, by simpa using i.own, i.inj⟩
    | none =>
      refine ⟨by simpa using Nat.le_succ_of_le i.len, ?_, ?_⟩
      · intro k g hk
        simp only [PyDict.get?_set] at hk
        split at hk
        · simp at hk; subst hk; simp [i.len]
        · have := i.own k g hk; simp; omega
      · intro k k' g hk hk'
        simp only [PyDict.get?_set] at hk hk'
        split at hk <;> split at hk'
        · simp_all
        · simp at hk; subst hk; have := (i.own _ _ hk').2; omega
        · simp at hk'; subst hk'; have := (i.own _ _ hk).2; omega
        · exact i.inj k k' g hk hk'

theorem GradBuf.run_spec [Add V] (N : Nat) (ops : List (GradOp K V)) (hv : ∀ op ∈ ops, op.valid N)
    (s : GradBuf K V) (i : GradInv N s) (key : K) :
    (s.run ops).bufs.take N = Spec.callerArrays (s.bufs.take N) ops ∧
    GradInv N (s.run ops) ∧
    (((s.run ops).grads.get? key).bind (fun g => (s.run ops).bufs[g]?)) =
      Spec.accumulated key (s.bufs.take N) ((s.grads.get? key).bind (fun g => s.bufs[g]?)) ops := by
  induction ops generalizing s with
  | nil => exact ⟨rfl, i, rfl⟩
  | cons op ops ih =>
    have hop := hv op (by simp)
    obtain ⟨h1, h2, h3⟩ := ih (fun o ho => hv o (by simp [ho])) (s.step op) (i.step hop)
    have hrun : s.run (op :: ops) = (s.step op).run ops := rfl
    rw [hrun]
    refine ⟨?_, h2, ?_⟩
    · rw [h1]
      cases op with
      | write a v =>
        simp only [GradBuf.step, Spec.callerArrays, List.take_set]
      | inc k a =>
        have ha : a < s.bufs.length := Nat.lt_of_lt_of_le hop i.len
        simp only [GradBuf.step, GradBuf.incGrad, List.getElem?_eq_getElem ha, Spec.callerArrays]
        congr 1
        cases hg : s.grads.get? k with
        | none => simp [List.take_append_of_le_length i.len]
        | some g =>
          have := (i.own k g hg).1
          apply List.ext_getElem?
          intro j
          simp only [List.getElem?_take, List.getElem?_modify]
          by_cases hj : j < N
          · have : g ≠ j := by omega
            simp [hj, this]
          · simp [hj]
    · rw [h3]
      cases op with
      | write a v =>
        simp only [GradBuf.step, Spec.accumulated, List.take_set]
        congr 1
        cases hg : s.grads.get? key with
        | none => rfl
        | some g =>
          have := (i.own key g hg).1
          have hag : a ≠ g := by simp [GradOp.valid] at hop; omega
          simp [List.getElem?_set, hag]
      | inc k a =>
        have haN : a < N := hop
        have ha : a < s.bufs.length := Nat.lt_of_lt_of_le haN i.len
        have htake : ∀ (l : List V), N ≤ l.length → (s.bufs ++ l).take N = s.bufs.take N := by
          intro l _; exact List.take_append_of_le_length i.len
        simp only [GradBuf.step, GradBuf.incGrad, List.getElem?_eq_getElem ha, Spec.accumulated]
        have hta : (s.bufs.take N)[a]? = some s.bufs[a] := by
          rw [List.getElem?_take, if_pos haN, List.getElem?_eq_getElem ha]
        cases hg : s.grads.get? k with
        | none =>
          have htk : (s.bufs ++ [s.bufs[a]]).take N = s.bufs.take N :=
            List.take_append_of_le_length i.len
          simp only [htk]
          by_cases hk : k = key
          · subst hk
            simp only [if_true, hta, hg, PyDict.get?_set_self]
            simp
          · simp only [if_neg hk, PyDict.get?_set_ne _ hk]
            congr 1
            cases hg' : s.grads.get? key with
            | none => rfl
            | some g' =>
              have := (i.own key g' hg').2
              simp only [Option.bind_some]
              rw [List.getElem?_append_left this]
        | some g =>
          have hgN := i.own k g hg
          have htk : (s.bufs.modify g (fun x => x + s.bufs[a])).take N = s.bufs.take N := by
            apply List.ext_getElem?
            intro j
            simp only [List.getElem?_take, List.getElem?_modify]
            by_cases hj : j < N
            · have : g ≠ j := by omega
              simp [hj, this]
            · simp [hj]
          simp only [htk]
          by_cases hk : k = key
          · subst hk
            simp only [if_true, hta, hg]
            simp [hgN.2]
          · simp only [if_neg hk]
            congr 1
            cases hg' : s.grads.get? key with
            | none => rfl
            | some g' =>
              have hne : g ≠ g' := by
                rintro rfl
                exact hk (i.inj k key g hg hg')
              simp [List.getElem?_modify, hne]

/-- C14 (aliasing). Let the caller own any arrays, and let it pass them to `inc_grad` in any
sequence, with any keys, the same array any number of times, overwriting its arrays in between.
Then no array of the caller is ever changed by the accumulation, and the gradient of each key is
the sum of what the arrays contained when they were passed (KeyError if none was). -/
theorem C14_callers_arrays_untouched [Add V] (arrays : List V) (ops : List (GradOp K V))
    (hv : ∀ op ∈ ops, op.valid arrays.length) (key : K) :
    let s := GradBuf.run (K := K) { bufs := arrays } ops
    s.bufs.take arrays.length = Spec.callerArrays arrays ops ∧
    s.getGrad key = (match Spec.accumulated key arrays none ops with
      | some g => .ok g
      | none => .error .keyError) := by
  have i : GradInv arrays.length ({ bufs := arrays } : GradBuf K V) :=
    ⟨Nat.le_refl _, by simp, by simp⟩
  obtain ⟨h1, _, h3⟩ := GradBuf.run_spec arrays.length ops hv _ i key
  refine ⟨by simpa using h1, ?_⟩
  rw [GradBuf.getGrad_eq, h3]
  simp

/-- The property does not extend to `set_grad`, which keeps the caller's own array: a following
`inc_grad` on that key changes the caller's array. -/
theorem C14_set_grad_aliases [Add V] (x y : V) (key : K) (hxy : x + y ≠ x) :
    let s := (GradBuf.setGrad (K := K) { bufs := [x, y] } key 0).incGrad key 1
    s.bufs[0]? = some (x + y) ∧ s.bufs[0]? ≠ some x := by
  simp [GradBuf.setGrad, GradBuf.incGrad, PyDict.set, PyDict.get?_cons, List.modify, hxy]

/-- Nor are keys independent once `set_grad` gave two keys the same array. -/
theorem C14_set_grad_couples_keys [Add V] (x y : V) (k k' : K) (hk : k ≠ k') :
    let s := ((GradBuf.setGrad (K := K) { bufs := [x, y] } k 0).setGrad k' 0).incGrad k 1
    s.getGrad k' = .ok (x + y) := by
  simp [GradBuf.setGrad, GradBuf.incGrad, GradBuf.getGrad, PyDict.set, PyDict.get?_cons, List.modify, hk]

/-! Non-vacuity -/
def exGradRun : GradBuf String Int :=
  GradBuf.run (K := String) { bufs := [(2 : Int), 5] }
    [.inc "W" 0, .inc "W" 0, .write 0 7, .inc "b" 1, .inc "W" 0]
example : exGradRun.getGrad "W" = .ok 11 ∧ exGradRun.getGrad "b" = .ok 5 ∧
    exGradRun.bufs.take 2 = [7, 5] := by decide

end Thinc
