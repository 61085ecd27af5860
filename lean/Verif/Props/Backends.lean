import Verif.Model.Backends
import Verif.Lemmas.PyDict
import Mathlib.Data.List.Induction
import Mathlib.Tactic.Common
import Mathlib.Tactic.SplitIfs
/-!
# C106: choosing a backend; C107: GPU memory
-/
namespace Thinc
open Backends

/-! ### Backends by name -/

theorem opsByName_get? {C : Type} (name : C → String) (registered : List C) (n : String) :
    (opsByName name registered).get? n = (registered.filter fun c => name c = n).getLast? := by
  suffices h : ∀ (l : List C) (d : PyDict String C),
      (l.foldl (fun d c => d.set (name c) c) d).get? n = ((l.filter fun c => name c = n).getLast?).or (d.get? n) by
    have := h registered []
    simpa [opsByName, PyDict.get?] using this
  intro l
  induction l with
  | nil => intro d; simp
  | cons c l ih =>
    intro d
    rw [List.foldl_cons, ih, PyDict.get?_set]
    by_cases h : name c = n
    · rw [if_pos h, List.filter_cons_of_pos (by simpa using h), List.getLast?_cons]
      cases (l.filter fun c => name c = n).getLast? <;> rfl
    · rw [if_neg h, List.filter_cons_of_neg (by simpa using h)]

/-- A backend asked for by name is the one with this name that was registered last; there is none exactly if no backend has
the name. -/
theorem C106_by_name {C : Type} (name : C → String) (registered : List C) {n : String} (hn : n ≠ "cpu") :
    (∀ c, getOps name registered n = .ok c → c ∈ registered ∧ name c = n ∧
      (registered.filter fun c => name c = n).getLast? = some c) ∧
    (getOps name registered n = .error .valueError ↔ ∀ c ∈ registered, name c ≠ n) := by
  simp only [getOps, hn, if_false, opsByName_get?]
  cases h : (registered.filter fun c => name c = n).getLast? with
  | none =>
    simp only [reduceCtorEq, false_imp_iff, implies_true, true_and, true_iff]
    intro c hc e
    have : c ∈ registered.filter fun c => name c = n := by simp [hc, e]
    rw [List.getLast?_eq_none_iff.1 h] at this
    simp at this
  | some c =>
    have hmem := List.mem_of_getLast? h
    rw [List.mem_filter] at hmem
    have hc : name c = n := by simpa using hmem.2
    refine ⟨fun c' e => ?_, ?_⟩
    · cases e; exact ⟨hmem.1, hc, rfl⟩
    · simp only [reduceCtorEq, false_iff]
      exact fun h => h c hmem.1 hc

/-- "cpu" is the best CPU backend there is: BigEndianOps if registered, otherwise AppleOps, otherwise NumpyOps.  So it is
never a GPU backend. -/
theorem C106_cpu {C : Type} (name : C → String) (registered : List C) :
    (∀ c, getOps name registered "cpu" = .ok c → c ∈ registered ∧
      (name c = "bigendian" ∨ (name c = "apple" ∧ ∀ c' ∈ registered, name c' ≠ "bigendian") ∨
        (name c = "numpy" ∧ ∀ c' ∈ registered, name c' ≠ "bigendian" ∧ name c' ≠ "apple"))) ∧
    (getOps name registered "cpu" = .error .valueError ↔
      ∀ c ∈ registered, name c ≠ "bigendian" ∧ name c ≠ "apple" ∧ name c ≠ "numpy") := by
  have key : ∀ n : String, (∃ c ∈ registered, name c = n ∧ (opsByName name registered).get? n = some c) ∨
      ((∀ c ∈ registered, name c ≠ n) ∧ (opsByName name registered).get? n = none) := by
    intro n
    rw [opsByName_get?]
    cases h : (registered.filter fun c => name c = n).getLast? with
    | none =>
      refine .inr ⟨fun c hc e => ?_, rfl⟩
      have : c ∈ registered.filter fun c => name c = n := by simp [hc, e]
      rw [List.getLast?_eq_none_iff.1 h] at this
      simp at this
    | some c =>
      have hmem := List.mem_of_getLast? h
      rw [List.mem_filter] at hmem
      exact .inl ⟨c, hmem.1, by simpa using hmem.2, rfl⟩
  simp only [getOps, if_true, getDefault]
  rcases key "bigendian" with ⟨b, hb, nb, gb⟩ | ⟨nb, gb⟩
  · rw [gb]
    refine ⟨fun c e => ?_, ?_⟩
    · cases e; exact ⟨hb, .inl nb⟩
    · simp only [reduceCtorEq, false_iff]
      exact fun h => (h b hb).1 nb
  · rw [gb]
    rcases key "apple" with ⟨b, ha, na, ga⟩ | ⟨na, ga⟩
    · rw [ga]
      refine ⟨fun c e => ?_, ?_⟩
      · cases e; exact ⟨ha, .inr (.inl ⟨na, nb⟩)⟩
      · simp only [reduceCtorEq, false_iff]
        exact fun h => (h b ha).2.1 na
    · rw [ga]
      rcases key "numpy" with ⟨b, hu, nu, gu⟩ | ⟨nu, gu⟩
      · rw [gu]
        refine ⟨fun c e => ?_, ?_⟩
        · cases e; exact ⟨hu, .inr (.inr ⟨nu, fun c' hc' => ⟨nb c' hc', na c' hc'⟩⟩)⟩
        · simp only [reduceCtorEq, false_iff]
          exact fun h => (h b hu).2.2 nu
      · rw [gu]
        refine ⟨fun c e => by simp at e, ?_⟩
        simp only [true_iff]
        exact fun c hc => ⟨nb c hc, na c hc, nu c hc⟩

/-! ### GPUs -/

/-- What compat.py can find: a CuPy GPU needs CuPy, and MPS is a part of PyTorch on macOS (where CuPy is not supported). -/
structure Spec.Possible (p : Platform) : Prop where
  cupy : p.hasCupyGpu = true → p.hasCupy = true ∧ p.darwin = false ∧ 0 < p.gpus
  mps : p.hasTorchMpsGpu = true → p.hasTorchMps = true ∧ p.darwin = true
  torch : p.hasTorchMps = true → p.hasTorch = true

/-- `require_gpu` succeeds exactly if there is a GPU, and, with CuPy, one with this number.  Then the backend is the GPU
backend that works here, and CuPy and PyTorch use the GPU with this number. -/
theorem C106_require_gpu {p : Platform} (hp : Spec.Possible p) (id : Int) (s : Active) :
    ((requireGpu p id s).2 = .ok true ↔
      (p.hasCupyGpu = true ∧ 0 ≤ id ∧ id < p.gpus) ∨ (p.hasCupyGpu = false ∧ p.hasTorchMpsGpu = true)) ∧
    ((requireGpu p id s).2 = .ok true → p.hasCupyGpu = true →
      (requireGpu p id s).1.ops = .cupy ∧ (requireGpu p id s).1.cupyDevice = id ∧
      (p.hasTorchCudaGpu = true → torchDefaultDevice p (requireGpu p id s).1 =
        if p.hasTorch then .ok (.cuda id) else .error .valueError)) ∧
    ((requireGpu p id s).2 = .ok true → p.hasCupyGpu = false →
      (requireGpu p id s).1.ops = .mps ∧ torchDefaultDevice p (requireGpu p id s).1 = .ok .mps) := by
  obtain ⟨d, c, cg, t, tc, tm, tmg, n⟩ := p
  obtain ⟨h1, h2, h3⟩ := hp
  simp only at h1 h2 h3
  simp only [requireGpu, useGpu, setActiveGpu, torchDefaultDevice, Platform.hasGpu]
  cases cg
  · cases tmg
    · cases d <;> cases tm <;> cases c <;> simp
    · obtain ⟨rfl, rfl⟩ := h2 rfl
      obtain rfl := h3 rfl
      simp
  · obtain ⟨rfl, rfl, hn⟩ := h1 rfl
    by_cases hid : id < 0 ∨ (n : Int) ≤ id
    · simp [hid]
      omega
    · have : 0 ≤ id ∧ id < n := by omega
      cases tc <;> cases t <;> simp [hid, this]

/-- `prefer_gpu` without a GPU returns False and changes nothing; with a GPU that exists it returns True, and does what
`require_gpu` does. -/
theorem C106_prefer_gpu {p : Platform} (hp : Spec.Possible p) (id : Int) (s : Active) :
    (p.hasCupyGpu = false → p.hasTorchMpsGpu = false → preferGpu p id s = (s, .ok false)) ∧
    ((p.hasCupyGpu = true ∧ 0 ≤ id ∧ id < p.gpus) ∨ (p.hasCupyGpu = false ∧ p.hasTorchMpsGpu = true) →
      preferGpu p id s = ((requireGpu p id s).1, .ok true)) := by
  constructor
  · intro h1 h2; simp [preferGpu, Platform.hasGpu, h1, h2]
  · intro h
    have hok := (C106_require_gpu hp id s).1.2 h
    have hg : p.hasGpu = true := by
      rcases h with ⟨h, -⟩ | ⟨-, h⟩ <;> simp [Platform.hasGpu, h]
    rcases hr : requireGpu p id s with ⟨s', r⟩
    rw [hr] at hok
    simp only at hok
    subst hok
    simp [preferGpu, hg, hr]

/-- If `require_gpu` raises because there is no GPU, nothing has changed. -/
theorem C106_no_gpu_partial (p : Platform) (id : Int) (s : Active) (h : p.hasGpu = false) :
    requireGpu p id s = (s, .error .valueError) := by
  simp only [requireGpu, h]
  cases p.darwin <;> cases p.hasTorchMps <;> cases p.hasCupy <;> rfl

/-- If it raises because there is no GPU with this number, the backend has been changed all the same: the process goes on
with CuPy, on the device that was active before. -/
theorem C106_wrong_gpu_violated : ∃ (p : Platform) (id : Int) (s : Active), Spec.Possible p ∧
    s.ops = .cpu ∧ requireGpu p id s = ({ s with ops := .cupy }, .error cudaError) ∧
    preferGpu p id s = ({ s with ops := .cupy }, .error cudaError) :=
  ⟨⟨false, true, true, false, false, false, false, 1⟩, 1, ⟨.cpu, 0, 0⟩,
    ⟨by decide, by decide, by decide⟩, rfl, by decide, by decide⟩

/-- `require_cpu` returns True, from then on the backend is the CPU backend and PyTorch's default device is the CPU, whatever was used
before; the devices CuPy and PyTorch would use stay as they are. -/
theorem C106_require_cpu (p : Platform) (s : Active) :
    (requireCpu s).2 = .ok true ∧ (requireCpu s).1.ops = .cpu ∧ (requireCpu s).1.cupyDevice = s.cupyDevice ∧
      (requireCpu s).1.torchDevice = s.torchDevice ∧ (p.hasTorch = true → torchDefaultDevice p (requireCpu s).1 = .ok .cpu) :=
  ⟨rfl, rfl, rfl, rfl, fun h => by simp [torchDefaultDevice, requireCpu, h]⟩

/-- The calls a program makes. -/
inductive Spec.GpuCall where
  | cpu
  | require (id : Int)
  | prefer (id : Int)

/-- The state after a call (it may have raised). -/
def Spec.GpuCall.run (p : Platform) (s : Active) : Spec.GpuCall → Active
  | .cpu => (requireCpu s).1
  | .require id => (requireGpu p id s).1
  | .prefer id => (preferGpu p id s).1

/-- Whatever calls a program has made, and whether or not they raised: the backend is one that works on this machine, the active device
exists, and CuPy and PyTorch use the same. -/
theorem C106_history {p : Platform} (hp : Spec.Possible p) (calls : List Spec.GpuCall) :
    let s := calls.foldl (Spec.GpuCall.run p) ⟨.cpu, 0, 0⟩
    (s.ops = .cupy → p.hasCupyGpu = true) ∧ (s.ops = .mps → p.hasTorchMpsGpu = true) ∧
      (p.hasCupyGpu = true → 0 ≤ s.cupyDevice ∧ s.cupyDevice < p.gpus) ∧ (p.hasTorchCudaGpu = true → s.torchDevice = s.cupyDevice) ∧
      (s.torchDevice = 0 ∨ s.torchDevice = s.cupyDevice) := by
  suffices h : ∀ (calls : List Spec.GpuCall) (s : Active), ((s.ops = .cupy → p.hasCupyGpu = true) ∧ (s.ops = .mps → p.hasTorchMpsGpu = true) ∧
      (p.hasCupyGpu = true → 0 ≤ s.cupyDevice ∧ s.cupyDevice < p.gpus) ∧ (p.hasTorchCudaGpu = true → s.torchDevice = s.cupyDevice) ∧
      (p.hasTorchCudaGpu = false → s.torchDevice = 0)) →
      let s := calls.foldl (Spec.GpuCall.run p) s
      (s.ops = .cupy → p.hasCupyGpu = true) ∧ (s.ops = .mps → p.hasTorchMpsGpu = true) ∧
      (p.hasCupyGpu = true → 0 ≤ s.cupyDevice ∧ s.cupyDevice < p.gpus) ∧ (p.hasTorchCudaGpu = true → s.torchDevice = s.cupyDevice) ∧
      (p.hasTorchCudaGpu = false → s.torchDevice = 0) by
    have h0 := h calls ⟨.cpu, 0, 0⟩ ⟨by simp, by simp, fun h => ⟨Int.le_refl 0, by have := (hp.cupy h).2.2; simpa using this⟩, fun _ => rfl, fun _ => rfl⟩
    refine ⟨h0.1, h0.2.1, h0.2.2.1, h0.2.2.2.1, ?_⟩
    cases hc : p.hasTorchCudaGpu
    · exact .inl (h0.2.2.2.2 hc)
    · exact .inr (h0.2.2.2.1 hc)
  intro calls
  induction calls with
  | nil => exact fun s h => h
  | cons c calls ih =>
    intro s hs
    refine ih _ ?_
    have hreq : ∀ id : Int, (((requireGpu p id s).1.ops = .cupy → p.hasCupyGpu = true) ∧ ((requireGpu p id s).1.ops = .mps → p.hasTorchMpsGpu = true) ∧
        (p.hasCupyGpu = true → 0 ≤ (requireGpu p id s).1.cupyDevice ∧ (requireGpu p id s).1.cupyDevice < p.gpus) ∧
        (p.hasTorchCudaGpu = true → (requireGpu p id s).1.torchDevice = (requireGpu p id s).1.cupyDevice) ∧
        (p.hasTorchCudaGpu = false → (requireGpu p id s).1.torchDevice = 0)) := by
      intro id
      obtain ⟨d, c, cg, t, tc, tm, tmg, n⟩ := p
      obtain ⟨h1, h2, h3⟩ := hp
      simp only at h1 h2 h3 hs
      simp only [requireGpu, useGpu, setActiveGpu, Platform.hasGpu]
      cases cg
      · cases tmg
        · cases d <;> cases tm <;> cases c <;> simpa using hs
        · obtain ⟨rfl, rfl⟩ := h2 rfl
          simpa using hs.2.2.2
      · obtain ⟨rfl, rfl, hn⟩ := h1 rfl
        by_cases hid : id < 0 ∨ (n : Int) ≤ id
        · simpa [hid] using hs.2.2
        · have : 0 ≤ id ∧ id < n := by omega
          cases tc
          · simpa [hid, this] using hs.2.2.2.2
          · simp [hid, this]
    cases c with
    | cpu => exact ⟨by simp [Spec.GpuCall.run, requireCpu], by simp [Spec.GpuCall.run, requireCpu], hs.2.2⟩
    | require id => exact hreq id
    | prefer id =>
      have hr := hreq id
      simp only [Spec.GpuCall.run, preferGpu]
      cases p.hasGpu
      · exact hs
      · rcases hq : requireGpu p id s with ⟨s', _ | _⟩ <;> rw [hq] at hr <;> simpa using hr

/-- Two GPUs: a call with a wrong number raises, and the program goes on with GPU 1. -/
example : [Spec.GpuCall.require 1, .prefer 7, .cpu, .prefer 1].foldl (Spec.GpuCall.run ⟨false, true, true, true, true, false, false, 2⟩) ⟨.cpu, 0, 0⟩ =
    ⟨.cupy, 1, 1⟩ := by decide

/-- The case is possible: a machine with CuPy, PyTorch and two GPUs. -/
example : Spec.Possible ⟨false, true, true, true, true, false, false, 2⟩ := ⟨by decide, by decide, by decide⟩

example : getOps (C := String) id ["numpy", "cupy", "mps"] "cpu" = .ok "numpy" ∧
    getOps (C := String) id ["numpy", "cupy", "apple"] "cpu" = .ok "apple" ∧
    getOps (C := String) id ["numpy", "cupy"] "cupy" = .ok "cupy" ∧
    getOps (C := String) id ["numpy", "cupy"] "mps" = .error .valueError := by decide +kernel

/-! ### GPU memory -/

/-- Through a pool, CuPy gets at least the memory it asks for, less than 512 bytes too much (or 1024 bytes in all), and is
told exactly how much was allocated. -/
theorem C107_enough (size : Nat) :
    size ≤ allocated (poolRequest size) ∧ (allocated (poolRequest size) < size + 512 ∨ allocated (poolRequest size) = 1024) ∧
      promised (poolRequest size) = allocated (poolRequest size) := by
  unfold allocated promised poolRequest
  omega

/-- The allocators themselves can allocate less than they are asked for, and say otherwise: up to three bytes. -/
theorem C107_short_violated : ∃ size, allocated size < size ∧ allocated size < promised size := ⟨1025, by decide, by decide⟩

/-- Exactly for sizes above 1024 that are not multiples of four. -/
theorem C107_short_iff (size : Nat) : allocated size < size ↔ 1024 < size ∧ size % 4 ≠ 0 := by
  unfold allocated; omega

/-- Only the two names are accepted. -/
theorem C107_names (name : String) (l : Library) :
    allocatorByName name = .ok l ↔ (name = "pytorch" ∧ l = .pytorch) ∨ (name = "tensorflow" ∧ l = .tensorflow) := by
  unfold allocatorByName
  by_cases h1 : name = "pytorch"
  · subst h1; cases l <;> decide
  · by_cases h2 : name = "tensorflow"
    · subst h2; cases l <;> decide
    · simp [h1, h2]

theorem useLibrary_eq (l : Library) (s : Pools) :
    useLibrary l s = (match s.pools.get? l with
      | some n => { s with current := some n }
      | none => { pools := s.pools.set l s.made.length, made := s.made ++ [l], current := some s.made.length }) := by
  cases h : s.pools.get? l with
  | some n => simp [useLibrary, Call.step, h]
  | none => simp [useLibrary, Call.step, h, PyDict.get?_set]

/-- Calls one after the other, of any number and in any order: no library ever has two pools, the libraries that were asked
for have one, and CuPy uses the pool of the last one that was asked for. -/
theorem C107_one_pool_partial (calls : List Library) :
    let s := calls.foldl (fun s l => useLibrary l s) {}
    s.made.Nodup ∧ (∀ l, l ∈ s.made ↔ l ∈ calls) ∧
      ∀ l, calls.getLast? = some l → ∃ n, s.current = some n ∧ s.made[n]? = some l := by
  suffices h : ∀ calls : List Library,
      let s := calls.foldl (fun s l => useLibrary l s) {}
      (∀ l n, s.pools.get? l = some n ↔ s.made[n]? = some l) ∧ s.made.Nodup ∧ (∀ l, l ∈ s.made ↔ l ∈ calls) ∧
        ∀ l, calls.getLast? = some l → ∃ n, s.current = some n ∧ s.made[n]? = some l from (h calls).2
  intro calls
  induction calls using List.reverseRecOn with
  | nil => simp [PyDict.get?]
  | append_singleton calls l ih =>
    simp only [List.foldl_append, List.foldl_cons, List.foldl_nil]
    generalize hs : calls.foldl (fun s l => useLibrary l s) ({} : Pools) = s at ih
    obtain ⟨h1, h2, h3, -⟩ := ih
    rw [useLibrary_eq]
    cases hg : s.pools.get? l with
    | some n =>
      have hn := (h1 l n).1 hg
      have hl : l ∈ calls := (h3 l).1 (List.mem_of_getElem? hn)
      refine ⟨h1, h2, fun m => ?_, fun m hm => ?_⟩
      · rw [h3 m]
        simp only [List.mem_append, List.mem_singleton]
        constructor
        · exact .inl
        · rintro (h | rfl)
          · exact h
          · exact hl
      · simp only [List.getLast?_append, List.getLast?_singleton, Option.some_or, Option.some.injEq] at hm
        subst hm
        exact ⟨n, rfl, hn⟩
    | none =>
      have hl : l ∉ s.made := by
        intro hm
        obtain ⟨n, hn⟩ := List.getElem?_of_mem hm
        rw [(h1 l n).2 hn] at hg
        simp at hg
      refine ⟨fun m n => ?_, ?_, fun m => ?_, fun m hm => ?_⟩
      · simp only [PyDict.get?_set]
        by_cases hm : m = l
        · subst hm
          rw [if_pos rfl, Option.some.injEq]
          constructor
          · rintro rfl; simp
          · intro hn
            rw [List.getElem?_append] at hn
            split_ifs at hn with hlt
            · exact absurd (List.mem_of_getElem? hn) hl
            · have := (List.getElem?_eq_some_iff.1 hn).1
              simp at this
              omega
        · rw [if_neg (Ne.symm hm), h1]
          rw [List.getElem?_append]
          split_ifs with hlt
          · rfl
          · have : s.made[n]? = none := List.getElem?_eq_none (by omega)
            rw [this]
            simp only [reduceCtorEq, false_iff]
            intro hn
            have := List.mem_of_getElem? hn
            simp at this
            exact hm this
      · simp only [List.nodup_append, List.mem_singleton]
        refine ⟨h2, by simp, ?_⟩
        rintro a ha b rfl rfl
        exact hl ha
      · simp [h3 m]
      · simp only [List.getLast?_append, List.getLast?_singleton, Option.some_or, Option.some.injEq] at hm
        subst hm
        exact ⟨_, rfl, by simp⟩

/-- Calls in any number of threads, under any schedule: none fails because a pool is missing, and a call that ends leaves
CuPy with a pool of the library that was asked for (until another call ends). -/
theorem C107_threads {calls : List Library} (schedule : List Nat) :
    let x := runCalls (calls.map fun l => { library := l }, {}) schedule
    (∀ c ∈ x.1, ∀ e, c.phase ≠ .failed e) ∧
    (∀ n, x.2.current = some n → ∃ c ∈ x.1, c.phase = .done ∧ x.2.made[n]? = some c.library) ∧
    ∀ i c, x.1[i]? = some c → c.phase = .set → ∃ n, (stepCall x i).2.current = some n ∧ x.2.made[n]? = some c.library := by
  -- a library some call is about to set has a pool
  let Inv : List Call × Pools → Prop := fun x =>
    (∀ l n, x.2.pools.get? l = some n → x.2.made[n]? = some l) ∧
    (∀ (i : Nat) (c : Call), x.1[i]? = some c → (c.phase = .set → (x.2.pools.get? c.library).isSome) ∧
      ∀ e, c.phase ≠ .failed e) ∧
    ∀ n, x.2.current = some n → ∃ c ∈ x.1, c.phase = .done ∧ x.2.made[n]? = some c.library
  have hstep : ∀ x i, Inv x → Inv (stepCall x i) := by
    rintro ⟨cs, s⟩ i ⟨h1, h2, h3⟩
    simp only at h1 h2 h3
    unfold stepCall
    cases hc : cs[i]? with
    | none => simp only [hc]; exact ⟨h1, h2, h3⟩
    | some c =>
      simp only [hc]
      have hi : i < cs.length := (List.getElem?_eq_some_iff.1 hc).1
      have hget : ∀ (c' : Call) (j : Nat) (d : Call), (cs.set i c')[j]? = some d → (j = i ∧ d = c') ∨ cs[j]? = some d := by
        intro c' j d hd
        rw [List.getElem?_set] at hd
        by_cases hij : i = j
        · subst hij; simp [hi] at hd; exact .inl ⟨rfl, hd.symm⟩
        · rw [if_neg hij] at hd; exact .inr hd
      -- finished calls stay
      have hdone : ∀ (c' : Call) (made : List Library), c.phase ≠ .done →
          (∀ (n : Nat) (l : Library), s.made[n]? = some l → made[n]? = some l) →
          ∀ n, s.current = some n → ∃ d ∈ cs.set i c', d.phase = .done ∧ made[n]? = some d.library := by
        intro c' made hne hm n hn
        obtain ⟨d, hd, e1, e2⟩ := h3 n hn
        obtain ⟨j, hj⟩ := List.getElem?_of_mem hd
        refine ⟨d, ?_, e1, hm _ _ e2⟩
        apply List.mem_of_getElem? (i := j)
        rw [List.getElem?_set]
        by_cases hij : i = j
        · subst hij
          rw [hc] at hj
          cases hj
          exact absurd e1 hne
        · rw [if_neg hij]; exact hj
      rcases hp : c.phase with _ | _ | _ | _ | e
      · -- test
        simp only [Call.step, hp]
        split_ifs with hsome
        · refine ⟨h1, fun j d hd => ?_, hdone _ _ (by simp [hp]) (fun _ _ h => h)⟩
          rcases hget _ j d hd with ⟨-, rfl⟩ | hd
          · exact ⟨fun _ => hsome, fun e => by simp⟩
          · exact h2 j d hd
        · refine ⟨h1, fun j d hd => ?_, hdone _ _ (by simp [hp]) (fun _ _ h => h)⟩
          rcases hget _ j d hd with ⟨-, rfl⟩ | hd
          · exact ⟨fun h => by simp at h, fun e => by simp⟩
          · exact h2 j d hd
      · -- make
        simp only [Call.step, hp]
        refine ⟨fun l n hl => ?_, fun j d hd => ?_, hdone _ _ (by simp [hp]) (fun n l h => ?_)⟩
        · simp only [PyDict.get?_set] at hl
          by_cases hlc : l = c.library
          · subst hlc
            rw [if_pos rfl, Option.some.injEq] at hl
            subst hl
            simp
          · rw [if_neg (Ne.symm hlc)] at hl
            have := h1 l n hl
            rw [List.getElem?_append_left (List.getElem?_eq_some_iff.1 this).1]
            exact this
        · rcases hget _ j d hd with ⟨-, rfl⟩ | hd
          · exact ⟨fun _ => by simp [PyDict.get?_set], fun e => by simp⟩
          · refine ⟨fun hs => ?_, (h2 j d hd).2⟩
            simp only [PyDict.get?_set]
            split_ifs
            · rfl
            · exact (h2 j d hd).1 hs
        · rw [List.getElem?_append_left (List.getElem?_eq_some_iff.1 h).1]
          exact h
      · -- set
        obtain ⟨n, hn⟩ := Option.isSome_iff_exists.1 ((h2 i c hc).1 hp)
        simp only [Call.step, hp, hn]
        refine ⟨h1, fun j d hd => ?_, fun m hm => ?_⟩
        · rcases hget _ j d hd with ⟨-, rfl⟩ | hd
          · exact ⟨fun h => by simp at h, fun e => by simp⟩
          · exact h2 j d hd
        · simp only [Option.some.injEq] at hm
          subst hm
          exact ⟨{ c with phase := .done }, List.mem_of_getElem? (i := i) (by simp [hi]), rfl, h1 _ _ hn⟩
      · -- done
        have e : cs.set i c = cs := by
          obtain ⟨_, e⟩ := List.getElem?_eq_some_iff.1 hc
          simp [← e]
        simp only [Call.step, hp, e]
        exact ⟨h1, h2, h3⟩
      · exact absurd hp ((h2 i c hc).2 e)
  have hinv : Inv (runCalls (calls.map fun l => { library := l }, {}) schedule) := by
    have : ∀ (s : List Nat) x, Inv x → Inv (runCalls x s) := by
      intro s
      induction s with
      | nil => exact fun _ h => h
      | cons i s ih => exact fun x h => ih _ (hstep x i h)
    refine this schedule _ ⟨fun l n h => by simp [PyDict.get?] at h, fun i c hc => ?_, fun n h => by simp at h⟩
    simp only [List.getElem?_map, Option.map_eq_some_iff] at hc
    obtain ⟨l, -, rfl⟩ := hc
    exact ⟨fun h => by simp at h, fun e => by simp⟩
  obtain ⟨h1, h2, h3⟩ := hinv
  refine ⟨fun c hc e => ?_, h3, fun i c hc hp => ?_⟩
  · obtain ⟨i, hi⟩ := List.getElem?_of_mem hc
    exact (h2 i c hi).2 e
  · obtain ⟨n, hn⟩ := Option.isSome_iff_exists.1 ((h2 i c hc).1 hp)
    exact ⟨n, by simp [stepCall, hc, Call.step, hp, hn], h1 _ _ hn⟩

/-- Two threads can make two pools for the same library: both find none before either has made one.  The first pool is then
no longer in use, and keeps the memory it has. -/
theorem C107_race_violated : ∃ schedule : List Nat,
    let x := runCalls ([{ library := .pytorch }, { library := .pytorch }], {}) schedule
    (∀ c ∈ x.1, c.phase = .done) ∧ x.2.made = [.pytorch, .pytorch] ∧ x.2.current = some 1 :=
  ⟨[0, 1, 0, 0, 1, 1], by decide⟩

/-- A schedule of three calls after which all have ended. -/
example : (runCalls ([{ library := .pytorch }, { library := .tensorflow }, { library := .pytorch }], {})
    [0, 1, 1, 0, 2, 0, 2, 1]).1.map Call.phase = [.done, .done, .done] := by decide

end Thinc
