import Verif.Spec.VJP
import Mathlib.Analysis.Calculus.FDeriv.Comp
import Mathlib.Analysis.Calculus.Deriv.Basic
import Mathlib.Analysis.Calculus.FDeriv.Linear
import Mathlib.Analysis.Calculus.FDeriv.Add
/-! # Lemmas about vector-Jacobian products -/
namespace Thinc
open Spec Spec.Tensor
open BigOperators

variable {E F G : Type} [NormedAddCommGroup E] [NormedSpace ℝ E] [Tensor E]
  [NormedAddCommGroup F] [NormedSpace ℝ F] [Tensor F]
  [NormedAddCommGroup G] [NormedSpace ℝ G] [Tensor G]

theorem dot_add_right (u v w : E) : dot u (v + w) = dot u v + dot u w := by
  rw [dot_comm, dot_add_left, dot_comm v, dot_comm w]

theorem dot_smul_right (a : ℝ) (u v : E) : dot u (a • v) = a * dot u v := by
  rw [dot_comm, dot_smul_left, dot_comm]

theorem dot_zero_left (v : E) : dot (0 : E) v = 0 := by
  have := dot_smul_left (0 : ℝ) (0 : E) v
  rwa [zero_smul, zero_mul] at this

theorem dot_zero_right (v : E) : dot v (0 : E) = 0 := by rw [dot_comm, dot_zero_left]

theorem dot_neg_left (u v : E) : dot (-u) v = - dot u v := by
  have := dot_smul_left (-1 : ℝ) u v
  simpa using this

theorem dot_sub_left (u v w : E) : dot (u - v) w = dot u w - dot v w := by
  rw [sub_eq_add_neg, dot_add_left, dot_neg_left]; ring

theorem dot_ext (u v : E) (h : ∀ w, dot u w = dot v w) : u = v := by
  rw [← sub_eq_zero]
  apply dot_self_eq_zero
  rw [dot_sub_left, h, sub_self]

theorem dot_real (x y : ℝ) : dot x y = x * y := rfl

theorem dot_pi {ι : Type} [Fintype ι] (u v : ι → E) : dot u v = ∑ i, dot (u i) (v i) := rfl

theorem dot_prod (u v : E × F) : dot u v = dot u.1 v.1 + dot u.2 v.2 := rfl

theorem IsVJP_unique {f : E → F} {x : E} {b1 b2 : F → E} (h1 : IsVJP f x b1) (h2 : IsVJP f x b2) :
    b1 = b2 := by
  obtain ⟨f1, hf1, hb1⟩ := h1
  obtain ⟨f2, hf2, hb2⟩ := h2
  have : f1 = f2 := hf1.unique hf2
  subst this
  funext dy
  exact dot_ext _ _ fun w => by rw [hb1, hb2]

theorem IsVJP_comp {f : E → F} {g : F → G} {x : E} {bf : F → E} {bg : G → F}
    (hg : IsVJP g (f x) bg) (hf : IsVJP f x bf) : IsVJP (fun x => g (f x)) x (fun dy => bf (bg dy)) := by
  obtain ⟨f', hf', hbf⟩ := hf
  obtain ⟨g', hg', hbg⟩ := hg
  exact ⟨g'.comp f', hg'.comp x hf', fun dy v => by rw [hbf, hbg]; rfl⟩

theorem IsVJP_id (x : E) : IsVJP (fun x => x) x (fun dy => dy) :=
  ⟨ContinuousLinearMap.id ℝ E, hasFDerivAt_id x, fun _ _ => rfl⟩

theorem IsVJP_const (c : F) (x : E) : IsVJP (fun _ => c) x (fun _ => 0) :=
  ⟨0, hasFDerivAt_const c x, fun dy v => by
    rw [dot_zero_left]
    exact (dot_zero_right dy).symm⟩

theorem IsVJP_add {f g : E → F} {x : E} {bf bg : F → E} (hf : IsVJP f x bf) (hg : IsVJP g x bg) :
    IsVJP (fun x => f x + g x) x (fun dy => bf dy + bg dy) := by
  obtain ⟨f', hf', hbf⟩ := hf
  obtain ⟨g', hg', hbg⟩ := hg
  refine ⟨f' + g', hf'.add hg', fun dy v => ?_⟩
  rw [dot_add_left, hbf, hbg, ← dot_add_right]
  rfl

/-- A continuous linear function. -/
theorem IsVJP_linear (L : E →L[ℝ] F) (x : E) (back : F → E) (h : ∀ dy v, dot (back dy) v = dot dy (L v)) :
    IsVJP (fun x => L x) x back := ⟨L, L.hasFDerivAt, h⟩

theorem IsVJP_congr {f g : E → F} {x : E} {b : F → E} (h : IsVJP f x b) (hfg : ∀ y, g y = f y) :
    IsVJP g x b := by
  have : g = f := funext hfg
  rw [this]; exact h

theorem IsVJP_prod {f : E → F} {g : E → G} {x : E} {bf : F → E} {bg : G → E}
    (hf : IsVJP f x bf) (hg : IsVJP g x bg) :
    IsVJP (fun x => (f x, g x)) x (fun dy => bf dy.1 + bg dy.2) := by
  obtain ⟨f', hf', hbf⟩ := hf
  obtain ⟨g', hg', hbg⟩ := hg
  refine ⟨f'.prod g', hf'.prodMk hg', fun dy v => ?_⟩
  rw [dot_add_left, hbf, hbg]
  rfl

theorem IsVJP_fst (x : E × F) : IsVJP (fun x : E × F => x.1) x (fun dy => (dy, 0)) :=
  IsVJP_linear (ContinuousLinearMap.fst ℝ E F) x _ fun dy v => by
    rw [dot_prod, dot_zero_left, add_zero]
    rfl

theorem IsVJP_snd (x : E × F) : IsVJP (fun x : E × F => x.2) x (fun dy => (0, dy)) :=
  IsVJP_linear (ContinuousLinearMap.snd ℝ E F) x _ fun dy v => by
    rw [dot_prod, dot_zero_left, zero_add]
    rfl

variable {ι κ : Type} [Fintype ι] [Fintype κ]

/-- A function that acts on each entry (or row) separately. -/
theorem IsVJP_pi {f : ι → E → F} {x : ι → E} {b : ι → F → E} (h : ∀ i, IsVJP (f i) (x i) (b i)) :
    IsVJP (fun (x : ι → E) i => f i (x i)) x (fun dy i => b i (dy i)) := by
  choose f' hf' hb using h
  refine ⟨ContinuousLinearMap.pi fun i => (f' i).comp (ContinuousLinearMap.proj i), ?_, fun dy v => ?_⟩
  · rw [hasFDerivAt_pi]
    intro i
    exact (hf' i).comp x (ContinuousLinearMap.proj (R := ℝ) (φ := fun _ : ι => E) i).hasFDerivAt
  · simp only [dot_pi, hb]
    rfl

/-- Several functions of the same argument. -/
theorem IsVJP_pi' {f : ι → E → F} {x : E} {b : ι → F → E} (h : ∀ i, IsVJP (f i) x (b i)) :
    IsVJP (fun (x : E) i => f i x) x (fun dy => ∑ i, b i (dy i)) := by
  choose f' hf' hb using h
  refine ⟨ContinuousLinearMap.pi f', hasFDerivAt_pi.2 hf', fun dy v => ?_⟩
  have : ∀ (s : Finset ι), dot (∑ i ∈ s, b i (dy i)) v = ∑ i ∈ s, dot (b i (dy i)) v := by
    intro s
    classical
    induction s using Finset.induction_on with
    | empty => simp [dot_zero_left]
    | insert i s hi ih => rw [Finset.sum_insert hi, Finset.sum_insert hi, dot_add_left, ih]
  rw [this, dot_pi]
  exact Finset.sum_congr rfl fun i _ => hb i _ _

/-- One entry. -/
theorem IsVJP_apply [DecidableEq ι] (i : ι) (x : ι → E) :
    IsVJP (fun x : ι → E => x i) x (fun dy j => if j = i then dy else 0) :=
  IsVJP_linear (ContinuousLinearMap.proj (R := ℝ) (φ := fun _ : ι => E) i) x _ fun dy v => by
    rw [dot_pi, Finset.sum_eq_single i]
    · rw [if_pos rfl]
      rfl
    · intro j _ hj
      rw [if_neg hj, dot_zero_left]
    · intro h
      exact absurd (Finset.mem_univ i) h

/-- A real function with a derivative. -/
theorem IsVJP_of_hasDerivAt {g : ℝ → ℝ} {d x : ℝ} (h : HasDerivAt g d x) :
    IsVJP g x (fun dy => dy * d) :=
  ⟨_, h.hasFDerivAt, fun dy v => by
    simp only [dot_real]
    rw [show (ContinuousLinearMap.toSpanSingleton ℝ d) v = v • d from rfl, smul_eq_mul]
    ring⟩

theorem hasDerivAt_of_IsVJP {g : ℝ → ℝ} {x : ℝ} {b : ℝ → ℝ} (h : IsVJP g x b) : HasDerivAt g (b 1) x := by
  obtain ⟨g', hg, hb⟩ := h
  have := hb 1 1
  simp only [dot_real, mul_one, one_mul] at this
  rw [this]
  exact hg.hasDerivAt

/-- A real function applied to every entry. -/
theorem IsVJP_elementwise {g : ℝ → ℝ} {d : ℝ → ℝ} {X : ι → ℝ} (h : ∀ i, HasDerivAt g (d (X i)) (X i)) :
    IsVJP (fun (X : ι → ℝ) i => g (X i)) X (fun dY i => dY i * d (X i)) :=
  IsVJP_pi (f := fun _ => g) (b := fun i dy => dy * d (X i)) fun i => IsVJP_of_hasDerivAt (h i)

/-- If an entrywise function is differentiable then so is each entry. -/
theorem differentiable_entry {g : ℝ → ℝ} {X : ι → ℝ}
    (h : DifferentiableAt ℝ (fun (X : ι → ℝ) i => g (X i)) X) (i : ι) : DifferentiableAt ℝ g (X i) := by
  classical
  have h1 : DifferentiableAt ℝ (fun y : ℝ => Function.update X i y) (X i) :=
    (hasFDerivAt_update X (X i)).differentiableAt
  have h2 : DifferentiableAt ℝ (fun (X : ι → ℝ) => g (X i)) X := (differentiableAt_pi.1 h) i
  have h3 : DifferentiableAt ℝ ((fun (X : ι → ℝ) => g (X i)) ∘ fun y : ℝ => Function.update X i y) (X i) := by
    refine DifferentiableAt.comp _ ?_ h1
    rw [Function.update_eq_self]
    exact h2
  have : ((fun (X : ι → ℝ) => g (X i)) ∘ fun y : ℝ => Function.update X i y) = g := by
    funext y
    simp
  rwa [this] at h3

/-- The general form for activation functions: at every array at which the function is
differentiable. -/
theorem IsVJP_elementwise_of_differentiable {g d : ℝ → ℝ}
    (h : ∀ x, DifferentiableAt ℝ g x → HasDerivAt g (d x) x) (X : ι → ℝ)
    (hX : DifferentiableAt ℝ (fun (X : ι → ℝ) i => g (X i)) X) :
    IsVJP (fun (X : ι → ℝ) i => g (X i)) X (fun dY i => dY i * d (X i)) :=
  IsVJP_elementwise fun i => h _ (differentiable_entry hX i)

/-- An entrywise function is differentiable if each entry is. -/
theorem differentiable_of_entries {g : ℝ → ℝ} {X : ι → ℝ} (h : ∀ i, DifferentiableAt ℝ g (X i)) :
    DifferentiableAt ℝ (fun (X : ι → ℝ) i => g (X i)) X := by
  obtain ⟨f', hf, _⟩ := IsVJP_elementwise (d := deriv g) fun i => (h i).hasDerivAt
  exact hf.differentiableAt

theorem IsVJP_congr₂ {f g : E → F} {x : E} {b c : F → E} (h : IsVJP f x b) (hfg : ∀ y, g y = f y)
    (hbc : ∀ dy, c dy = b dy) : IsVJP g x c := by
  have h1 : g = f := funext hfg
  have h2 : c = b := funext hbc
  rw [h1, h2]; exact h

end Thinc
