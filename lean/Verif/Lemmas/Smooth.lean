import Verif.Spec.Deriv
import Mathlib.Analysis.Calculus.ContDiff.Operations
import Mathlib.Analysis.Calculus.ContDiff.Comp
import Mathlib.Analysis.Calculus.FDeriv.Mul
import Mathlib.Analysis.Calculus.Deriv.Pi
import Mathlib.RingTheory.Derivation.Basic
/-
The algebra of smooth functions on an open set, with the partial derivatives as derivations.
-/
set_option linter.unusedSectionVars false
namespace PetIGA.Ker
open PetIGA.Spec
open scoped ContDiff
open Classical

variable {d : Nat} {Ω : Set (Fin d → ℝ)}

theorem pd_eq_fderiv {f : (Fin d → ℝ) → ℝ} {x : Fin d → ℝ} (h : DifferentiableAt ℝ f x) (i : Fin d) :
    pd i f x = fderiv ℝ f x (Pi.single i 1) := by
  unfold pd
  have hu := hasDerivAt_update x i (x i)
  have hx : Function.update x i (x i) = x := Function.update_eq_self i x
  have hf : HasFDerivAt f (fderiv ℝ f x) (Function.update x i (x i)) := by rw [hx]; exact h.hasFDerivAt
  exact (hf.comp_hasDerivAt (x i) hu).deriv

theorem smooth_at (hΩ : IsOpen Ω) {f : (Fin d → ℝ) → ℝ} (h : Smooth Ω f) {x} (hx : x ∈ Ω) : ContDiffAt ℝ ∞ f x :=
  h.contDiffAt (hΩ.mem_nhds hx)

theorem smooth_diff (hΩ : IsOpen Ω) {f : (Fin d → ℝ) → ℝ} (h : Smooth Ω f) {x} (hx : x ∈ Ω) :
    DifferentiableAt ℝ f x :=
  (smooth_at hΩ h hx).differentiableAt (by simp)

theorem pd_congr (hΩ : IsOpen Ω) {f g : (Fin d → ℝ) → ℝ} (h : Set.EqOn f g Ω) (i : Fin d) :
    Set.EqOn (pd i f) (pd i g) Ω := by
  intro x hx
  unfold pd
  apply Filter.EventuallyEq.deriv_eq
  have hc : Filter.Tendsto (Function.update x i) (nhds (x i)) (nhds (Function.update x i (x i))) :=
    (hasDerivAt_update x i (x i)).continuousAt
  rw [Function.update_eq_self] at hc
  filter_upwards [hc.eventually (hΩ.mem_nhds hx)] with t ht
  exact h ht

theorem smooth_congr {f g : (Fin d → ℝ) → ℝ} (hf : Smooth Ω f) (h : Set.EqOn g f Ω) : Smooth Ω g :=
  ContDiffOn.congr hf h

theorem smooth_pd (hΩ : IsOpen Ω) {f : (Fin d → ℝ) → ℝ} (h : Smooth Ω f) (i : Fin d) : Smooth Ω (pd i f) := by
  refine smooth_congr (f := fun x => fderiv ℝ f x (Pi.single i 1)) ?_ (fun x hx => pd_eq_fderiv (smooth_diff hΩ h hx) i)
  intro x hx
  exact ((smooth_at hΩ h hx).fderiv_right (m := ∞) (by simp)).clm_apply contDiffAt_const |>.contDiffWithinAt

/-- Extension by zero. -/
noncomputable def ext (f : Ω → ℝ) : (Fin d → ℝ) → ℝ := fun x => if h : x ∈ Ω then f ⟨x, h⟩ else 0

theorem ext_of_mem (f : Ω → ℝ) {x} (h : x ∈ Ω) : ext f x = f ⟨x, h⟩ := dif_pos h

theorem ext_restrict (F : (Fin d → ℝ) → ℝ) : Set.EqOn (ext (fun x : Ω => F x)) F Ω := fun _ hx => ext_of_mem _ hx

/-- Smooth functions on `Ω`. -/
noncomputable def Sm (Ω : Set (Fin d → ℝ)) : Subalgebra ℝ (Ω → ℝ) where
  carrier := {f | Smooth Ω (ext f)}
  mul_mem' {f g} hf hg := smooth_congr (f := fun x => ext f x * ext g x) (ContDiffOn.mul hf hg) (fun x hx => by
    simp only [ext_of_mem _ hx, Pi.mul_apply])
  add_mem' {f g} hf hg := smooth_congr (f := fun x => ext f x + ext g x) (ContDiffOn.add hf hg) (fun x hx => by
    simp only [ext_of_mem _ hx, Pi.add_apply])
  algebraMap_mem' r := smooth_congr (f := fun _ => r) contDiffOn_const (fun x hx => by
    rw [ext_of_mem _ hx]; rfl)

noncomputable def mk (F : (Fin d → ℝ) → ℝ) (h : Smooth Ω F) : Sm Ω := ⟨fun x => F x, smooth_congr h (ext_restrict F)⟩

/-- Evaluation at a point. -/
noncomputable def ev (x : Ω) : Sm Ω →ₐ[ℝ] ℝ := (Pi.evalAlgHom ℝ (fun _ : Ω => ℝ) x).comp (Sm Ω).val

@[simp] theorem ev_mk (x : Ω) (F : (Fin d → ℝ) → ℝ) (h : Smooth Ω F) : ev x (mk F h) = F x := rfl

theorem sm_ext {f g : Sm Ω} (h : ∀ x : Ω, ev x f = ev x g) : f = g := Subtype.ext (funext h)

theorem pd_add (hΩ : IsOpen Ω) {f g : (Fin d → ℝ) → ℝ} (hf : Smooth Ω f) (hg : Smooth Ω g) (i : Fin d) {x} (hx : x ∈ Ω) :
    pd i (fun y => f y + g y) x = pd i f x + pd i g x := by
  have h1 := smooth_diff hΩ hf hx
  have h2 := smooth_diff hΩ hg hx
  rw [pd_eq_fderiv (f := fun y => f y + g y) (h1.add h2), pd_eq_fderiv h1, pd_eq_fderiv h2, fderiv_fun_add h1 h2]
  rfl

theorem pd_mul (hΩ : IsOpen Ω) {f g : (Fin d → ℝ) → ℝ} (hf : Smooth Ω f) (hg : Smooth Ω g) (i : Fin d) {x} (hx : x ∈ Ω) :
    pd i (fun y => f y * g y) x = f x * pd i g x + g x * pd i f x := by
  have h1 := smooth_diff hΩ hf hx
  have h2 := smooth_diff hΩ hg hx
  rw [pd_eq_fderiv (f := fun y => f y * g y) (h1.mul h2), pd_eq_fderiv h1, pd_eq_fderiv h2, fderiv_fun_mul h1 h2]
  simp

/-- The derivation `∂_i`. -/
noncomputable def D (hΩ : IsOpen Ω) (i : Fin d) : Derivation ℝ (Sm Ω) (Sm Ω) :=
  Derivation.mk'
    { toFun := fun f => mk (pd i (ext f.1)) (smooth_pd hΩ f.2 i)
      map_add' := fun f g => sm_ext fun x => by
        rw [map_add, ev_mk, ev_mk, ev_mk, ← pd_add hΩ f.2 g.2 i x.2]
        exact pd_congr hΩ (fun y hy => by simp only [ext_of_mem _ hy]; rfl) i x.2
      map_smul' := fun r f => sm_ext fun x => by
        rw [ev_mk, map_smul]
        have h1 := smooth_diff hΩ f.2 x.2
        have e : Set.EqOn (ext (r • f : Sm Ω).1) (fun y => r * ext f.1 y) Ω := fun y hy => by
          simp only [ext_of_mem _ hy]; rfl
        rw [pd_congr hΩ e i x.2, pd_eq_fderiv (h1.const_mul r), fderiv_const_mul h1]
        simp only [RingHom.id_apply, ev_mk, pd_eq_fderiv h1]
        rfl }
    (fun f g => sm_ext fun x => by
      rw [map_add, smul_eq_mul, smul_eq_mul]
      have e : Set.EqOn (ext (f * g : Sm Ω).1) (fun y => ext f.1 y * ext g.1 y) Ω := fun y hy => by
          simp only [ext_of_mem _ hy]; rfl
      change pd i (ext (f * g : Sm Ω).1) x = ev x f * pd i (ext g.1) x + ev x g * pd i (ext f.1) x
      rw [pd_congr hΩ e i x.2, pd_mul hΩ f.2 g.2 i x.2, ext_of_mem _ x.2, ext_of_mem _ x.2]
      rfl)

theorem D_mk (hΩ : IsOpen Ω) (i : Fin d) (F : (Fin d → ℝ) → ℝ) (h : Smooth Ω F) :
    D hΩ i (mk F h) = mk (pd i F) (smooth_pd hΩ h i) :=
  sm_ext fun x => pd_congr hΩ (ext_restrict F) i x.2

end PetIGA.Ker
