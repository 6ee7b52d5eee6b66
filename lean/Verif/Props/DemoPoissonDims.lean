import Verif.Model.DemoPoissonDims
import Verif.Props.Demo
/-
C102, the programs for one dimension each: their callbacks and conditions are those of demo/Poisson.c at that dimension, so that `C102_poisson` is about
them too; and their own statement.
-/
set_option linter.unusedSectionVars false
namespace PetIGA.Demo
open PetIGA.Quad PetIGA.Drv PetIGA.Spec PetIGA.Ax PetIGA.Lay PetIGA.Asm PetIGA.Rule PetIGA.Grid PetIGA.Part PetIGA.Ker PetIGA.PCA PetIGA.Itg

variable {nsd n : Nat}

theorem poisson1D_eq : poisson1D (nsd := nsd) (n := n) = poisson := by
  funext p K F
  simp [poisson1D, poisson, dot_eq]

theorem poisson2D_eq : poisson2D (nsd := nsd) (n := n) = poisson := by
  funext p K F
  simp [poisson2D, poisson, dot_eq, Fin.sum_univ_two]

theorem poisson3D_eq : poisson3D (nsd := nsd) (n := n) = poisson := by
  funext p K F
  simp [poisson3D, poisson, dot_eq, Fin.sum_univ_three]

/-- **C102**, demo/Poisson1D.c, demo/Poisson2D.c and demo/Poisson3D.c: at every point, on all arrays, they do what demo/Poisson.c does at their dimension, and they
set the same conditions in the same order. -/
theorem C102_poisson_dims :
    (∀ (p : PtData 1 nsd n) K F, poisson1D p K F = poisson p K F) ∧ (∀ (p : PtData 2 nsd n) K F, poisson2D p K F = poisson p K F) ∧
    (∀ (p : PtData 3 nsd n) K F, poisson3D p K F = poisson p K F) ∧
    poisson1DConditions = poissonConditions 1 ∧ poisson2DConditions = poissonConditions 2 ∧ poisson3DConditions = poissonConditions 3 := by
  refine ⟨fun p K F => by rw [poisson1D_eq], fun p K F => by rw [poisson2D_eq], fun p K F => by rw [poisson3D_eq], ?_, ?_, ?_⟩
  · simp [poisson1DConditions, poissonConditions, List.range_succ]
  · simp [poisson2DConditions, poissonConditions, List.range_succ]
  · simp [poisson3DConditions, poissonConditions, List.range_succ]

/-- What the callback of demo/Poisson2D.c leaves in the arrays, read off directly. -/
theorem poisson2D_entries (p : PtData 2 nsd n) (K F : Int → ℝ) : ∃ K' F', poisson2D p K F = .ok (K', F') ∧
    (∀ a b : Fin n, K' (((a:Nat) * n + (b:Nat) : Nat) : Int) = ∑ i, p.shape.t1 i a * p.shape.t1 i b) ∧ ∀ a : Fin n, F' ((a:Nat) : Int) = p.shape.t0 a := by
  have h := loops_fill n (fun a b => p.shape.t1 0 a * p.shape.t1 0 b + p.shape.t1 1 a * p.shape.t1 1 b) (fun a => p.shape.t0 a * 1) (K, F)
  exact ⟨_, _, rfl, fun a b => (h.1 a b).trans (by rw [Fin.sum_univ_two]), fun a => (h.2 a).trans (mul_one _)⟩

end PetIGA.Demo
