import Verif.Model.Demo
/-
Model of the callbacks of demo/Poisson1D.c, demo/Poisson2D.c and demo/Poisson3D.c, and of the boundary conditions of their `main`.

Simplifications: exact arithmetic; one component (`IGASetDof(iga,1)`).  Not modelled: the options, the solver, output.
-/
namespace PetIGA.Demo
open PetIGA.Itg PetIGA.Ker

variable {nsd n : Nat}

/-- `System`, demo/Poisson1D.c:6-22. -/
def poisson1D (p : PtData 1 nsd n) (K F : Int → ℝ) : Res ((Int → ℝ) × (Int → ℝ)) :=
  .ok (loops n (fun a b => p.shape.t1 0 a * p.shape.t1 0 b) (fun a => p.shape.t0 a * 1) (K, F))

/-- `System`, demo/Poisson2D.c:3-21. -/
def poisson2D (p : PtData 2 nsd n) (K F : Int → ℝ) : Res ((Int → ℝ) × (Int → ℝ)) :=
  .ok (loops n (fun a b => p.shape.t1 0 a * p.shape.t1 0 b + p.shape.t1 1 a * p.shape.t1 1 b) (fun a => p.shape.t0 a * 1) (K, F))

/-- `System`, demo/Poisson3D.c:3-23. -/
def poisson3D (p : PtData 3 nsd n) (K F : Int → ℝ) : Res ((Int → ℝ) × (Int → ℝ)) :=
  .ok (loops n (fun a b => p.shape.t1 0 a * p.shape.t1 0 b + p.shape.t1 1 a * p.shape.t1 1 b + p.shape.t1 2 a * p.shape.t1 2 b) (fun a => p.shape.t0 a * 1) (K, F))

/-- demo/Poisson1D.c:36-40, `dir=0`. -/
def poisson1DConditions : List (Form.Op ℝ) := [.setValue 0 0 0 1, .setValue 0 1 0 1]

/-- demo/Poisson2D.c:35-41. -/
def poisson2DConditions : List (Form.Op ℝ) := [.setValue 0 0 0 1, .setValue 0 1 0 1, .setValue 1 0 0 1, .setValue 1 1 0 1]

/-- demo/Poisson3D.c:37-43. -/
def poisson3DConditions : List (Form.Op ℝ) :=
  [.setValue 0 0 0 1, .setValue 0 1 0 1, .setValue 1 0 0 1, .setValue 1 1 0 1, .setValue 2 0 0 1, .setValue 2 1 0 1]

end PetIGA.Demo
