import Verif.Model.DemoBoundary
import Verif.Model.DemoForms
import Mathlib.Analysis.SpecialFunctions.Trigonometric.Basic
/-
Model of demo/Neumann.c, Galerkin's method: the callbacks, the boundary loads of its `main` and the shift of the solution by its mean.

Simplifications: exact arithmetic (`M_PI` is π, `sin` the sine); one component (`IGASetDof(iga,1)`).  Not modelled: the options of the program, the
collocation variant, the solver, the error norm, output.
-/
namespace PetIGA.Demo
open PetIGA.Itg PetIGA.Ker PetIGA.Ax

variable {d nsd n : Nat}

/-- `Solution`, demo/Neumann.c:5-8. -/
noncomputable def neumannSolution (x : Nat → ℝ) : ℝ := Real.sin (2 * Real.pi * x 0) + Real.sin (2 * Real.pi * x 1) + Real.sin (2 * Real.pi * x 2)

/-- `Forcing`, demo/Neumann.c:10-13. -/
noncomputable def neumannForcing (x : Nat → ℝ) : ℝ := 4 * Real.pi * Real.pi * neumannSolution x

/-- `Flux`, demo/Neumann.c:15-18. -/
noncomputable def neumannFlux (_dir side : Nat) : ℝ := (if side ≠ 0 then 1 else -1) * 2 * Real.pi

/-- `SystemGalerkin`, demo/Neumann.c:28-46. -/
noncomputable def neumannSystem (geometry : Bool) (p : PtData d d n) (K F : Int → ℝ) : Res ((Int → ℝ) × (Int → ℝ)) :=
  .ok (loops n (fun a b => dot (fun i => p.shape.t1 i a) (fun i => p.shape.t1 i b)) (fun a => p.shape.t0 a * neumannForcing (position geometry p)) (K, F))

/-- `MassVector`, demo/Neumann.c:73-79. -/
def massVector (p : PtData d nsd n) (V : Int → ℝ) : Res (Int → ℝ) :=
  .ok ((List.finRange n).foldl (fun V (a : Fin n) => put V ((a:Nat) : Int) (p.shape.t0 a)) V)

/-- The boundary conditions of `main`, demo/Neumann.c:112-117. -/
noncomputable def neumannConditions (dim : Nat) : List (Form.Op ℝ) :=
  (List.range dim).flatMap fun (dir : Nat) => (List.range 2).map fun (side : Nat) => .setLoad dir side 0 (neumannFlux dir side)

/-- `VecDot`, for vectors of `N` entries (PETSc). -/
noncomputable def vecDot (N : Nat) (Q x : Int → ℝ) : ℝ := ∑ i ∈ Finset.range N, Q i * x i

/-- `VecDot(Q,x,&mean); VecShift(x,-mean)`, demo/Neumann.c:155-156, for vectors of `N` entries. -/
noncomputable def shiftMean (N : Nat) (Q x : Int → ℝ) : Int → ℝ := let mean := vecDot N Q x; fun i => x i + -mean

end PetIGA.Demo
