import Verif.Model.Demo
import Mathlib.Analysis.SpecialFunctions.Trigonometric.Basic
/-
Model of demo/LoggChallenge.c: the data, the callbacks and the boundary conditions of its `main`.

Simplifications: exact arithmetic, `M_PI` is the number pi; one component (`IGASetDof(iga,1)`); the callback is stated for any dimension, the program
sets two.  Not modelled: the options, the solver, the times, output.
-/
namespace PetIGA.Demo
open PetIGA.Itg PetIGA.Ker

variable {d nsd n : Nat}

/-- `Forcing`, demo/LoggChallenge.c:17-21. -/
noncomputable def loggForcing (x y : ℝ) : ℝ := 2 * Real.pi * Real.pi * Real.sin (Real.pi * x) * Real.sin (Real.pi * y)

/-- `Solution`, demo/LoggChallenge.c:46-50. -/
noncomputable def loggSolution (x y : ℝ) : ℝ := Real.sin (Real.pi * x) * Real.sin (Real.pi * y)

/-- `System`, demo/LoggChallenge.c:23-44: the coordinates are `p->point`, those of the parameter domain. -/
noncomputable def loggSystem (p : PtData d nsd n) (K F : Int → ℝ) : Res ((Int → ℝ) × (Int → ℝ)) :=
  let x := p.u.getD 0 0
  let y := p.u.getD 1 0
  let f := loggForcing x y
  .ok (loops n (fun a b => dot (fun i => p.shape.t1 i a) (fun i => p.shape.t1 i b)) (fun a => p.shape.t0 a * f) (K, F))

/-- `Exact`, demo/LoggChallenge.c:52-58, the value. -/
noncomputable def loggExact (p : PtData d nsd n) : ℝ := loggSolution (p.u.getD 0 0) (p.u.getD 1 0)

/-- The boundary conditions of `main`, demo/LoggChallenge.c:78-81. -/
def loggConditions (dim : Nat) : List (Form.Op ℝ) :=
  (List.range dim).flatMap fun (dir : Nat) => (List.range 2).map fun (side : Nat) => .setValue dir side 0 0

end PetIGA.Demo
