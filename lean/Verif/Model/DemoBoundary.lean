import Verif.Model.DemoNitsche
/-
Model of demo/BoundaryIntegral.c, Galerkin's method: the callback with its interior and its boundary branch, the boundary conditions of its
`main` and the solution it compares with.

Simplifications: exact arithmetic; one component (`IGASetDof(iga,1)`); `-side` is 0 or 1.  Not modelled: the options of the program, the
collocation variant, the solver, the error norm, output.
-/
namespace PetIGA.Demo
open PetIGA.Itg PetIGA.Ker PetIGA.Ax

variable {d n : Nat}

/-- `Neumann`, demo/BoundaryIntegral.c:40-48; `K` is not written. -/
def neumann (p : PtData d d n) (K F : Int → ℝ) : Res ((Int → ℝ) × (Int → ℝ)) :=
  .ok (K, (List.finRange n).foldl (fun F (a : Fin n) => put F ((a:Nat) : Int) (p.shape.t0 a * 1)) F)

/-- `Laplace`, demo/BoundaryIntegral.c:26-38. -/
def interiorLaplace (p : PtData d d n) (K F : Int → ℝ) : Res ((Int → ℝ) × (Int → ℝ)) :=
  .ok (loops n (fun a b => dot (fun i => p.shape.t1 i a) (fun i => p.shape.t1 i b)) (fun _ => 0) (K, F))

/-- `System`, demo/BoundaryIntegral.c:50-56. -/
def boundarySystem (p : BPt d n) (K F : Int → ℝ) : Res ((Int → ℝ) × (Int → ℝ)) :=
  if !p.1 then interiorLaplace p.2 K F else neumann p.2 K F

/-- The boundary conditions of `main`, demo/BoundaryIntegral.c:167-172: with `d = !side` and `n = !d`, the value 1 on side `d` and a boundary
form on side `n` of the direction. -/
def boundaryConditions (axis : Nat) (side : Bool) : List (Form.Op ℝ) :=
  let dS : Int := if side then 0 else 1
  let nS : Int := if dS = 0 then 1 else 0
  [.setValue axis dS 0 1, .setForm axis nS true]

/-- `Exact`, demo/BoundaryIntegral.c:124-134. -/
def boundaryExact (axis : Nat) (side : Bool) (point : List ℝ) : ℝ :=
  if !side then 1 - point.getD axis 0 + 1 else point.getD axis 0 + 1

end PetIGA.Demo
