import Verif.Model.Tabulate
import Verif.Model.Form
/-
Model of the demo programs demo/Laplace.c, demo/Poisson.c and demo/L2Projection.c: the callbacks of their Galerkin branch, as
the loops over the arrays of the point matrix and the point vector, and the boundary conditions their `main` sets.

Simplifications: exact arithmetic; one component (`IGASetDof(iga,1)`).  Not modelled: the collocation callbacks, the options
of the programs, the functions `hill`, `peaks`, `sine` and `step` of L2Projection.c (the theorems on the best approximation hold for any
function), output.
-/
namespace PetIGA.Demo
open PetIGA.Itg PetIGA.Ker

variable {d nsd n : Nat}

/-- The assignment `A[i] = v`. -/
def put (A : Int → ℝ) (i : Int) (v : ℝ) : Int → ℝ := fun j => if j = i then v else A j

/-- `DOT`, demo/Laplace.c:27-33, demo/Poisson.c:3-9. -/
def dot (a b : Fin d → ℝ) : ℝ := (List.finRange d).foldl (fun s i => s + a i * b i) 0

/-- `for (a) { for (b) K[a*nen+b] = …; F[a] = …; }`, demo/Laplace.c:41-46, demo/Poisson.c:18-23, demo/L2Projection.c:79-85. -/
def loops (n : Nat) (k : Fin n → Fin n → ℝ) (f : Fin n → ℝ) (KF : (Int → ℝ) × (Int → ℝ)) : (Int → ℝ) × (Int → ℝ) :=
  (List.finRange n).foldl (fun s (a : Fin n) =>
    ((List.finRange n).foldl (fun K (b : Fin n) => put K (((a:Nat) * n + (b:Nat) : Nat) : Int) (k a b)) s.1,
      put s.2 ((a:Nat) : Int) (f a))) KF

/-- `SystemGalerkin`, demo/Laplace.c:35-48. -/
def laplace (p : PtData d nsd n) (K F : Int → ℝ) : Res ((Int → ℝ) × (Int → ℝ)) :=
  .ok (loops n (fun a b => dot (fun i => p.shape.t1 i a) (fun i => p.shape.t1 i b)) (fun _ => 0) (K, F))

/-- `SystemGalerkin`, demo/Poisson.c:11-25. -/
def poisson (p : PtData d nsd n) (K F : Int → ℝ) : Res ((Int → ℝ) × (Int → ℝ)) :=
  .ok (loops n (fun a b => dot (fun i => p.shape.t1 i a) (fun i => p.shape.t1 i b)) (fun a => p.shape.t0 a * 1) (K, F))

/-- `IGAPointFormGeomMap`, src/petigapoint.c:225-240, for the array `xyz[3] = {0,0,0}`: the position of the point; `geometry` tells whether there is a
geometry array. -/
def position (geometry : Bool) (p : PtData d nsd n) : Nat → ℝ :=
  if geometry then fun i => if h : i < nsd then p.arrays.mapX.t0 ⟨i, h⟩ else 0
  else fun i => if i < d then p.u.getD i 0 else 0

/-- `System`, demo/L2Projection.c:67-88, with the function `app->Function` as parameter. -/
def project (geometry : Bool) (f : Nat → (Nat → ℝ) → ℝ) (p : PtData d nsd n) (K F : Int → ℝ) : Res ((Int → ℝ) × (Int → ℝ)) :=
  .ok (loops n (fun a b => p.shape.t0 a * p.shape.t0 b) (fun a => p.shape.t0 a * f d (position geometry p)) (K, F))

/-- `Linear`, `Quadratic`, `Cubic` and `Quartic`, demo/L2Projection.c:3-29: `for (i<dim) f += x[i]*…*x[i]` with `m` factors. -/
def power (m dim : Nat) (x : Nat → ℝ) : ℝ := (List.range dim).foldl (fun s i => s + x i ^ m) 0

/-- The boundary conditions of demo/Laplace.c:106-113. -/
def laplaceConditions (dim : Nat) : List (Form.Op ℝ) :=
  (List.range dim).flatMap fun (dir : Nat) => [.setValue dir 0 0 1, .setLoad dir 1 0 0]

/-- The boundary conditions of demo/Poisson.c:67-74. -/
def poissonConditions (dim : Nat) : List (Form.Op ℝ) :=
  (List.range dim).flatMap fun (dir : Nat) => (List.range 2).map fun (side : Nat) => .setValue dir side 0 1

end PetIGA.Demo
