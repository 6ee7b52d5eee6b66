import Verif.Model.DemoBoundary
import Mathlib.Analysis.Real.Sqrt
/-
Model of demo/AdvectionDiffusion.c: the callback, the wind and the boundary conditions of its `main`.

Simplifications: exact arithmetic; one component (`IGASetDof(iga,1)`).  Not modelled: the options of the program, the solver, output.
-/
namespace PetIGA.Demo
open PetIGA.Itg PetIGA.Ker PetIGA.Ax

variable {d n : Nat}

/-- `System`, demo/AdvectionDiffusion.c:26-46, for the wind `w`. -/
def advectionSystem (w : Nat → ℝ) (p : PtData d d n) (K F : Int → ℝ) : Res ((Int → ℝ) × (Int → ℝ)) :=
  .ok (loops n (fun a b => let diffusion := dot (fun i => p.shape.t1 i a) (fun i => p.shape.t1 i b)
      let advection := p.shape.t0 a * dot (fun i => w i) (fun i => p.shape.t1 i b)
      diffusion + advection) (fun _ => 0) (K, F))

/-- `ComputeWind`, demo/AdvectionDiffusion.c:48-56; the entries from `dim` on, which the program does not write, are not read. -/
noncomputable def computeWind (dim : Nat) (Pe : ℝ) (dir : Nat → ℝ) : Nat → ℝ :=
  let norm := (List.range dim).foldl (fun s i => s + dir i * dir i) 0
  let norm := Real.sqrt norm
  let norm := if norm < 1 / 100 then 1 else norm
  fun i => Pe * dir i / norm

/-- The boundary conditions of `main`, demo/AdvectionDiffusion.c:82-87, with `ul=1` and `ur=0`. -/
noncomputable def advectionConditions (dim : Nat) (dir : Nat → ℝ) : List (Form.Op ℝ) :=
  (List.range dim).flatMap fun (i : Nat) => if dir i = 0 then [] else [.setValue i 0 0 1, .setValue i 1 0 0]

end PetIGA.Demo
