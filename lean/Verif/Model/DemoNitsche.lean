import Verif.Model.Demo
/-
Model of demo/NitscheMethod.c: the callback with its interior and its boundary branch, and the sides its `main` marks for boundary
integrals.

Simplifications: exact arithmetic, `PetscSqrtReal` is the real square root; one component (`IGASetDof(iga,1)`).  Not modelled: the options
of the program, the solver, the error norm, output.
-/
namespace PetIGA.Demo
open PetIGA.Itg PetIGA.Ker PetIGA.Ax

variable {d n : Nat}

/-- The point as the callback sees it: `p->atboundary` and its arrays. -/
abbrev BPt (d n : Nat) := Bool × PtData d d n

/-- `Solution`, demo/NitscheMethod.c:33-39. -/
def nitscheSolution (dim : Nat) (x : Nat → ℝ) : ℝ := (List.range dim).foldl (fun u i => u + x i * x i) 0

/-- `Forcing`, demo/NitscheMethod.c:41-47. -/
def nitscheForcing (dim : Nat) (_x : Nat → ℝ) : ℝ := (List.range dim).foldl (fun f _ => f + -2) 0

/-- `Degree`, demo/NitscheMethod.c:49-57. -/
def maxDegree {K : Type} (axs : List (Axis K)) : Int := axs.foldl (fun degree ax => max degree ax.p) 0

/-- `NormalMeshSize`, demo/NitscheMethod.c:59-67; `G` is the array filled by `IGAPointFormInvGradGeomMap`. -/
noncomputable def normalMeshSize (G : Fin d → Fin d → ℝ) (nrm : Fin d → ℝ) : ℝ :=
  let N : Fin d → ℝ := fun i => dot (G i) nrm
  2 / Real.sqrt (dot N N)

/-- `A[i] += v`. -/
def addAt (A : Int → ℝ) (i : Int) (v : ℝ) : Int → ℝ := put A i (A i + v)

/-- `System`, demo/NitscheMethod.c:69-112.  `degree` is `Degree(p)`; `G` is what `IGAPointFormInvGradGeomMap` gives at the point. -/
noncomputable def nitsche (geometry : Bool) (degree : Int) (G : BPt d n → Fin d → Fin d → ℝ) (p : BPt d n) (K F : Int → ℝ) :
    Res ((Int → ℝ) × (Int → ℝ)) :=
  let N0 := p.2.shape.t0
  let N1 : Fin n → Fin d → ℝ := fun a i => p.2.shape.t1 i a
  let x := position geometry p.2
  if p.1 then
    let g := nitscheSolution d x
    let nrm := p.2.arrays.normal
    let C := 5 * ((degree : ℝ) + 1)
    let h := normalMeshSize (G p) nrm
    let alpha := C / h
    .ok ((List.finRange n).foldl (fun s (a : Fin n) =>
      ((List.finRange n).foldl (fun K (b : Fin n) =>
          let i : Int := (((a:Nat) * n + (b:Nat) : Nat) : Int)
          let K := addAt K i (- N0 a * dot (N1 b) nrm)
          let K := addAt K i (- N0 b * dot (N1 a) nrm)
          addAt K i (alpha * N0 a * N0 b)) s.1,
        addAt (addAt s.2 ((a:Nat) : Int) (- dot (N1 a) nrm * g)) ((a:Nat) : Int) (alpha * N0 a * g))) (K, F))
  else
    .ok (loops n (fun a b => dot (N1 a) (N1 b)) (fun a => N0 a * nitscheForcing d x) (K, F))

/-- The sides marked in `main`, demo/NitscheMethod.c:156-158. -/
def nitscheConditions (dim : Nat) : List (Form.Op ℝ) :=
  (List.range dim).flatMap fun (axis : Nat) => (List.range 2).map fun (side : Nat) => .setForm axis side true

end PetIGA.Demo
