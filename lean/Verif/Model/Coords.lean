import Verif.Model.Grid
import Verif.Model.Quad
import Verif.Model.Lagrange
import Verif.Model.Block
/-
Model of `IGACreateCoordinates`, src/petigansp.c:11-117.  The directions `dim ≤ d < 3` have one node, degree 0 and
width 1 (petiga.c:1276-1291), so they add nothing to the loops and the coordinate 0 (petigansp.c:14).
The vector is described by the local arrays of the processes; `VecSetSizes` with their lengths makes the global vector
their concatenation in rank order (contract of PETSc's `PetscLayout`).
Reading outside of `axis->span` or of the control points is undefined.
-/
namespace PetIGA.Crd
open PetIGA.Ax PetIGA.Lay PetIGA.Grid PetIGA.Quad

variable {K : Type} [Field K] [LinearOrder K] [IsStrictOrderedRing K]

/-- `ComputePoint`, petigansp.c:11-29; `huge` is `PETSC_MAX_REAL`.  `IGA_LobattoPoints(p+1,u0,u1,u)` calls
`GaussLobattoPoints` (petigabsp.F90:77-83). -/
def computePoint (huge : K) (index : Int) (ax : Axis K) (btype : BasisType) : Res K :=
  if ax.p = 0 then .ok 0 else
  if btype = .spectral then
    if ax.p > 16 then .ok huge else
    let e := Int.tdiv index ax.p
    let i := Int.tmod index ax.p
    let ei := if e = ax.nel then (e - 1, ax.p) else (e, i)
    if ei.1 < 0 ∨ ei.2 < 0 then .ub else
    (Res.ofOption ax.span[ei.1.toNat]?).bind fun k =>
      .ok (Lag.gaussLobatto (ax.p.toNat + 1) (ax.U k) (ax.U (k+1)) ei.2)
  else .ok (greville index ax.p ax.U)

/-- `nsd = PetscClipInterval(nsd,dim,3)` with `nsd = iga->geometry`, petigansp.c:47-49. -/
def nsdOf (dim geometry : Nat) : Nat := min (max geometry dim) 3

/-- The point of one node, petigansp.c:98-104; all entries of `uvw`. -/
def nodePoint (huge : K) (axs : List (Axis K)) (types : List BasisType) (shift y : List Int) : Res (List K) :=
  Blk.sequence (List.zipWith (fun (ab : Axis K × BasisType) (is : Int × Int) => computePoint huge (is.1 + is.2) ab.1 ab.2)
    (List.zip axs types) (List.zip y shift))

/-- One process without control points, petigansp.c:87-113. -/
def parametric (huge : K) (types : List BasisType) (nsd : Nat) (L : Layout K) : Res (List K) :=
  (Blk.sequence ((box (L.dir.map fun d => (d.nodeLstart, d.nodeLwidth))).map fun y =>
    (nodePoint huge L.axes types (L.dir.map Dir.nodeShift) y).bind fun u =>
      .ok ((List.range nsd).map fun c => u.getD c 0))).bind fun xs => .ok xs.flatten

/-- `i>=ilstart && i<ilend && …`, petigansp.c:80-82. -/
def inside (ds : List Dir) (y : List Int) : Bool :=
  (List.zipWith (fun (d : Dir) i => decide (d.nodeLstart ≤ i ∧ i < d.nodeLstart + d.nodeLwidth)) ds y).all id

/-- One process with control points `xyz`, petigansp.c:60-86. -/
def controls (nsd : Nat) (L : Layout K) (xyz : List K) : Res (List K) :=
  (Blk.sequence (((box (L.dir.map fun d => (d.nodeGstart, d.nodeGwidth))).zipIdx.filter fun yi => inside L.dir yi.1).map fun yi =>
    Blk.sequence ((List.range nsd).map fun c => Res.ofOption xyz[yi.2 + c]?))).bind fun xs => .ok xs.flatten

/-- One process: `if (iga->geometry && iga->geometryX) … else …`, petigansp.c:60-113; `geometry` is `iga->geometry`,
`xyz = none` means `geometryX` is null. -/
def onRank (huge : K) (types : List BasisType) (geometry : Nat) (L : Layout K) (xyz : Option (List K)) : Res (List K) :=
  match geometry, xyz with
  | 0, _ => parametric huge types (nsdOf L.dir.length 0) L
  | g+1, none => parametric huge types (nsdOf L.dir.length (g+1)) L
  | g+1, some X => controls (nsdOf L.dir.length (g+1)) L X

/-- `IGACreateCoordinates` on all processes, petigansp.c:32-117. -/
def createCoordinates (huge : K) (types : List BasisType) (geometry : Nat) (Ls : List (Layout K)) (xyz : Nat → Option (List K)) :
    Res (List (List K)) :=
  Blk.sequence (Ls.zipIdx.map fun Lr => onRank huge types geometry Lr.1 (xyz Lr.2))

end PetIGA.Crd
