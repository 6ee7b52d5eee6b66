import Verif.Model.Block
import Verif.Model.Probe
/-
Model of the structured `DM`s made from an IGA: `IGACreateSubComms1D` (src/petiga.c:900-934), `IGACreateDMDA`
(petiga.c:936-995), `IGACreateElemDM`, `IGACreateGeomDM`, `IGACreateNodeDM` (petiga.c:997-1057), and of the sampling done
by `IGACreateDrawDM` and `IGADrawVec` (src/petigadraw.c:10-223).

External: the Cartesian communicators of MPI, `MPI_Allgather`, and PETSc's `DMDA`, of which the model takes the
documented behaviour (numbering of the processes, ownership ranges, corners, checks).
Not modelled: names of fields, communicator errors, the drawing itself.
-/
namespace PetIGA.Dmda
open PetIGA.Ax PetIGA.Lay PetIGA.Grid PetIGA.Prb

/-! ### Communicators along one direction -/

/-- Product of the entries. -/
def prodOf : List Int → Int
  | [] => 1
  | d :: ds => d * prodOf ds

/-- `MPI_Cart_create` without reordering: the coordinates of a rank, last direction fastest (contract of MPI). -/
def cartCoords : List Int → Int → List Int
  | [], _ => []
  | _ :: ds, rank => (rank / prodOf ds) :: cartCoords ds (rank % prodOf ds)

/-- The rank with the given coordinates (contract of MPI). -/
def cartRank : List Int → List Int → Int
  | _ :: ds, c :: cs => c * prodOf ds + cartRank ds cs
  | _, _ => 0

/-- `MPI_Cart_sub` keeping direction `k`: the processes with the same other coordinates, in the order of coordinate `k`
(contract of MPI). -/
def cartSub (dims : List Int) (k : Nat) (rank : Int) : List Int :=
  (List.range (dims.getD k 0).toNat).map fun (j : Nat) => cartRank dims ((cartCoords dims rank).set k (j:Int))

/-- The processes of `subcomms[i]` on process `rank`, petiga.c:900-934. -/
def subcomm (size : Nat) (procs : List Int) (rank i : Nat) : List Int :=
  if size = 1 ∨ procs.length = 1 then (List.range size).map fun (r : Nat) => (r:Int)
  else cartSub procs.reverse (procs.length - 1 - i) rank

/-! ### `IGACreateDMDA` -/

/-- `MPI_Allgather(&width[i],…,ranges[i],…,subcomms[i])`, petiga.c:977-979, into an array of `procs[i]` entries:
receiving more overflows it, receiving fewer leaves part of it uninitialised. -/
def gather (lsizes : List (List Int)) (procs : List Int) (rank i : Nat) : Res (List Int) :=
  (Blk.sequence ((subcomm lsizes.length procs rank i).map fun q =>
    if q < 0 then .ub else (Res.ofOption lsizes[q.toNat]?).bind fun w => Res.ofOption w[i]?)).bind fun ls =>
  if procs[i]? = some (ls.length : Int) then .ok ls else .ub

/-- Coordinates of a process in a `DMDA`, first direction fastest (contract of PETSc). -/
def daCoords : List Int → Int → List Int
  | [], _ => []
  | m :: ms, rank => (rank % m) :: daCoords ms (rank / m)

/-- One direction of `DMSetUp` for a `DMDA` with `m` processes, `M` points, ownership ranges `lx`: first point and number
of points of the process with coordinate `c` (contract of PETSc: `DMDASetOwnershipRanges` requires the ranges to add up to
`M`; at most `M` processes; a range must not be smaller than the stencil unless there is one process and no
periodicity). -/
def daDir (M m : Int) (lx : List Int) (periodic : Bool) (s c : Int) : Res (Int × Int) :=
  if lx.sum ≠ M then .err .lib else if M < m then .err .lib else
  (Res.ofOption lx[c.toNat]?).bind fun x =>
    if x < s ∧ (1 < m ∨ periodic = true) then .err .lib else .ok ((lx.take c.toNat).sum, x)

/-- All directions. -/
def daDirs (s : Int) : List Int → List Int → List (List Int) → List Bool → List Int → Res (List (Int × Int))
  | [], [], [], [], [] => .ok []
  | M :: Ms, m :: ms, lx :: lxs, b :: bs, c :: cs =>
    (daDir M m lx b s c).bind fun a => (daDirs s Ms ms lxs bs cs).bind fun as => .ok (a :: as)
  | _, _, _, _, _ => .ub

/-- `IGACreateDMDA`, petiga.c:936-995, on process `rank`: what `DMDAGetCorners` returns.  `lsizes` are the local sizes
given by all processes. -/
def createDMDA (procs gsizes : List Int) (lsizes : List (List Int)) (periodic : List Bool) (swidth : Int) (rank : Nat) :
    Res (List (Int × Int)) :=
  (Blk.sequence ((List.range procs.length).map (gather lsizes procs rank))).bind fun ranges =>
    if prodOf procs ≠ lsizes.length then .err .lib else
    daDirs swidth gsizes procs ranges periodic (daCoords procs rank)

variable {K V : Type} [Field K] [LinearOrder K] [IsStrictOrderedRing K]

/-- `IGACreateElemDM`, petiga.c:997-1008. -/
def elemDM (Ls : List (Layout K)) (L : Layout K) (rank : Nat) : Res (List (Int × Int)) :=
  createDMDA L.procs (L.dir.map Dir.elemSize) (Ls.map fun L => L.dir.map Dir.elemWidth) (L.dir.map fun _ => false) 0 rank

/-- `IGACreateGeomDM`, petiga.c:1010-1021. -/
def geomDM (Ls : List (Layout K)) (L : Layout K) (rank : Nat) : Res (List (Int × Int)) :=
  createDMDA L.procs (L.dir.map Dir.geomSize) (Ls.map fun L => L.dir.map Dir.geomLwidth) (L.dir.map fun _ => false) 0 rank

/-- `IGACreateNodeDM`, petiga.c:1046-1057. -/
def nodeDM (Ls : List (Layout K)) (L : Layout K) (rank : Nat) : Res (List (Int × Int)) :=
  createDMDA L.procs (L.dir.map Dir.nodeSize) (Ls.map fun L => L.dir.map Dir.nodeLwidth) (L.dir.map fun _ => false) 0 rank

/-- `DMDAVecGetArrayDOF`: entry `array[k][j][i][c]` of the part of a vector stored by a process, for a `DMDA` with the
corners `cs` (contract of PETSc: local size checked, first direction fastest); indices outside the corners are
undefined. -/
def daGet (cs : List (Int × Int)) (bs : Nat) (part : List V) (x : List Int) (c : Nat) : Res V :=
  if (part.length : Int) ≠ prodOf (cs.map Prod.snd) * bs then .err .incomp else
  if (List.zipWith (fun (a : Int × Int) i => decide (a.1 ≤ i ∧ i < a.1 + a.2)) cs x).all id ∧ x.length = cs.length ∧ c < bs then
    Res.ofOption part[(natural 1 (cs.map Prod.snd) (List.zipWith (fun (a : Int × Int) i => i - a.1) cs x) * bs + c).toNat]?
  else .ub

/-- The part of a vector of `IGACreateVec` stored by process `r`: `bs` unknowns for each of its nodes, from the first one
on (petigagrid.c:173-197, `IGA_Grid_NewVec`; the parts follow each other in rank order, contract of PETSc). -/
def vecPart (Ls : List (Layout K)) (bs : Nat) (gvec : Int → V) (r : Nat) (L : Layout K) : List V :=
  (List.range ((prodOf (L.dir.map Dir.nodeLwidth)).toNat * bs)).map fun (k : Nat) =>
    gvec ((bs:Int) * offset (world (appWorld Ls)) r + k)

/-! ### `IGACreateDrawDM`, `IGADrawVec` -/

/-- The resolution of one direction, petigadraw.c:62-63; `none` is `PETSC_DECIDE` or a null pointer. -/
def resolution (ax : Axis K) (res : Option Int) : Int := max (match res with | some r => r | none => ax.p) 1

/-- `LagrangePoint`, petigadraw.c:17-33. -/
def lagrangePoint (index step : Int) (ax : Axis K) : Res K :=
  if ax.p = 0 then .ok 0 else
  if step = 0 then .ub else
  let e := Int.tdiv index step
  let i := Int.tmod index step
  let ei := if e = ax.nel then (e - 1, step) else (e, i)
  (spanAt ax ei.1).bind fun k => .ok (ax.U k + (ei.2 : K) / (step : K) * (ax.U (k+1) - ax.U k))

/-- `GrevillePoint`, petigadraw.c:10-15. -/
def grevillePoint (index : Int) (ax : Axis K) : Res K :=
  if ax.p = 0 then .ok 0 else .ok (greville index ax.p ax.U)

/-- `ComputePoint`, petigadraw.c:107, 195. -/
def samplePoint (colloc : Bool) (index step : Int) (ax : Axis K) : Res K :=
  if colloc then grevillePoint index ax else lagrangePoint index step ax

/-- Number of samples of a direction, petigadraw.c:65-78. -/
def drawSize (colloc : Bool) (d : Dir) (res : Int) : Int := if colloc then d.nodeSize else d.elemSize * res + 1

/-- Number of samples of a process in a direction, petigadraw.c:65-78. -/
def drawWidth (colloc : Bool) (d : Dir) (P r res : Int) : Int :=
  if colloc then d.nodeLwidth else d.elemWidth * res + (if r = P - 1 then 1 else 0)

/-- `width[]` of a process. -/
def drawWidths (colloc : Bool) (res : List Int) (L : Layout K) : List Int :=
  List.zipWith (fun (dr : Dir × Int) (Pr : Int × Int) => drawWidth colloc dr.1 Pr.1 Pr.2 dr.2) (List.zip L.dir res) (List.zip L.procs L.ranks)

/-- The `DMDA` of `IGACreateDrawDM`, petigadraw.c:64-80: periodic, stencil width 1. -/
def drawDM (colloc : Bool) (res : List Int) (Ls : List (Layout K)) (L : Layout K) (rank : Nat) : Res (List (Int × Int)) :=
  createDMDA L.procs (List.zipWith (drawSize colloc) L.dir res) (Ls.map (drawWidths colloc res)) (L.dir.map fun _ => true) 1 rank

/-- The sizes seen by `DMDAGetInfo` give back the resolution used by `IGADrawVec`, petigadraw.c:177-178. -/
def drawStep (colloc : Bool) (d : Dir) (res : Int) : Int := Int.tdiv (drawSize colloc d res - 1) d.elemSize

/-- The point `uvw` of a sample, petigadraw.c:110-115, 198-203. -/
def drawPoint (colloc : Bool) (steps : List Int) (L : Layout K) (x : List Int) : Res (List K) :=
  Blk.sequence (List.zipWith (fun (ad : Axis K × Dir) (is : Int × Int) => samplePoint colloc (is.1 + ad.2.nodeShift) is.2 ad.1)
    (List.zip L.axes L.dir) (List.zip x steps))

/-- The sampling loops, petigadraw.c:109-124 and 197-212, on one process: a probe that is not collective is set to each
point, and `value off u ks vals` is what it then reports (`IGAProbeGeomMap` or `IGAProbeFormValue`), from the flag
`offprocess`, the point, its spans and the copied arrays.  `old` is what the copies contain at the start. -/
def drawLoop (debug : Bool) (ds : List (PDir K)) (arrays : List (Nat × List V)) (value : Bool → List K → List Int → List (List V) → List V)
    (point : List Int → Res (List K)) : List (List Int) → List (List V) → Res (List V)
  | [], _ => .ok []
  | x :: xs, old =>
    (point x).bind fun u => (localPoint debug ds arrays old u).bind fun o => (spans ds u).bind fun ks =>
      (drawLoop debug ds arrays value point xs o.2).bind fun rest => .ok (value o.1 u ks o.2 ++ rest)

/-- The entries written by process `rank`, petigadraw.c:97-126 (coordinates, steps as given) and 180-216 (values, steps
from the sizes). -/
def drawRank (debug colloc : Bool) (res steps : List Int) (Ls : List (Layout K)) (L : Layout K) (rank : Nat)
    (arrays : List (Nat × List V)) (value : Bool → List K → List Int → List (List V) → List V) (old : List (List V)) : Res (List V) :=
  (drawDM colloc res Ls L rank).bind fun cs =>
    drawLoop debug (List.zipWith pdir L.axes L.dir) arrays value (drawPoint colloc steps L) (box cs) old

end PetIGA.Dmda
