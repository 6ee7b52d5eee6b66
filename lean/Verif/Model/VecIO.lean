import Verif.Model.DM
import Verif.Model.IO
/-
Model of the operations that `IGACreateVec` attaches to a vector (src/petigavec.c:81-101): `VecView_IGA` (petigavec.c:18-43) and
`VecLoad_IGA` (petigavec.c:44-60), so of `VecView(v,viewer)` and `VecLoad(v,viewer)` in an application.

External: `VecCopy` (checks that the local sizes agree, then copies the parts process by process), and `VecView`, `VecLoad` of a vector
of a `DMDA` on a binary viewer, which convert to and from the natural ordering of the grid (first direction fastest, `dof` values at each
point), independent of the number of processes.
Not modelled: names, ASCII and other viewers.
-/
namespace PetIGA.VIO
open PetIGA.Ax PetIGA.Lay PetIGA.Grid PetIGA.Prb PetIGA.Dmda PetIGA.IO

variable {K V : Type} [Field K] [LinearOrder K] [IsStrictOrderedRing K]

/-- The viewers told apart by `VecView_IGA`. -/
inductive Viewer where
  | vtk | draw | glvis | binary (skip : Bool)
deriving DecidableEq

/-- What `VecView` does: draw samples with `IGADrawVec` (C83) or append to a file. -/
inductive Shown (K : Type) where
  | drawn
  | file (f : File K)

/-- `VecCopy` between vectors with the local parts `src` and local sizes `sizes` (contract of PETSc). -/
def vecCopy (src : List (List V)) (sizes : List Nat) : Res (List (List V)) :=
  if src.map List.length = sizes then .ok src else .err .incomp

/-- Local size of a vector of a `DMDA` on a process with the corners `cs` (contract of PETSc). -/
def daSize (bs : Nat) (cs : List (Int × Int)) : Nat := (prodOf (cs.map Prod.snd)).toNat * bs

/-- `VecView` of a vector of a `DMDA` with `Ms` points, the corners and parts of the processes being `pieces` (contract of PETSc: written
in natural ordering). -/
def daView (skip : Bool) (Ms : List Int) (bs : Nat) (pieces : List (List (Int × Int) × List K)) : Res (File K) :=
  (Blk.sequence ((box (Ms.map fun m => ((0:Int), m))).map fun x => (Res.ofOption (pieces.find? fun p => decide (x ∈ box p.1))).bind fun p =>
    Blk.sequence ((List.range bs).map fun (c : Nat) => daGet p.1 bs p.2 x c))).bind fun vs =>
  .ok (vecView skip vs.flatten.length fun i => vs.flatten.getD i.toNat 0)

/-- `VecLoad` of a vector of a `DMDA` (contract of PETSc: the file is in natural ordering); the parts of the processes. -/
def daLoad (skip : Bool) (Ms : List Int) (bs : Nat) (corners : List (List (Int × Int))) (f : File K) : Res (List (List K) × File K) :=
  (vecLoad skip ((prodOf Ms).toNat * bs) f).bind fun r =>
  .ok (corners.map fun cs => (box cs).flatMap fun x => (List.range bs).map fun (c : Nat) => r.1.getD ((natural 1 Ms x).toNat * bs + c) 0, r.2)

/-- The node `DM`s of all processes: `IGAGetNodeDM`, src/petiga.c:1084-1094. -/
def nodeDMs (Ls : List (Layout K)) : Res (List (List (Int × Int))) := Blk.sequence (Ls.zipIdx.map fun Lr => nodeDM Ls Lr.1 Lr.2)

/-- Local sizes of the vectors of `IGACreateVec`, petigavec.c:92-93. -/
def vecSizes (Ls : List (Layout K)) (bs : Nat) : List Nat := Ls.map fun L => (prodOf (L.dir.map Dir.nodeLwidth)).toNat * bs

/-- Sizes of the grid given to the `DMDA`, petiga.c:1051-1053. -/
def gridSizes (Ls : List (Layout K)) : List Int := (Ls.head?.map fun L => L.dir.map Dir.nodeSize).getD []

/-- `VecView_IGA`, petigavec.c:18-43. -/
def view (w : Viewer) (Ls : List (Layout K)) (bs : Nat) (gvec : Int → K) : Res (Shown K) :=
  match w with
  | .vtk => .ok .drawn
  | .draw => .ok .drawn
  | .glvis => .ok .drawn
  | .binary skip =>
    (nodeDMs Ls).bind fun corners =>
    (vecCopy (Ls.zipIdx.map fun Lr => vecPart Ls bs gvec Lr.2 Lr.1) (corners.map (daSize bs))).bind fun parts =>
    (daView skip (gridSizes Ls) bs (List.zip corners parts)).bind fun f => .ok (.file f)

/-- `VecLoad_IGA`, petigavec.c:44-60, on a binary viewer: the content of the vector (its parts follow each other in rank order) and the rest of the file. -/
def load (skip : Bool) (Ls : List (Layout K)) (bs : Nat) (f : File K) : Res ((Int → K) × File K) :=
  (nodeDMs Ls).bind fun corners =>
  (daLoad skip (gridSizes Ls) bs corners f).bind fun r =>
  (vecCopy r.1 (vecSizes Ls bs)).bind fun parts =>
  .ok (fun i => parts.flatten.getD i.toNat 0, r.2)

end PetIGA.VIO
