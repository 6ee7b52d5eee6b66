import Verif.Model.Grid
import Verif.Model.Elem
import Verif.Model.Assemble
/-
Model of the index sets of the block preconditioners: `PCBBB` (src/petigapcb.c, one block per owned node) and
`PCEBE` (src/petigapce.c, one block per element).  The inversion of the blocks by LAPACK and the assembly of the
inverse into the preconditioner matrix are in Model/PCApply; here is the list of global unknowns of every block.
-/
namespace PetIGA.Blk
open PetIGA.Grid

/-- `overlap[i] = p/2` if the requested overlap is negative, `PetscMin(overlap[i],p)` otherwise,
petigapcb.c:143-150.  (Applying it twice, as a second `PCSetUp` with `setupcalled` false would, changes nothing.) -/
def overlapOf (req p : Int) : Int := if req < 0 then Int.tdiv p 2 else min req p

/-- The window of ghosted nodes in one direction, petigapcb.c:151-158:
`gstart = lstart - overlap; gwidth = lwidth + overlap; if (gstart < 0) gstart = node_gstart;
if (gstart + gwidth >= sizes) gwidth = node_gwidth;`. -/
def window (d : GDir) (ov : Int) : Int × Int :=
  let gs := d.lstart - ov
  let gw := d.lwidth + ov
  let gs := if gs < 0 then d.gstart else gs
  let gw := if gs + gw ≥ d.size then d.gwidth else gw
  (gs, gw)

/-- The grid given to `IGA_Grid_Init` in `PCSetUp_BBB`, petigapcb.c:164-167: sizes and owned box of the IGA, ghosted
box replaced by the window. -/
def bbbGrid (g : List GDir) (ovs : List Int) : List GDir :=
  List.zipWith (fun d ov => { d with gstart := (window d ov).1, gwidth := (window d ov).2 }) g ovs

/-- `Index3D`, petigapcb.c:15-21: `i + j*width[0] + k*width[0]*width[1]` after subtracting `start`. -/
def index (w : List (Int × Int)) (x : List Int) : Int :=
  natural 1 (w.map Prod.snd) (List.zipWith (fun i s => i - s) x (w.map Prod.fst))

/-- The ranges `[iL,iR]` of the three loops of `ComputeOverlap` as (start, width), petigapcb.c:30-35:
`iL = PetscMax(iA-iov,igs)`, `iR = PetscMin(iA+iov,ige-1)` with `ige = igs + gwidth`. -/
def ranges : List (Int × Int) → List Int → List Int → List (Int × Int)
  | (gs, gw) :: ws, o :: os, a :: as =>
    (max (a - o) gs, min (a + o) (gs + gw - 1) - max (a - o) gs + 1) :: ranges ws os as
  | _, _, _ => []

/-- The multi-indices visited by `for (i…) for (j…) for (k…)` – first direction outermost, petigapcb.c:37-39. -/
def boxRev : List (Int × Int) → List (List Int)
  | [] => [[]]
  | (s, w) :: rest => (List.range w.toNat).flatMap fun (k : Nat) => (boxRev rest).map fun is => (s + (k:Int)) :: is

/-- One pass of the loop body of `ComputeOverlap`, petigapcb.c:40-43 (and of `ComputeOwnedGlobalIndices`,
petigapce.c:82-87): the global number of a local node is read from the map (outside the map: undefined), skipped if
it is not in `[Astart,Aend)`, and otherwise the `bs` unknowns `c + bs*Aglobal` are appended. -/
def entry (lg : List Int) (bs : Nat) (a0 a1 : Int) (i : Int) : Res (List Int) :=
  if i < 0 then .ub else
  match lg[i.toNat]? with
  | none => .ub
  | some a => if a < a0 ∨ a ≥ a1 then .ok [] else .ok ((List.range bs).map fun (c : Nat) => (c:Int) + bs * a)

/-- Storing a list of indices into an array of `n` entries. -/
def store (n : Int) (l : List Int) : Res (List Int) := if (l.length : Int) ≤ n then .ok l else .ub

/-- `ComputeOverlap`, petigapcb.c:23-46, writing into an array of `n` entries. -/
def computeOverlap (lg : List Int) (bs : Nat) (a0 a1 : Int) (w : List (Int × Int)) (ovs A : List Int) (n : Int) :
    Res (List Int) :=
  (collect ((boxRev (ranges w ovs A)).map fun x => entry lg bs a0 a1 (index w x))).bind (store n)

/-- The size of `indices[]`, petigapcb.c:204: `for (n=dof, i=0; i<dim; n *= (2*overlap[i++] + 1));`. -/
def bufferSize (bs : Nat) (ovs : List Int) : Int := ovs.foldl (fun n o => n * (2 * o + 1)) bs

/-- The block of the owned node `A` in `PCSetUp_BBB`, petigapcb.c:200-220: `rstart`, `rend` are the ownership range of
the matrix divided by `dof`, i.e. the range of global nodes (contract of PETSc, trusted). -/
def bbbBlock (W : World) (bs : Nat) (g : List GDir) (req ps : List Int) (r : Nat) (A : List Int) : Res (List Int) :=
  let ovs := List.zipWith overlapOf req ps
  let g' := bbbGrid g ovs
  computeOverlap (lgmap W g') bs (offset W r) (offset W (r+1)) (gbox g') ovs A (bufferSize bs ovs)

/-- Run a list of computations in order. -/
def sequence {α : Type} : List (Res α) → Res (List α)
  | [] => .ok []
  | x :: xs => x.bind fun a => (sequence xs).bind fun as => .ok (a :: as)

/-- The blocks of `PCSetUp_BBB` in the order of the loops over the owned nodes, petigapcb.c:216-220. -/
def bbbBlocks (W : World) (bs : Nat) (g : List GDir) (req ps : List Int) (r : Nat) : Res (List (List Int)) :=
  sequence ((box (lbox g)).map (bbbBlock W bs g req ps r))

/-- `ComputeOwnedGlobalIndices`, petigapce.c:77-90, with the map of the matrix, for an element whose closure is `idx`,
writing into an array of `n` entries (`nen*dof`, petigapce.c:136). -/
def ownedGlobal (lg : List Int) (bs : Nat) (a0 a1 : Int) (idx : List Int) (n : Int) : Res (List Int) :=
  (collect (idx.map (entry lg bs a0 a1))).bind (store n)

/-- The block of element `x` of process `r` in `PCSetUp_EBE`, petigapce.c:124-151: closure of the element, map of the
matrix (the local-to-global map of the IGA), ownership range divided by `dof`, array of `nen*dof` entries. -/
def ebeBlock {K : Type} [Field K] [LinearOrder K] (W : World) (bs : Nat) (colloc : Bool) (axes : List (Ax.Axis K))
    (dirs : List Lay.Dir) (r : Nat) (x : List Int) : Res (List Int) :=
  (Asm.cdirs colloc axes dirs x).bind fun cds =>
  (Asm.mapping cds).bind fun map =>
    ownedGlobal (lgmap W (dirs.map gdir)) bs (offset W r) (offset W (r+1)) map
      ((cds.map fun d => (d.nen:Int)).foldl (· * ·) 1 * bs)

end PetIGA.Blk
