import Verif.Model.Block
import Mathlib.LinearAlgebra.Matrix.NonsingularInverse
/-
Model of the numerical part of the block preconditioners: `PCSetUp_EBE`, `PCApply_EBE`, `PCApplyTranspose_EBE`
(src/petigapce.c:92-206) and `PCSetUp_BBB`, `PCApply_BBB`, `PCApplyTranspose_BBB` (src/petigapcb.c:69-302).  The index
sets are those of `Model/Block`.

External: `MatGetValues`, `MatSetValues`, `MatMult` of PETSc and `getrf`/`getri` of LAPACK, by contract and in exact
arithmetic.  The matrix formats are those with all entries stored (`aij`, `baij`); `sbaij` is not modelled.
-/
namespace PetIGA.PCA
open PetIGA.Grid PetIGA.Asm PetIGA.Lay PetIGA.Blk
open scoped Classical

variable {V : Type} [Field V]

/-- `MatGetValues(A,n,indices,n,indices,values)`, petigapce.c:153, petigapcb.c:222: row after row; only rows
`[lo,hi)` of the process can be read (contract of PETSc). -/
def getBlock (A : Int → Int → V) (lo hi : Int) (idx : List Int) : Res (List V) :=
  if idx.all (fun i => decide (lo ≤ i ∧ i < hi)) then .ok (idx.flatMap fun i => idx.map fun j => A i j) else .err .sup

/-- The matrix LAPACK sees in an array: column after column. -/
def colMajor (m : Nat) (v : List V) : Matrix (Fin m) (Fin m) V := fun i j => v.getD (j.val * m + i.val) 0

/-- The array in which LAPACK leaves a matrix. -/
def toArray (m : Nat) (M : Matrix (Fin m) (Fin m) V) : List V :=
  (List.finRange m).flatMap fun j => (List.finRange m).map fun i => M i j

/-- `LAPACKgetrf_(&m,&m,values,&m,ipiv,&info)` followed by `LAPACKgetri_`, petigapce.c:155-164, petigapcb.c:226-233: the
leading dimension `m` must be at least 1 (`info<0`); a zero pivot (`info>0`) occurs exactly for singular matrices
(contract of LAPACK in exact arithmetic). -/
noncomputable def lapackInv (m : Nat) (v : List V) : Res (List V) :=
  if m = 0 then .err .lib else
  if IsUnit (colMajor m v).det then .ok (toArray m (colMajor m v)⁻¹) else .err .lib

/-- The inversion in `PCSetUp_BBB`, petigapcb.c:224-239: blocks with one unknown are inverted directly, unless zero, and
empty blocks are left alone. -/
noncomputable def smallInv (m : Nat) (v : List V) : Res (List V) :=
  if 1 < m then lapackInv m v else if m = 1 then .ok (v.map fun a => if a ≠ 0 then 1 / a else a) else .ok v

/-- `MatSetValues(B,n,indices,n,indices,values,ADD_VALUES)`, petigapce.c:168, petigapcb.c:241: the values added, read row
after row. -/
def addBlock (idx : List Int) (w : List V) : List ((Int × Int) × V) :=
  (List.range idx.length).flatMap fun (i : Nat) => (List.range idx.length).map fun (j : Nat) =>
    ((idx.getD i 0, idx.getD j 0), w.getD (i * idx.length + j) 0)

/-- One block: get, invert, add. -/
noncomputable def block (inv : Nat → List V → Res (List V)) (A : Int → Int → V) (lo hi : Int) (idx : List Int) :
    Res (List ((Int × Int) × V)) :=
  (getBlock A lo hi idx).bind fun v => (inv idx.length v).bind fun w => .ok (addBlock idx w)

section
variable {K : Type} [Field K] [LinearOrder K] [IsStrictOrderedRing K]

/-- `PCSetUp_EBE` on process `r`, petigapce.c:92-187: the entries added to the preconditioner matrix.  It has the nonzero
pattern `pat` of the matrix (of its diagonal block, on several processes), and adding elsewhere is an error
(`MAT_NEW_NONZERO_LOCATION_ERR`, petigapce.c:72). -/
noncomputable def ebeSetUp (pat : Int → Int → Bool) (W : World) (bs : Nat) (colloc : Bool) (L : Layout K) (h : Hist) (r : Nat)
    (A : Int → Int → V) : Res (List ((Int × Int) × V)) :=
  (visited L h).bind fun xs =>
  (Blk.sequence (xs.map fun x => (ebeBlock W bs colloc L.axes L.dir r x).bind
    (block lapackInv A (offset W r * bs) (offset W (r+1) * bs)))).bind fun ls =>
  if ls.flatten.all (fun e => pat e.1.1 e.1.2) then .ok ls.flatten else .err .outOfRange

/-- The number of nonzeros per row given by `PCSetUp_BBB_CreateMatrix`, petigapcb.c:90-97: `dnnz *= 4*overlap[i]+1`, times
`dof`. -/
def dnnz (bs : Nat) (ovs : List Int) : Int := ovs.foldl (fun n o => n * (4 * o + 1)) 1 * bs

/-- Columns added in a row. -/
def colsOf (log : List ((Int × Int) × V)) (i : Int) : List Int :=
  ((log.filter fun e => decide (e.1.1 = i)).map fun e => e.1.2).dedup

/-- `PCSetUp_BBB` on process `r`, petigapcb.c:112-257: the entries added to the preconditioner matrix; a row with more
columns than preallocated is an error (`MAT_NEW_NONZERO_ALLOCATION_ERR`, petigapcb.c:105). -/
noncomputable def bbbSetUp (W : World) (bs : Nat) (g : List GDir) (req ps : List Int) (r : Nat) (A : Int → Int → V) :
    Res (List ((Int × Int) × V)) :=
  (Blk.sequence ((box (lbox g)).map fun x => (bbbBlock W bs g req ps r x).bind
    (block smallInv A (offset W r * bs) (offset W (r+1) * bs)))).bind fun ls =>
  if ls.flatten.all (fun e => decide (((colsOf ls.flatten e.1.1).length : Int) ≤ dnnz bs (List.zipWith overlapOf req ps)))
  then .ok ls.flatten else .err .outOfRange

/-- `PCSetUp_EBE` on all processes: the preconditioner matrix, by rows and columns. -/
noncomputable def ebe (pat : Int → Int → Bool) (bs : Nat) (colloc : Bool) (Ls : List (Layout K)) (hist : Nat → Hist)
    (A : Int → Int → V) : Res (Int × Int → V) :=
  (Blk.sequence (Ls.zipIdx.map fun Lr => ebeSetUp pat (world (appWorld Ls)) bs colloc Lr.1 (hist Lr.2) Lr.2 A)).bind fun ls =>
    .ok (assembled ls.flatten)

/-- `PCSetUp_BBB` on all processes. -/
noncomputable def bbb (bs : Nat) (Ls : List (Layout K)) (req : List Int) (A : Int → Int → V) : Res (Int × Int → V) :=
  (Blk.sequence (Ls.zipIdx.map fun Lr => bbbSetUp (world (appWorld Ls)) bs (Lr.1.dir.map gdir) req (Lr.1.axes.map Ax.Axis.p) Lr.2 A)).bind
    fun ls => .ok (assembled ls.flatten)

end

/-- The nonzero pattern of a matrix created by `IGACreateMat`, petigamat.c:505-547: the rows and columns inserted by the
processes (`Mat.createMat`), for all components. -/
def patternOf (bs : Nat) (rows : List (Int × List Int)) (i j : Int) : Bool :=
  rows.any fun r => decide (r.1 = i / bs) && r.2.any fun c => decide (c = j / bs)

/-- `PCApply_EBE`, `PCApply_BBB`: `MatMult` with the preconditioner matrix, petigapce.c:192-199, petigapcb.c:280-289. -/
def apply (N : Nat) (B : Int × Int → V) (x : Int → V) (i : Int) : V :=
  ((List.range N).map fun (j : Nat) => B (i, j) * x j).sum

/-- `PCApplyTranspose_EBE`, `PCApplyTranspose_BBB`: `MatMultTranspose`, petigapce.c:201-208, petigapcb.c:291-300. -/
def applyTranspose (N : Nat) (B : Int × Int → V) (x : Int → V) (i : Int) : V :=
  ((List.range N).map fun (j : Nat) => B (j, i) * x j).sum

end PetIGA.PCA
