import Verif.Model.Grid
import Verif.Model.Basic
/-! Model of the input and output of matrices: `MatView_MPI_IGA`, `MatLoad_MPI_IGA`, `MatDuplicate_IGA` and the operations that
`IGACreateMat` replaces, petigamat.c:28-191 and :375-398.

A matrix is the partial map from (row, column) to the stored entry (`none`: not in the nonzero pattern).  The binary file written
by PETSc's own `MatView` is the order of the matrix and its stored entries, and PETSc's own `MatLoad` reads them back (contracts,
trusted). -/
namespace PetIGA.MIO
open PetIGA.Grid

variable {V : Type}

/-- Stored entries of a distributed matrix, by global row and column. -/
abbrev Entries (V : Type) := Int → Int → Option V

/-- A file written by PETSc's `MatView` with a binary viewer. -/
structure File (V : Type) where
  order : Int
  entries : Entries V

/-- `AOPetscToApplication`: the inverse of `appToPetsc` (contract of PETSc, trusted); indices out of range map to -1. -/
def petscToApp (W : World) (k : Int) : Int := if k < 0 then -1 else ((apps W)[k.toNat]?).getD (-1)

/-- `MatGetOwnershipRange` of a matrix of block size `bs`: the rows of rank `r` are `[bs*offset r, bs*offset (r+1))`. -/
def rowRange (W : World) (bs : Nat) (r : Nat) : Int × Int := ((bs:Int) * offset W r, (bs:Int) * offset W (r+1))

/-- The index set built by one process, petigamat.c:55-72 (with `f` = `AOApplicationToPetscIS`) and :113-130 (with
`AOPetscToApplicationIS`). -/
def indexSet (f : Int → Int) (W : World) (bs : Nat) (r : Nat) : List Int :=
  let rr := rowRange W bs r
  let is := (strideIS ((rr.2 - rr.1) / (bs:Int)).toNat (rr.1 / (bs:Int))).map f
  if bs > 1 then blockIS bs is else is

/-- The parallel index set: the indices of the processes in rank order. -/
def parallelIS (f : Int → Int) (W : World) (bs : Nat) : List Int := (List.range W.length).flatMap (indexSet f W bs)

/-- `MatCreateSubMatrix(A,is,is,MAT_INITIAL_MATRIX)`: row `i`, column `j` of the result is row `is[i]`, column `is[j]` of `A`
(contract of PETSc, trusted). -/
def subMatrix (A : Entries V) (is : List Int) : Entries V := fun i j =>
  if i < 0 ∨ j < 0 then none
  else match is[i.toNat]?, is[j.toNat]? with
    | some a, some b => A a b
    | _, _ => none

/-- Number of rows. -/
def order (W : World) (bs : Nat) : Int := (bs:Int) * offset W W.length

/-- `MatView_MPI_IGA`, petigamat.c:32-83, binary viewer. -/
def matViewMPI (W : World) (bs : Nat) (A : Entries V) : File V :=
  ⟨order W bs, subMatrix A (parallelIS (appToPetsc W) W bs)⟩

/-- The two matrices of order `n` have the same nonzero pattern. -/
def samePattern (n : Nat) (A B : Entries V) : Bool :=
  (List.range n).all fun (i : Nat) => (List.range n).all fun (j : Nat) => (A (i:Int) (j:Int)).isSome == (B (i:Int) (j:Int)).isSome

/-- `MatCopy(A,B,SAME_NONZERO_PATTERN)`: the arrays of values are copied without looking at the columns, so matrices of different
patterns are undefined behaviour. -/
def matCopy (n : Nat) (A B : Entries V) : Res (Entries V) := if samePattern n A B then .ok A else .ub

/-- `MatLoad_MPI_IGA`, petigamat.c:85-142: `A` is the matrix loaded into.  `MatLoad` checks the order of the matrix in the file. -/
def matLoadMPI (W : World) (bs : Nat) (A : Entries V) (f : File V) : Res (Entries V) :=
  if f.order ≠ order W bs then .err .lib
  else matCopy (order W bs).toNat (subMatrix f.entries (parallelIS (petscToApp W) W bs)) A

/-- The operations of a matrix that the library replaces; `true`: replaced. -/
structure Ops where
  view : Bool
  load : Bool
  duplicate : Bool
  createVecs : Bool
  /-- the matrix has the `IGA` it was made with -/
  iga : Bool
deriving DecidableEq

/-- A matrix of PETSc, as made by `MatCreate`/`MatSetType` or by PETSc's `MatDuplicate`. -/
def plain : Ops := ⟨false, false, false, false, false⟩

/-- `IGACreateMat`, petigamat.c:375-398: `is` tells a `MATIS` matrix. -/
def createOps (is : Bool) (W : World) : Ops :=
  let o := { plain with iga := true }
  let o := if !is && decide (W.length > 1) then { o with view := true, load := true } else o
  let o := { o with createVecs := true }
  { o with duplicate := true }

/-- `MatDuplicate` of a matrix; if the operation is replaced it is `MatDuplicate_IGA`, petigamat.c:159-191. -/
def duplicate (o : Ops) : Res Ops :=
  if o.duplicate then
    if !o.iga then .err .wrong
    else
      let b := { plain with iga := true, duplicate := true }
      let b := if o.view then { b with view := true } else b
      let b := if o.load then { b with load := true } else b
      .ok { b with createVecs := true }
  else .ok plain

/-- `MatView` of a matrix on the processes `W`. -/
def matView (o : Ops) (W : World) (bs : Nat) (A : Entries V) : Res (File V) :=
  if o.view then (if !o.iga then .err .wrong else .ok (matViewMPI W bs A)) else .ok ⟨order W bs, A⟩

/-- `MatLoad` into a matrix on the processes `W`; PETSc's own takes the pattern of the file. -/
def matLoad (o : Ops) (W : World) (bs : Nat) (A : Entries V) (f : File V) : Res (Entries V) :=
  if o.load then (if !o.iga then .err .wrong else matLoadMPI W bs A f)
  else if f.order ≠ order W bs then .err .lib else .ok f.entries

end PetIGA.MIO
