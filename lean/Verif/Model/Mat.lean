import Verif.Model.Grid

/-!
Model of the nonzero structure built by `IGACreateMat`, src/petigamat.c:197-549.

The matrix is represented by the list of the rows a process inserts, each with the columns it inserts (all values are zero).
PETSc contracts used: `ISLocalToGlobalMappingApplyBlock` leaves negative indices unchanged and fails on indices beyond the
map; `MatSetValues` ignores negative columns.
-/

namespace PetIGA.Mat
open PetIGA.Ax PetIGA.Lay PetIGA.Grid

variable {K : Type} [Field K] [LinearOrder K] [IsStrictOrderedRing K]

/-- `Stencil`, petigamat.c:197-233: first and last column index of row `i` in a direction.  `offset` is `basis[dir]->offset`. -/
def stencil (colloc : Bool) (offset : List Int) (ax : Axis K) (i : Int) : Res (Int × Int) :=
  let p := ax.p
  let m := ax.m
  let n := m - p - 1
  if colloc then
    (Res.ofOption (if i < 0 then none else offset[i.toNat]?)).bind fun k => .ok (k, k + p)
  else
    let first := nextKnot m ax.U i 1 - p - 1
    let last := nextKnot m ax.U (i + p + 1) (-1)
    if ax.periodic = false then
      .ok (if i ≤ p then 0 else first, if i ≥ n - p then n else last)
    else if i = 0 then
      let k := n + 1
      let j := nextKnot m ax.U k 1
      let s := j - k
      let C := p - s
      let nnp := n - C
      let k := nextKnot m ax.U nnp 1 - nnp
      .ok (k - p - 1, last)
    else .ok (first, last)

/-- What `IGACreateMat` needs of a direction: the axis, the offsets of its basis, and the owned rows
`[lstart, lstart+lwidth)` (`iga->node_lstart`, `node_lwidth`, or the ghosted range for a `MATIS` matrix). -/
structure MDir (K : Type) where
  ax : Axis K
  offset : List Int
  lstart : Int
  lwidth : Int

/-- The ghosted range of one direction, petigamat.c:412-418. -/
def ghostRange (colloc : Bool) (d : MDir K) : Res (Int × Int) :=
  (stencil colloc d.offset d.ax d.lstart).bind fun a =>
  (stencil colloc d.offset d.ax (d.lstart + d.lwidth - 1)).bind fun b => .ok (a.1, b.2 + 1 - a.1)

/-- The ghosted ranges of all directions. -/
def ghostRanges (colloc : Bool) : List (MDir K) → Res (List (Int × Int))
  | [] => .ok []
  | d :: ds => (ghostRange colloc d).bind fun g => (ghostRanges colloc ds).bind fun gs => .ok (g :: gs)

/-- `Index3D`, petigamat.c:235-241; `g` lists `(start, shape)` of the directions. -/
def index3D (g : List (Int × Int)) (x : List Int) : Int :=
  natural 1 (g.map Prod.snd) (List.zipWith (fun (i : Int) (s : Int) => i - s) x (g.map Prod.fst))

/-- The column ranges `(first, number)` of row `x`, clipped to the ghosted range, petigamat.c:252-257. -/
def columnRanges (colloc : Bool) : List (MDir K) → List (Int × Int) → List Int → Res (List (Int × Int))
  | d :: ds, g :: gs, i :: is =>
    (stencil colloc d.offset d.ax i).bind fun a =>
    (columnRanges colloc ds gs is).bind fun rest =>
      let first := max a.1 g.1
      let last := min a.2 (g.1 + g.2 - 1)
      .ok ((first, last + 1 - first) :: rest)
  | [], [], [] => .ok []
  | _, _, _ => .ub

/-- `ColumnIndices`, petigamat.c:243-267 (the loops run over `first..last` in each direction, first direction fastest). -/
def columnIndices (colloc : Bool) (ds : List (MDir K)) (g : List (Int × Int)) (x : List Int) : Res (List Int) :=
  (columnRanges colloc ds g x).bind fun rs => .ok ((box rs).map (index3D g))

/-- One entry of `ISLocalToGlobalMappingApplyBlock`. -/
def applyOne (map : List Int) (i : Int) : Res Int :=
  if i < 0 then .ok i else match map[i.toNat]? with
    | some j => .ok j
    | none => .err .outOfRange

/-- `ISLocalToGlobalMappingApplyBlock`, petigamat.c:293-301. -/
def applyAll (map : List Int) : List Int → Res (List Int)
  | [] => .ok []
  | i :: is => (applyOne map i).bind fun j => (applyAll map is).bind fun js => .ok (j :: js)

/-- The grid of the matrix, petigamat.c:420-428: like the IGA's own, with the ghosted range of the matrix. -/
def matGrid (ds : List (MDir K)) (g : List (Int × Int)) : List GDir :=
  List.zipWith (fun d r => ⟨d.ax.nnp, d.lstart, d.lwidth, r.1, r.2⟩) ds g

/-- Row and columns (node numbers) inserted for node `x`, petigamat.c:460-462 and :516-518; `W` is the decomposition described
by `iga->ao`. -/
def rowOf (colloc : Bool) (W : World) (ds : List (MDir K)) (g : List (Int × Int)) (x : List Int) : Res (Int × List Int) :=
  (columnIndices colloc ds g x).bind fun cols =>
  (applyOne (lgmap W (matGrid ds g)) (index3D g x)).bind fun row =>
  (applyAll (lgmap W (matGrid ds g)) cols).bind fun cols => .ok (row, cols)

/-- All rows inserted by one process in the order of the loops, petigamat.c:456-480 and :512-533. -/
def rowsOf (colloc : Bool) (W : World) (ds : List (MDir K)) (g : List (Int × Int)) : List (List Int) → Res (List (Int × List Int))
  | [] => .ok []
  | x :: xs => (rowOf colloc W ds g x).bind fun r => (rowsOf colloc W ds g xs).bind fun rs => .ok (r :: rs)

/-- `IGACreateMat`: the block rows and block columns inserted by one process. -/
def createMat (colloc : Bool) (W : World) (ds : List (MDir K)) : Res (List (Int × List Int)) :=
  (ghostRanges colloc ds).bind fun g => rowsOf colloc W ds g (box (ds.map fun d => (d.lstart, d.lwidth)))

/-- `maxnnz`, petigamat.c:441-443: the size of the buffer that `ColumnIndices` fills. -/
def maxnnz (ds : List (MDir K)) : Int := (ds.map fun d => 2 * d.ax.p + 1).foldl (· * ·) 1

/-- `UnblockIndices`, petigamat.c:303-314: the rows and columns of the `bs` components. -/
def unblock (bs : Nat) (row : Int) (cols : List Int) : List Int × List Int :=
  ((List.range bs).map fun (c : Nat) => (c:Int) + row * bs,
   cols.flatMap fun j => (List.range bs).map fun (c : Nat) => (c:Int) + j * bs)

/-- `FilterLowerTriangular`, petigamat.c:316-326. -/
def filterLower (row : Int) (cols : List Int) : List Int := cols.filter fun j => decide (j ≥ row)

/-- `MatPreallocateSet` on one row: the number of columns inside and outside the rows `[rstart, rend)` of the process
(PETSc macro). -/
def preallocate (rstart rend : Int) (cols : List Int) : Nat × Nat :=
  ((cols.filter fun j => decide (¬ (j < rstart ∨ j ≥ rend))).length,
   (cols.filter fun j => decide (j < rstart ∨ j ≥ rend)).length)

/-- `MatPreallocateSymmetricSetBlock` on one row (PETSc macro). -/
def preallocateSym (rend row : Int) (cols : List Int) : Nat × Nat :=
  ((cols.filter fun j => decide (j < rend ∧ j ≥ row)).length, (cols.filter fun j => decide (j ≥ rend)).length)

/-- The clipping of the counts when the buffer could hold more than a full row, petigamat.c:483-490; `nbs`, `Nbs` are the local
and global number of (block) rows. -/
def clip (N maxnnz : Int) (nbs Nbs : Nat) (c : Nat × Nat) : Nat × Nat :=
  if N < maxnnz then (min c.1 nbs, min c.2 (Nbs - nbs)) else c

/-- Storage formats distinguished by `IGACreateMat`: `aij` (also `sell`), `baij`, `sbaij`. -/
inductive Format
  | aij | baij | sbaij

/-- The rows and columns a process passes to `MatSetValues` or `MatSetValuesBlocked` for one node, petigamat.c:519-531
(for `aij` with `bs = 1` the code passes the node's row and columns directly, which is the same). -/
def inserted (fmt : Format) (bs : Nat) (row : Int) (cols : List Int) : List Int × List Int :=
  match fmt with
  | .aij => if bs = 1 then ([row], cols) else unblock bs row cols
  | .baij => ([row], cols)
  | .sbaij => ([row], filterLower row cols)

/-- The counts stored in `dnz[]`, `onz[]` for one row, petigamat.c:463-490.  `rstart`, `nbs` are the first row and the number of
rows of the process, `Nbs` the number of all rows, in units of `fmt` (nodes for the blocked formats, else components); `N` is the
number of nodes. -/
def counts (fmt : Format) (bs : Nat) (rstart : Int) (nbs Nbs : Nat) (N maxnnz : Int) (row : Int) (cols : List Int) : Nat × Nat :=
  clip N maxnnz nbs Nbs (match fmt with
    | .aij => preallocate rstart (rstart + nbs) (inserted .aij bs row cols).2
    | .baij => preallocate rstart (rstart + nbs) cols
    | .sbaij => preallocateSym (rstart + nbs) row (filterLower row cols))

/-- The local matrix of a `MATIS` matrix: rows and columns are ghosted nodes (petigamat.c:429-436, no index map),
clipped to the ghosted range `g`. -/
def createLocalMat (colloc : Bool) (ds : List (MDir K)) : List (List Int) → Res (List (Int × List Int))
  | [] => .ok []
  | x :: xs => (columnIndices colloc ds (ds.map fun d => (d.lstart, d.lwidth)) x).bind fun cols =>
    (createLocalMat colloc ds xs).bind fun rs => .ok ((index3D (ds.map fun d => (d.lstart, d.lwidth)) x, cols) :: rs)

end PetIGA.Mat
