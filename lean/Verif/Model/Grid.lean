import Verif.Model.Basic
import Verif.Model.Layout
import Mathlib.Algebra.Group.Defs
/-
Model of `struct _n_IGA_Grid`, src/petigagrid.c: index arithmetic of a box-decomposed node grid, the global
numbering and the vector scatters built from it, as used by `IGASetUp_Stage2` (src/petiga.c:1313-1374).

The code always loops over three directions; directions beyond `dim` have size 1, start 0 and width 1
(petigagrid.c:17-23).  The model takes a list of directions of any length.
-/
namespace PetIGA.Grid
open PetIGA.Lay

/-- The periodic wrap of one ghosted grid index, petigagrid.c:155-157
(`if (ig<0) ig = isize + ig; else if (ig>=isize) ig = ig % isize;`). -/
def wrap (size i : Int) : Int :=
  if i < 0 then size + i else if i ≥ size then Int.tmod i size else i

/-- One direction of `struct _n_IGA_Grid` (src/petigagrid.h): `sizes[d]`, `local_start[d]`, `local_width[d]`,
`ghost_start[d]`, `ghost_width[d]`. -/
structure GDir where
  size : Int
  lstart : Int
  lwidth : Int
  gstart : Int
  gwidth : Int
  deriving DecidableEq, Repr

/-- The arguments of `IGA_Grid_Init` in `IGASetUp_Stage2`, petiga.c:1348-1351. -/
def gdir (d : Dir) : GDir := ⟨d.nodeSize, d.nodeLstart, d.nodeLwidth, d.nodeGstart, d.nodeGwidth⟩

/-- The multi-indices visited by nested loops `for (k=ks; k<ks+kw; k++) for (j…) for (i…)`, in order (first
direction innermost), petigagrid.c:121-123, 151-153, 367-369. -/
def box : List (Int × Int) → List (List Int)
  | [] => [[]]
  | (s, w) :: rest =>
    (box rest).flatMap fun is => (List.range w.toNat).map fun (k : Nat) => (s + (k:Int)) :: is

/-- `i + j*jstride + k*kstride` with `jstride = sizes[0]`, `kstride = sizes[0]*sizes[1]`, petigagrid.c:113-114,
125; `stride` is the stride of the first listed direction (1 at the top). -/
def natural : Int → List Int → List Int → Int
  | stride, n :: ns, i :: is => i * stride + natural (stride * n) ns is
  | _, _, _ => 0

/-- Local (owned) box of a grid. -/
def lbox (g : List GDir) : List (Int × Int) := g.map fun d => (d.lstart, d.lwidth)
/-- Ghosted box of a grid. -/
def gbox (g : List GDir) : List (Int × Int) := g.map fun d => (d.gstart, d.gwidth)
/-- `sizes[]`. -/
def sizes (g : List GDir) : List Int := g.map GDir.size

/-- `IGA_Grid_LocalIndices`, petigagrid.c:98-130. -/
def localIndices (bs : Nat) (g : List GDir) : List Int :=
  (box (lbox g)).flatMap fun x =>
    (List.range bs).map fun (c : Nat) => (c:Int) + bs * natural 1 (sizes g) x

/-- The wrap of all three indices, petigagrid.c:154-157. -/
def wrapAll (ns : List Int) (x : List Int) : List Int := List.zipWith wrap ns x

/-- `IGA_Grid_GhostIndices`, petigagrid.c:132-171. -/
def ghostIndices (bs : Nat) (g : List GDir) : List Int :=
  (box (gbox g)).flatMap fun x =>
    (List.range bs).map fun (c : Nat) => (c:Int) + bs * natural 1 (sizes g) (wrapAll (sizes g) x)

/-- The grids of all processes, by rank. -/
abbrev World := List (List GDir)

/-- The application indices given to `AOCreateMemoryScalable` by all processes, in rank order
(`IGA_Grid_GetAO`, petigagrid.c:185-199). -/
def apps (W : World) : List Int := W.flatMap (localIndices 1)

/-- `AOApplicationToPetsc`: with a null PETSc index set, the `k`-th application index in rank order gets PETSc
index `k` (contract of PETSc, trusted); indices that were not given map to -1. -/
def appToPetsc (W : World) (a : Int) : Int :=
  if a ∈ apps W then ((apps W).idxOf a : Int) else -1

/-- The block indices of the local-to-global mapping of one process, `IGA_Grid_GetLGMap`, petigagrid.c:213-228. -/
def lgmap (W : World) (g : List GDir) : List Int := (ghostIndices 1 g).map (appToPetsc W)

/-- Number of owned nodes, `width[0]*width[1]*width[2]` (petigagrid.c:240, 288, 362). -/
def nlocal (g : List GDir) : Int := ((lbox g).map Prod.snd).foldl (· * ·) 1

/-- First global node of rank `r`: `VecGetOwnershipRange` of a vector whose local sizes are `nlocal` (the running
sum over lower ranks; contract of PETSc's `PetscLayout`, trusted). -/
def offset (W : World) (r : Nat) : Int := ((W.take r).map nlocal).foldl (· + ·) 0

/-- `ISCreateBlock(comm,bs,n,idx)`: the index set `bs*idx[0],…,bs*idx[0]+bs-1, bs*idx[1],…`. -/
def blockIS (bs : Nat) (idx : List Int) : List Int :=
  idx.flatMap fun b => (List.range bs).map fun (c : Nat) => (bs:Int) * b + c

/-- `ISCreateStride(comm,n,first,1)`. -/
def strideIS (n : Nat) (first : Int) : List Int := (List.range n).map fun (k : Nat) => first + (k:Int)

/-! Vectors.  A global (or natural) vector is a function of the global index, a family of local vectors a function
of the rank and the local index. -/

/-- Store one value. -/
def upd {ι V : Type} [DecidableEq ι] (f : ι → V) (i : ι) (v : V) : ι → V := fun j => if j = i then v else f j

/-- `VecScatterBegin/End(…,INSERT_VALUES,…)` for a list of (source, destination) pairs. -/
def insertAll {α β V : Type} [DecidableEq β] (ps : List (α × β)) (x : α → V) (y : β → V) : β → V :=
  ps.foldl (fun y p => upd y p.2 (x p.1)) y

/-- `VecScatterBegin/End(…,ADD_VALUES,…)` for a list of (source, destination) pairs. -/
def addAll {α β V : Type} [DecidableEq β] [AddCommMonoid V] (ps : List (α × β)) (x : α → V) (y : β → V) : β → V :=
  ps.foldl (fun y p => upd y p.2 (y p.2 + x p.1)) y

/-- Exchange source and destination (`SCATTER_REVERSE`). -/
def reverse {α β : Type} (ps : List (α × β)) : List (β × α) := ps.map Prod.swap

/-- Index pairs of the scatter built by `IGA_Grid_GetScatterG2L`, petigagrid.c:314-339: entry `k` of the local
vector of rank `r` is paired with entry `isghost[k]` of the global vector. -/
def g2l (W : World) (bs : Nat) : List (Int × (Nat × Int)) :=
  W.zipIdx.flatMap fun (g, r) =>
    (blockIS bs (lgmap W g)).zipIdx.map fun (i, k) => (i, (r, (k:Int)))

/-- `ilocal[]` of `IGA_Grid_GetScatterL2G`, petigagrid.c:362-375: the positions in the ghosted box of the owned
nodes. -/
def ilocal (g : List GDir) : List Int :=
  (box (gbox g)).zipIdx.filterMap fun (x, index) =>
    if (List.zipWith (fun (b : Int × Int) i => decide (b.1 ≤ i ∧ i < b.1 + b.2)) (lbox g) x).all id
    then some (index:Int) else none

/-- Index pairs of the scatter built by `IGA_Grid_GetScatterL2G`, petigagrid.c:341-385.  The array `ilocal` has
`nlocal` entries; if the loop stores fewer, the rest is uninitialised (`ub`). -/
def l2gRank (W : World) (bs : Nat) (g : List GDir) (r : Nat) : Res (List ((Nat × Int) × Int)) :=
  if (ilocal g).length = (nlocal g).toNat then
    .ok (((blockIS bs (ilocal g)).zip (strideIS ((nlocal g).toNat * bs) (bs * offset W r))).map
      fun (l, i) => ((r, l), i))
  else .ub

/-- One list for all processes. -/
def collect {α : Type} : List (Res (List α)) → Res (List α)
  | [] => .ok []
  | x :: xs => do
    let a ← x
    let b ← collect xs
    .ok (a ++ b)

/-- See `l2gRank`. -/
def l2g (W : World) (bs : Nat) : Res (List ((Nat × Int) × Int)) :=
  collect (W.zipIdx.map fun (g, r) => l2gRank W bs g r)

/-- `IGAGlobalToLocal(…,INSERT_VALUES)`, petigavec.c:147-182. -/
def globalToLocal {V : Type} (W : World) (bs : Nat) (gvec : Int → V) (lvec : Nat × Int → V) : Nat × Int → V :=
  insertAll (g2l W bs) gvec lvec

/-- `IGALocalToGlobal(…,ADD_VALUES)`, petigavec.c:184-225 (reverse of the same scatter).  Simplified: exact
addition, so the order in which ghost contributions arrive does not matter. -/
def localToGlobalAdd {V : Type} [AddCommMonoid V] (W : World) (bs : Nat) (lvec : Nat × Int → V) (gvec : Int → V) :
    Int → V := addAll (reverse (g2l W bs)) lvec gvec

/-- `IGALocalToGlobal(…,INSERT_VALUES)`, petigavec.c:184-225. -/
def localToGlobalInsert {V : Type} (W : World) (bs : Nat) (lvec : Nat × Int → V) (gvec : Int → V) : Res (Int → V) := do
  let ps ← l2g W bs
  .ok (insertAll ps lvec gvec)

/-! ### The natural ordering -/

/-- One direction of the arguments of `IGA_Grid_NewScatterApp`: the grid and `shift[d]`, `sizes[d]`, `start[d]`,
`width[d]`. -/
structure ADir where
  g : GDir
  shift : Int
  size : Int
  start : Int
  width : Int
  deriving DecidableEq, Repr

/-- The arguments of `IGA_Grid_NewScatterApp` in `IGASetUp_Stage2`, petiga.c:1366-1368. -/
def adir (d : Dir) : ADir := ⟨gdir d, d.nodeShift, d.geomSize, d.geomLstart, d.geomLwidth⟩

/-- The natural -> global part of `IGA_Grid_NewScatterApp`, petigagrid.c:502-529, on rank `r`. -/
def n2gRank (W : World) (bs : Nat) (a : List ADir) (r : Nat) : List (Int × Int) :=
  let inatural := (box (a.map fun d => (d.shift + d.g.lstart, d.g.lwidth))).map (natural 1 (a.map ADir.size))
  (blockIS bs inatural).zip (strideIS ((nlocal (a.map ADir.g)).toNat * bs) (bs * offset W r))

/-- The positions and multi-indices stored by the global -> natural loop, petigagrid.c:548-560: grid indices of
the shifted ghosted box that lie in the application box `[start, start+width)`. -/
def appNodes (a : List ADir) : List (Int × List Int) :=
  (box (a.map fun d => (d.shift + d.g.gstart, d.g.gwidth))).zipIdx.filterMap fun (x, index) =>
    if (List.zipWith (fun (d : ADir) i => decide (d.start ≤ i ∧ i < d.start + d.width)) a x).all id
    then some ((index:Int), x) else none

/-- The global -> natural part of `IGA_Grid_NewScatterApp`, petigagrid.c:531-568, on one rank.  The arrays have
`width[0]*width[1]*width[2]` entries; if the loop stores fewer, the rest is uninitialised (`ub`).
`ISLocalToGlobalMappingApplyBlock` looks positions up in the local-to-global map. -/
def g2nRank (W : World) (bs : Nat) (a : List ADir) : Res (List (Int × Int)) :=
  if (appNodes a).length = ((a.map ADir.width).foldl (· * ·) 1).toNat then
    let iglobal := (appNodes a).map fun p => (lgmap W (a.map ADir.g)).getD p.1.toNat (-1)
    let inatural := (appNodes a).map fun p => natural 1 (a.map ADir.size) p.2
    .ok ((blockIS bs iglobal).zip (blockIS bs inatural))
  else .ub

/-- The world seen by `IGA_Grid_Init`. -/
def world (A : List (List ADir)) : World := A.map fun a => a.map ADir.g

/-- `IGANaturalToGlobal`, petigavec.c:296-308. -/
def naturalToGlobal {V : Type} (A : List (List ADir)) (bs : Nat) (nvec : Int → V) (gvec : Int → V) : Int → V :=
  insertAll (A.zipIdx.flatMap fun (a, r) => n2gRank (world A) bs a r) nvec gvec

/-- `IGAGlobalToNatural`, petigavec.c:310-320. -/
def globalToNatural {V : Type} (A : List (List ADir)) (bs : Nat) (gvec : Int → V) (nvec : Int → V) : Res (Int → V) := do
  let ps ← collect (A.map fun a => g2nRank (world A) bs a)
  .ok (insertAll ps gvec nvec)

/-- What `IGASetUp_Stage2` hands to the grid on all processes. -/
def appWorld {K : Type} [Field K] [LinearOrder K] [IsStrictOrderedRing K] (Ls : List (Layout K)) : List (List ADir) :=
  Ls.map fun L => L.dir.map adir

end PetIGA.Grid
