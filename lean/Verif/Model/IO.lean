import Verif.Model.SetUp
import Verif.Model.Grid

/-!
Model of src/petigaio.c: `IGASave`, `IGALoad`, the geometry and property arrays, and the vector files
(`IGASaveVec`, `IGALoadVec`, also called by `IGAWrite`, `IGARead`, `IGAWriteVec`, `IGAReadVec`).

A binary file is a list of integers and reals in the order in which they are written (`PetscViewerBinaryWrite/Read`,
`VecView`, `VecLoad`: contracts of PETSc, trusted: what was written is read back).  Reading the wrong kind of entry
is `ub`, reading past the end an error.  Scalars are real.
-/

namespace PetIGA.IO
open PetIGA.Ax PetIGA.Lay PetIGA.Grid

variable {K V : Type} [Field K] [LinearOrder K] [IsStrictOrderedRing K]

/-- One entry of a binary file. -/
inductive Tok (K : Type) where
  | int (i : Int)
  | num (x : K)

/-- A binary file (from the current position to the end). -/
abbrev File (K : Type) := List (Tok K)

/-- `PetscViewerBinaryRead(viewer,&i,1,NULL,PETSC_INT)`. -/
def readInt : File K → Res (Int × File K)
  | .int i :: f => .ok (i, f)
  | .num _ :: _ => .ub
  | [] => .err .lib

/-- `PetscViewerBinaryRead(viewer,a,n,NULL,PETSC_REAL)`. -/
def readNums : Nat → File K → Res (List K × File K)
  | 0, f => .ok ([], f)
  | n+1, .num x :: f => (readNums n f).bind fun r => .ok (x :: r.1, r.2)
  | _+1, .int _ :: _ => .ub
  | _+1, [] => .err .lib

/-- `IGA_FILE_CLASSID`, include/petiga.h:394. -/
def igaClassid : Int := 1211299
/-- `VEC_FILE_CLASSID` of PETSc. -/
def vecClassid : Int := 1211214

/-- `VecView` of a vector with `n` entries on a binary viewer (header unless the viewer skips headers). -/
def vecView (skip : Bool) (n : Nat) (v : Int → K) : File K :=
  (if skip then [] else [.int vecClassid, .int n]) ++ (List.range n).map fun (k : Nat) => .num (v k)

/-- `VecLoad` into a vector with `n` entries, and `VecLoad_Binary_SkipHeader` (petigaio.c:599-642: rank 0 reads the blocks
of all ranks in rank order and sends each to its rank). -/
def vecLoad (skip : Bool) (n : Nat) (f : File K) : Res (List K × File K) :=
  if skip then readNums n f
  else
    (readInt f).bind fun a =>
    (check (a.1 = vecClassid) .wrong).bind fun _ =>
    (readInt a.2).bind fun b =>
    (check (b.1 = n) .fileUnexpected).bind fun _ =>
    readNums n b.2

/-! ### The grid of control points -/

/-- The arguments of `IGA_Grid_Init` in `IGA_NewGridIO`, petigaio.c:141-159. -/
def iodir (d : Dir) : GDir := ⟨d.geomSize, d.geomLstart, d.geomLwidth, d.geomGstart, d.geomGwidth⟩

/-- The grids of all processes. -/
def ioWorld (Ls : List (Layout K)) : Grid.World := Ls.map fun L => L.dir.map iodir

/-- Index pairs (global, natural) of `IGA_Grid_GetScatterG2N`, petigagrid.c:387-409. -/
def g2n (W : Grid.World) (bs : Nat) : List (Int × Int) :=
  W.zipIdx.flatMap fun (g, r) =>
    (strideIS ((localIndices 1 g).length * bs) (bs * offset W r)).zip (blockIS bs (localIndices 1 g))

/-- Global size of the vectors of a grid, `bs*sizes[0]*sizes[1]*sizes[2]`, petigagrid.c:289-294 (the sizes of rank 0; all
ranks have the same). -/
def vecSize (W : Grid.World) (bs : Nat) : Nat := ((bs:Int) * ((sizes (W.headD [])).foldl (· * ·) 1)).toNat

/-- Local vectors from one list per process. -/
def localOf (loc : List (List K)) : Nat × Int → K := fun q => ((loc[q.1]?).getD []).getD q.2.toNat 0

/-- local -> global -> natural -> viewer, petigaio.c:340-347 and 504-511.  `mem` is the previous content of the vectors. -/
def put (skip : Bool) (mem : Int → K) (W : Grid.World) (bs : Nat) (lvec : Nat × Int → K) : Res (File K) :=
  (localToGlobalInsert W bs lvec mem).bind fun gvec =>
  .ok (vecView skip (vecSize W bs) (insertAll (g2n W bs) gvec mem))

/-- viewer -> natural -> global -> local, petigaio.c:240-251 and 431-442; also returns the global vector. -/
def get (skip : Bool) (mem : Int → K) (W : Grid.World) (bs : Nat) (f : File K) :
    Res (((Int → K) × (Nat × Int → K)) × File K) :=
  (vecLoad skip (vecSize W bs) f).bind fun r =>
  let nvec : Int → K := fun i => r.1.getD i.toNat 0
  let gvec := insertAll (Grid.reverse (g2n W bs)) nvec mem
  .ok ((gvec, globalToLocal W bs gvec fun q => mem q.2), r.2)

/-! ### Geometry and property arrays -/

/-- `IGASetGeometryDim`, petigaio.c:174-190; `dim` is `iga->dim`. -/
def setGeometryDim (dim : Int) (g : SetUp.Geo K) (d : Int) : Res (SetUp.Geo K) :=
  if d < 1 ∨ d > 3 then .err .outOfRange
  else if d < dim then .err .outOfRange
  else if g.nsd = d then .ok g
  else .ok { g with nsd := d, rational := false, X := none, W := none }

/-- `IGASetPropertyDim`, petigaio.c:371-382. -/
def setPropertyDim (g : SetUp.Geo K) (d : Int) : Res (SetUp.Geo K) :=
  if d < 0 then .err .outOfRange
  else if g.npd = d then .ok g
  else .ok { g with npd := d, A := none }

/-- The local vector with homogeneous coordinates, petigaio.c:322-339: `n` control points; reading beyond an array is
`ub`. -/
def homog (nsd n : Nat) (X : List K) (W : Option (List K)) : Res (List K) :=
  match W with
  | some w =>
    if n * nsd ≤ X.length ∧ n ≤ w.length then
      .ok ((List.range n).flatMap fun (a : Nat) => (List.range (nsd+1)).map fun (i : Nat) =>
        let wa := if |w.getD a 0| > 0 then w.getD a 0 else 1
        if i < nsd then X.getD (i + a*nsd) 0 * wa else w.getD a 0)
    else .ub
  | none =>
    if n * nsd ≤ X.length then
      .ok ((List.range n).flatMap fun (a : Nat) => (List.range (nsd+1)).map fun (i : Nat) =>
        if i < nsd then X.getD (i + a*nsd) 0 * 1 else 1)
    else .ub

/-- The control points stored by the loop petigaio.c:268-276: `xw` is the local vector. -/
def dehomogX (nsd n : Nat) (xw : Int → K) : List K :=
  (List.range n).flatMap fun (a : Nat) => (List.range nsd).map fun (i : Nat) =>
    let w := xw (((nsd+1 : Nat) : Int) * (a:Int) + nsd)
    if |w| > 0 then xw (((nsd+1 : Nat) : Int) * (a:Int) + i) / w else xw (((nsd+1 : Nat) : Int) * (a:Int) + i)

/-- The weights stored by the loop petigaio.c:268-276. -/
def dehomogW (nsd n : Nat) (xw : Int → K) : List K :=
  (List.range n).map fun (a : Nat) => xw (((nsd+1 : Nat) : Int) * (a:Int) + nsd)

/-- `VecStrideMax(vec,start,NULL,&v)`: the largest of the entries `start, start+bs, …` (trusted). -/
def strideMax (N bs start : Nat) (v : Int → K) : K :=
  (List.range N).foldl (fun (a : K) (k : Nat) => max a (v ((bs:Int) * k + start))) (v start)
/-- `VecStrideMin`. -/
def strideMin (N bs start : Nat) (v : Int → K) : K :=
  (List.range N).foldl (fun (a : K) (k : Nat) => min a (v ((bs:Int) * k + start))) (v start)

/-- One computation per process; the first failure is the outcome. -/
def mapRes {α β : Type} (f : α → Res β) : List α → Res (List β)
  | [] => .ok []
  | a :: l => (f a).bind fun b => (mapRes f l).bind fun bs => .ok (b :: bs)

/-- The part of the object of one process used here: the layout of Stage 1 and the arrays. -/
abbrev Piece (K : Type) := Layout K × SetUp.Geo K

/-- The checks and the local vector of one process in `IGASaveGeometry`, petigaio.c:303-337. -/
def localHomog (nsd : Nat) (q : Piece K) : Res (List K) :=
  match q.2.X with
  | some X => if nsd = 0 then .err .wrongState else homog nsd (SetUp.geoCount q.1) X q.2.W
  | none => .err .wrongState

/-- `IGASaveGeometry`, petigaio.c:288-356; `nsd` is the geometry dimension of all processes. -/
def saveGeometry (skip : Bool) (mem : Int → K) (nsd : Nat) (ps : List (Piece K)) : Res (File K) :=
  (mapRes (localHomog nsd) ps).bind fun loc =>
  put skip mem (ioWorld (ps.map Prod.fst)) (nsd+1) (localOf loc)

/-- `IGALoadGeometry`, petigaio.c:201-286; `tol` is `100*PETSC_MACHINE_EPSILON`. -/
def loadGeometry (skip : Bool) (mem : Int → K) (tol : K) (nsd : Nat) (ps : List (Piece K)) (f : File K) :
    Res (List (Piece K) × File K) :=
  if nsd < 1 then .err .wrongState
  else
    let W := ioWorld (ps.map Prod.fst)
    (get skip mem W (nsd+1) f).bind fun r =>
    let N := vecSize W 1
    let rational := decide (strideMax N (nsd+1) nsd r.1.1 - strideMin N (nsd+1) nsd r.1.1 > tol)
    .ok (ps.zipIdx.map fun (q, rk) =>
      (q.1, { q.2 with
        rational := rational,
        X := some (dehomogX nsd (SetUp.geoCount q.1) fun k => r.1.2 (rk, k)),
        W := some (dehomogW nsd (SetUp.geoCount q.1) fun k => r.1.2 (rk, k)) }), r.2)

/-- The checks and the local vector of one process in `IGASaveProperty`, petigaio.c:465-503. -/
def localProp (npd : Nat) (q : Piece K) : Res (List K) :=
  if npd = 0 then .err .wrongState
  else match q.2.A with
    | some A => SetUp.copyN (SetUp.geoCount q.1 * npd) A
    | none => .ub

/-- `IGASaveProperty`, petigaio.c:452-520: copying from a null or shorter array is `ub`. -/
def saveProperty (skip : Bool) (mem : Int → K) (npd : Nat) (ps : List (Piece K)) : Res (File K) :=
  (mapRes (localProp npd) ps).bind fun loc =>
  put skip mem (ioWorld (ps.map Prod.fst)) npd (localOf loc)

/-- `IGALoadProperty`, petigaio.c:393-450. -/
def loadProperty (skip : Bool) (mem : Int → K) (npd : Nat) (ps : List (Piece K)) (f : File K) :
    Res (List (Piece K) × File K) :=
  if npd < 1 then .err .wrongState
  else
    (get skip mem (ioWorld (ps.map Prod.fst)) npd f).bind fun r =>
    .ok (ps.zipIdx.map fun (q, rk) =>
      (q.1, { q.2 with A := some ((List.range (SetUp.geoCount q.1 * npd)).map fun (k : Nat) => r.1.2 (rk, (k:Int))) }), r.2)

/-! ### The whole object -/

/-- What lies outside the object, for all processes of the communicator. -/
structure Env (K V : Type) where
  size : Nat
  g2 : PetIGA.Part.Guess2
  g3 : PetIGA.Part.Guess3
  kern : Quad.BasisType → Axis K → Int → K → V
  huge : K
  /-- memory next to arrays of knots -/
  junk : Int → K
  /-- previous content of work vectors -/
  mem : Int → K
  /-- `100*PETSC_MACHINE_EPSILON` -/
  tol : K
  /-- `PetscViewerBinaryGetSkipHeader` -/
  skip : Bool

/-- The same, seen from rank `r`. -/
def Env.world (E : Env K V) (r : Nat) : SetUp.World K V :=
  { size := E.size, rank := r, g2 := E.g2, g3 := E.g3, kern := E.kern, huge := E.huge, junk := E.junk }

/-- The numbers written for one axis, petigaio.c:112-121. -/
def axisToks (ax : Axis K) : File K :=
  [.int ax.p, .int (ax.m+1)] ++ (List.range (ax.m+1).toNat).map fun (k : Nat) => .num (ax.U k)

/-- Everything `IGASave` writes before the geometry, petigaio.c:98-123. -/
def headToks (skip : Bool) (s : SetUp.IGA K V) : File K :=
  (if skip then [] else [.int igaClassid]) ++
  [.int ((if s.geo.nsd ≠ 0 then 1 else 0) + (if s.geo.npd ≠ 0 then 2 else 0)), .int s.dim] ++
  (s.axes.take s.dim.toNat).flatMap axisToks

/-- The layouts and arrays of all processes. -/
def parts (ss : List (SetUp.IGA K V)) : Res (List (Piece K)) :=
  mapRes (fun s : SetUp.IGA K V => match s.layout with
    | some L => .ok (L, s.geo)
    | none => .ub) ss

/-- Write the geometry (`IGASaveGeometry` preceded by its dimension, petigaio.c:124-129). -/
def saveGeoPart (E : Env K V) (s : SetUp.IGA K V) (ps : List (Piece K)) (f : File K) : Res Unit × File K :=
  if s.geo.nsd ≠ 0 then
    match saveGeometry E.skip E.mem s.geo.nsd.toNat ps with
    | .ok g => (.ok (), f ++ .int s.geo.nsd :: g)
    | .err e => (.err e, f ++ [.int s.geo.nsd])
    | .ub => (.ub, f ++ [.int s.geo.nsd])
  else (.ok (), f)

/-- Write the properties, petigaio.c:130-135. -/
def savePropPart (E : Env K V) (s : SetUp.IGA K V) (ps : List (Piece K)) (f : File K) : Res Unit × File K :=
  if s.geo.npd ≠ 0 then
    match saveProperty E.skip E.mem s.geo.npd.toNat ps with
    | .ok g => (.ok (), f ++ .int s.geo.npd :: g)
    | .err e => (.err e, f ++ [.int s.geo.npd])
    | .ub => (.ub, f ++ [.int s.geo.npd])
  else (.ok (), f)

/-- `IGASave`, petigaio.c:75-139, by all processes on a binary viewer: outcome and file.  Integers and knots are those of
rank 0.  The check of the set-up stage is that of a debug build (include/petiga.h:916-924). -/
def save (E : Env K V) (ss : List (SetUp.IGA K V)) : Res Unit × File K :=
  match ss.head? with
  | none => (.ub, [])
  | some s =>
    if s.stage < 2 then (.err .wrongState, [])
    else match parts ss with
      | .ok ps =>
        match saveGeoPart E s ps (headToks E.skip s) with
        | (.ok _, f) => savePropPart E s ps f
        | r => r
      | .err e => (.err e, [])
      | .ub => (.ub, [])

/-- The knots read from the file: `m` numbers followed by other memory. -/
def knotsOf (junk : Int → K) (l : List K) : Int → K :=
  fun i => if 0 ≤ i ∧ i < l.length then l.getD i.toNat 0 else junk i

/-- `ierr = f(); CHKERRQ(ierr);` for a read that leaves the object alone. -/
def onRead {α β : Type} (r : Res α) (s : SetUp.IGA K V) (k : α → Res β × SetUp.IGA K V) : Res β × SetUp.IGA K V :=
  match r with
  | .ok a => k a
  | .err e => (.err e, s)
  | .ub => (.ub, s)

/-- `ierr = f(iga); CHKERRQ(ierr);` -/
def onCall {β : Type} (r : Res Unit × SetUp.IGA K V) (k : SetUp.IGA K V → Res β × SetUp.IGA K V) : Res β × SetUp.IGA K V :=
  match r with
  | (.ok _, s) => k s
  | (.err e, s) => (.err e, s)
  | (.ub, s) => (.ub, s)

/-- The loop over the axes, petigaio.c:45-57: `n` directions left, the next one is `i`.  A negative count is refused by
`PetscMalloc1`. -/
def loadAxes (junk : Int → K) : Nat → Nat → SetUp.IGA K V → File K → Res (File K) × SetUp.IGA K V
  | 0, _, s, f => (.ok f, s)
  | n+1, i, s, f =>
    onRead (readInt f) s fun a =>
    onRead (readInt a.2) s fun b =>
    onRead (check (0 ≤ b.1) .lib) s fun _ =>
    onRead (readNums b.1.toNat b.2) s fun c =>
    onCall (SetUp.axisCall s i fun ax => Ax.init ax a.1 (b.1-1) (knotsOf junk c.1)) fun s =>
    loadAxes junk n (i+1) s c.2

/-- `IGASetUp_Basic`, petiga.c:1378-1386. -/
def setUpBasic (W : SetUp.World K V) (s : SetUp.IGA K V) : Res Unit × SetUp.IGA K V :=
  if s.dim < 1 then (.err .wrongState, s) else SetUp.stage1 W s

/-- The class id check, petigaio.c:29-33. -/
def readClassid (skip : Bool) (f : File K) : Res (File K) :=
  if skip then .ok f
  else (readInt f).bind fun a => (check (a.1 = igaClassid) .wrong).bind fun _ => .ok a.2

/-- `IGALoad` up to the geometry, petigaio.c:29-59, on one process: whether the file has a geometry and properties, and the
rest of the file. -/
def loadHead (skip : Bool) (W : SetUp.World K V) (s : SetUp.IGA K V) (f : File K) :
    Res ((Bool × Bool) × File K) × SetUp.IGA K V :=
  onRead (readClassid skip f) s fun f =>
  onRead (readInt f) s fun info =>
  onCall (SetUp.reset s) fun s =>
  onRead (readInt info.2) s fun dim =>
  onCall (SetUp.setDim s dim.1) fun s =>
  match loadAxes W.junk dim.1.toNat 0 s dim.2 with
  | (.ok f, s) =>
    onCall (setUpBasic W s) fun s => (.ok ((decide (info.1 % 2 = 1), decide (info.1 / 2 % 2 = 1)), f), s)
  | (.err e, s) => (.err e, s)
  | (.ub, s) => (.ub, s)

/-- Geometry of the file, petigaio.c:60-65. -/
def loadGeoPart (E : Env K V) (dim : Int) (has : Bool) (ps : List (Piece K)) (f : File K) : Res (List (Piece K) × File K) :=
  if has then
    (readInt f).bind fun d =>
    (mapRes (fun (q : Piece K) => (setGeometryDim dim q.2 d.1).bind fun g => .ok (q.1, g)) ps).bind fun ps =>
    loadGeometry E.skip E.mem E.tol d.1.toNat ps d.2
  else .ok (ps, f)

/-- Properties of the file, petigaio.c:66-71. -/
def loadPropPart (E : Env K V) (has : Bool) (ps : List (Piece K)) (f : File K) : Res (List (Piece K) × File K) :=
  if has then
    (readInt f).bind fun d =>
    (mapRes (fun (q : Piece K) => (setPropertyDim q.2 d.1).bind fun g => .ok (q.1, g)) ps).bind fun ps =>
    loadProperty E.skip E.mem d.1.toNat ps d.2
  else .ok (ps, f)

/-- `loadHead` by every process: the outcome of the first failing process, or the (common) result. -/
def loadHeads (E : Env K V) (ss : List (SetUp.IGA K V)) (f : File K) :
    Res (List (((Bool × Bool) × File K) × SetUp.IGA K V)) :=
  mapRes (fun (q : SetUp.IGA K V × Nat) => match loadHead E.skip (E.world q.2) q.1 f with
    | (.ok r, s) => .ok (r, s)
    | (.err e, _) => .err e
    | (.ub, _) => .ub) ss.zipIdx

/-- `IGALoad`, petigaio.c:11-73, by all processes (the objects are not described when it fails, for one process see
`loadHead`). -/
def load (E : Env K V) (ss : List (SetUp.IGA K V)) (f : File K) : Res (List (SetUp.IGA K V)) :=
  (loadHeads E ss f).bind fun rs =>
  match rs.head? with
  | none => .ub
  | some ((info, rest), s) =>
    (parts (rs.map Prod.snd)).bind fun ps =>
    (loadGeoPart E s.dim info.1 ps rest).bind fun r1 =>
    (loadPropPart E info.2 r1.1 r1.2).bind fun r2 =>
    .ok (List.zipWith (fun (q : ((Bool × Bool) × File K) × SetUp.IGA K V) (p : Piece K) => { q.2 with geo := p.2 }) rs r2.1)

/-! ### Vector files -/

/-- Size of the natural vector, `bs*sizes[0]*sizes[1]*sizes[2]`, petigagrid.c:493-499 (the sizes of rank 0; all ranks have
the same). -/
def natSize (A : List (List ADir)) (bs : Nat) : Nat := ((bs:Int) * (((A.headD []).map ADir.size).foldl (· * ·) 1)).toNat

/-- `IGASaveVec`, petigaio.c:665-683; `mem` is the previous content of the natural vector. -/
def saveVec (skip : Bool) (mem : Int → K) (A : List (List ADir)) (bs : Nat) (vec : Int → K) : Res (File K) :=
  (globalToNatural A bs vec mem).bind fun nvec => .ok (vecView skip (natSize A bs) nvec)

/-- `IGALoadVec`, petigaio.c:644-663; `vec` is the previous content of the vector. -/
def loadVec (skip : Bool) (A : List (List ADir)) (bs : Nat) (vec : Int → K) (f : File K) : Res ((Int → K) × File K) :=
  (vecLoad skip (natSize A bs) f).bind fun r => .ok (naturalToGlobal A bs (fun i => r.1.getD i.toNat 0) vec, r.2)

end PetIGA.IO
