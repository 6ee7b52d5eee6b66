import Verif.Model.Layout
import Verif.Model.Quad
import Verif.Model.Span

/-!
Model of the life cycle of an `IGA` object: creation, setters, the three set-up stages, reset and clone
(src/petiga.c:32-152, 320-585, 603-668, 1111-1493, 1495-1565), together with `IGABasisInitCollocation`
(src/petigabasis.c:226-299).

Functions that return an error code and change the object are modelled as `IGA → … → Res Unit × IGA`: the second
component is the object as the call leaves it, also when it fails.
-/

namespace PetIGA.Quad
open PetIGA.Ax

variable {K : Type} [Field K] [LinearOrder K] [IsStrictOrderedRing K]

/-- The loop over the collocation points, petigabasis.c:264-273; a span search that does not end is `ub`. -/
def collocElems {V : Type} (cb : Int → K → V) (ax : Axis K) (shift : Int) : List Nat → Res (List (Elem K V))
  | [] => .ok []
  | inp :: rest =>
    let u := greville ((inp:Int) + shift) ax.p ax.U
    (Res.ofOption (findSpan (ax.m+1).toNat (ax.m - ax.p - 1) ax.p u ax.U)).bind fun k =>
      (collocElems cb ax shift rest).bind fun es =>
        .ok ({ offset := k - ax.p - shift, detJac := 1, weight := [1], point := [u], value := [some (cb k u)] } :: es)

/-- `IGABasisInitCollocation`, petigabasis.c:226-299. -/
def initCollocation {V : Type} (cb : Int → K → V) (bt : BasisType) (ax : Axis K) : Res (Basis K V) :=
  if bt ≠ .bspline then .err .outOfRange
  else
    let n := ax.m - ax.p - 1
    let shift := Int.tdiv (n + 1 - ax.nnp) 2
    (collocElems cb ax shift (List.range ax.nnp.toNat)).bind fun es =>
      .ok { nqp := 1, nen := ax.p + 1, elems := es, bnd := (cb ax.p (ax.U ax.p), cb n (ax.U (n+1))) }

end PetIGA.Quad

namespace PetIGA.SetUp
open PetIGA.Ax PetIGA.Lay PetIGA.Rule PetIGA.Quad PetIGA.Part

variable {K V : Type} [Field K] [LinearOrder K] [IsStrictOrderedRing K]

/-- What lies outside the object: the communicator, the floating point guesses of the automatic partition, the
one-dimensional basis kernels and `PETSC_MAX_REAL`. -/
structure World (K V : Type) where
  size : Int
  rank : Int
  g2 : Guess2
  g3 : Guess3
  /-- `IGA_Basis_BSpline`, `IGA_Basis_Lagrange`, `IGA_Basis_Spectral` (petigabasis.c:77-81, 166-175). -/
  kern : BasisType → Axis K → Int → K → V
  huge : K
  /-- Memory next to the two-entry knot array of an unconfigured axis. -/
  junk : Int → K

/-- Control points, weights and properties (`rational`, `rationalW`, `geometry`, `geometryX`, `property`,
`propertyA`); a null array is `none`, the length of a list is the allocated size.  Scalars are taken real. -/
structure Geo (K : Type) where
  rational : Bool
  W : Option (List K)
  nsd : Int
  X : Option (List K)
  npd : Int
  A : Option (List K)

/-- No geometry, petiga.c:120-126 and 1297-1302. -/
def Geo.none : Geo K := { rational := false, W := .none, nsd := 0, X := .none, npd := 0, A := .none }

/-- The IGA object.  `layout` stands for the `proc_ranks`, `elem_*`, `geom_*` and `node_*` arrays as the last complete
Stage 1 left them, `grid` for the numbering and scatter objects of Stage 2 (which depend on the layout and the number of
fields), `iter` for the initialised element iterator. -/
structure IGA (K V : Type) where
  colloc : Bool
  dim : Int
  dof : Int
  order : Int
  setup : Bool
  stage : Nat
  axes : List (Axis K)
  rules : List (Rule K)
  btypes : List BasisType
  bases : List (Option (Basis K V))
  procs : List Int
  layout : Option (Layout K)
  geo : Geo K
  fixtable : Option (List K)
  grid : Option (Int × Layout K)
  iter : Bool

/-- `IGACreate`, petiga.c:32-63. -/
def create (W : World K V) : IGA K V :=
  { colloc := false, dim := -1, dof := -1, order := -1, setup := false, stage := 0,
    axes := List.replicate 3 (Ax.create W.junk), rules := List.replicate 3 Rule.create,
    btypes := List.replicate 3 .bspline, bases := List.replicate 3 none, procs := List.replicate 3 (-1),
    layout := none, geo := Geo.none, fixtable := none, grid := none, iter := false }

/-- `IGASetDim`, petiga.c:320-331. -/
def setDim (s : IGA K V) (d : Int) : Res Unit × IGA K V :=
  if d < 1 ∨ d > 3 then (.err .outOfRange, s)
  else if s.dim > 0 ∧ s.dim ≠ d then (.err .wrongState, s)
  else (.ok (), { s with dim := d })

/-- `IGASetDof`, petiga.c:355-366. -/
def setDof (s : IGA K V) (n : Int) : Res Unit × IGA K V :=
  if n < 1 then (.err .outOfRange, s)
  else if s.dof > 0 ∧ s.dof ≠ n then (.err .wrongState, s)
  else (.ok (), { s with dof := n })

/-- `PetscClipInterval(order,1,4)`. -/
def clip (x : Int) : Int := if x < 1 then 1 else if x > 4 then 4 else x

/-- `IGASetOrder`, petiga.c:463-472. -/
def setOrder (s : IGA K V) (k : Int) : Res Unit × IGA K V :=
  if k < 0 then (.err .outOfRange, s) else (.ok (), { s with order := clip k })

/-- The index test of `IGAGetAxis`, `IGAGetRule`, `IGAGetBasis` and `IGASetProcessors`, petiga.c:559-560, 608-611. -/
def checkDir (s : IGA K V) (i : Int) : Res Nat :=
  if i < 0 then .err .outOfRange
  else if i ≥ (if s.dim > 0 then s.dim else 3) then .err .outOfRange
  else .ok i.toNat

/-- `IGASetBasisType`, petiga.c:483-498; `IGABasisSetType` (petigabasis.c:63-71) resets the tables. -/
def setBasisType (s : IGA K V) (i : Int) (t : BasisType) : Res Unit × IGA K V :=
  if s.colloc ∧ t ≠ .bspline then (.err .outOfRange, s)
  else match checkDir s i with
    | .ok k =>
      if s.btypes[k]? = some t then (.ok (), s)
      else (.ok (), { s with btypes := s.btypes.set k t, bases := s.bases.set k none, setup := false })
    | .err e => (.err e, s)
    | .ub => (.ub, s)

/-- Change the rule of direction `k`; the set-up flag is cleared when the rule call succeeds. -/
def ruleCall (s : IGA K V) (k : Nat) (r : Res Unit × Rule K) : Res Unit × IGA K V :=
  match r with
  | (.ok _, r') => (.ok (), { s with rules := s.rules.set k r', setup := false })
  | (e, r') => (e, { s with rules := s.rules.set k r' })

/-- `IGASetRuleType`, petiga.c:500-513. -/
def setRuleType (s : IGA K V) (i : Int) (t : RuleType) : Res Unit × IGA K V :=
  match checkDir s i with
  | .ok k => match s.rules[k]? with
    | some r => if r.type = t then (.ok (), s) else ruleCall s k (Rule.setType r t)
    | none => (.ub, s)
  | .err e => (.err e, s)
  | .ub => (.ub, s)

/-- `IGASetRuleSize`, petiga.c:515-528. -/
def setRuleSize (s : IGA K V) (i : Int) (q : Int) : Res Unit × IGA K V :=
  match checkDir s i with
  | .ok k => match s.rules[k]? with
    | some r => if r.nqp = q then (.ok (), s) else ruleCall s k (Rule.setSize r q)
    | none => (.ub, s)
  | .err e => (.err e, s)
  | .ub => (.ub, s)

/-- `IGASetQuadrature`, petiga.c:530-545 (`PETSC_DECIDE` is -1). -/
def setQuadrature (s : IGA K V) (i : Int) (q : Int) : Res Unit × IGA K V :=
  match checkDir s i with
  | .ok k => match s.rules[k]?, s.axes[k]? with
    | some r, some ax =>
      let q := if q = -1 ∧ ax.p > 0 then ax.p + 1 else q
      if q ≤ 0 then (.err .outOfRange, s)
      else if r.nqp = q then (.ok (), s) else ruleCall s k (Rule.setSize r q)
    | _, _ => (.ub, s)
  | .err e => (.err e, s)
  | .ub => (.ub, s)

/-- `prod`, petiga.c:566-569: the new entry times the other positive ones. -/
def procProd (procs : List Int) (dim : Nat) (k : Nat) (n : Int) : Int :=
  ((procs.set k n).take dim).foldl (fun a x => if x > 0 then a * x else a) 1

/-- `IGASetProcessors`, petiga.c:547-574. -/
def setProcessors (W : World K V) (s : IGA K V) (i : Int) (n : Int) : Res Unit × IGA K V :=
  if s.setup then (.err .wrongState, s)
  else match checkDir s i with
    | .ok k =>
      if n < 1 then (.err .outOfRange, s)
      else if Int.tmod W.size n ≠ 0 then (.err .outOfRange, s)
      else if Int.tmod W.size (procProd s.procs (if s.dim > 0 then s.dim else 3).toNat k n) ≠ 0 then (.err .outOfRange, s)
      else (.ok (), { s with procs := s.procs.set k n })
    | .err e => (.err e, s)
    | .ub => (.ub, s)

/-- `IGASetUseCollocation`, petiga.c:576-585. -/
def setCollocation (s : IGA K V) (b : Bool) : Res Unit × IGA K V :=
  if s.stage > 0 ∧ s.colloc ≠ b then (.err .wrongState, s) else (.ok (), { s with colloc := b })

/-- `IGAGetAxis`, petiga.c:603-614, followed by a call on the axis (which cannot touch the IGA). -/
def axisCall (s : IGA K V) (i : Int) (f : Axis K → Res Unit × Axis K) : Res Unit × IGA K V :=
  match checkDir s i with
  | .ok k => match s.axes[k]? with
    | some ax => ((f ax).1, { s with axes := s.axes.set k (f ax).2 })
    | none => (.ub, s)
  | .err e => (.err e, s)
  | .ub => (.ub, s)

/-- `IGASetUp_Stage1`, petiga.c:1111-1310.  Simplified: when the stage fails, the axes and the processor grid are kept as
they were (the code may have updated `nnp` of some axes, and `proc_sizes` of the failed grid). -/
def stage1 (W : World K V) (s : IGA K V) : Res Unit × IGA K V :=
  if s.stage ≥ 1 then (.ok (), s)
  else
    let d := s.dim.toNat
    match Lay.stage1 W.g2 W.g3 s.colloc W.size W.rank (s.procs.take d) (s.axes.take d) with
    | .ok L => (.ok (), { s with
        stage := 1, axes := L.axes ++ List.replicate (3 - d) (Ax.create W.junk),
        procs := L.procs ++ List.replicate (3 - d) 1, layout := some L, geo := Geo.none, fixtable := none })
    | .err e => (.err e, { s with stage := 1 })
    | .ub => (.ub, { s with stage := 1 })

/-- `IGASetUp_Stage2`, petiga.c:1313-1374.  The PETSc objects are determined by the layout and the number of fields
(models in `Verif.Model.Grid`); without a layout the node arrays are zero, which `IGA_Grid_Init` accepts. -/
def stage2 (s : IGA K V) : Res Unit × IGA K V :=
  if s.stage ≥ 2 then (.ok (), s)
  else
    let dof := if s.dof < 1 then 1 else s.dof
    (.ok (), { s with stage := 2, dof := dof, grid := s.layout.map fun L => (dof, L) })

/-- `iga->order = PetscMax(iga->order,iga->axis[i]->p)` over the directions, then `IGASetOrder`, petiga.c:1472-1476. -/
def defaultOrder (s : IGA K V) : Res Unit × IGA K V :=
  if s.order < 0 then
    setOrder { s with order := (s.axes.take s.dim.toNat).foldl (fun o ax => max o ax.p) s.order }
      ((s.axes.take s.dim.toNat).foldl (fun o ax => max o ax.p) s.order)
  else (.ok (), s)

/-- Rule and tables of direction `i`, the body of the loop petiga.c:1478-1486. -/
def initDir (W : World K V) (i : Nat) (s : IGA K V) : Res Unit × IGA K V :=
  match s.axes[i]?, s.rules[i]?, s.btypes[i]? with
  | some ax, some r, some bt =>
    if s.colloc then
      let s := { s with rules := s.rules.set i (Rule.reset r) }
      match Quad.initCollocation (W.kern bt ax) bt ax with
      | .ok b => (.ok (), { s with bases := s.bases.set i (some b) })
      | .err e => (.err e, s)
      | .ub => (.ub, s)
    else
      let r := if s.dim ≤ i then (Rule.setType (Rule.reset r) .legendre).2 else r
      match Quad.initQuadrature (W.kern bt ax) W.huge bt ax r with
      | (.ok _, r', some b) => (.ok (), { s with rules := s.rules.set i r', bases := s.bases.set i (some b) })
      | (.ok _, r', none) => (.ub, { s with rules := s.rules.set i r' })
      | (e, r', _) => (e, { s with rules := s.rules.set i r' })
  | _, _, _ => (.ub, s)

/-- `CHKERRQ`: continue with the next step unless this one failed. -/
def andThen (r : Res Unit × IGA K V) (f : IGA K V → Res Unit × IGA K V) : Res Unit × IGA K V :=
  match r with
  | (.ok _, s) => f s
  | r => r

/-- Stage 3 of `IGASetUp`, petiga.c:1469-1488. -/
def stage3 (W : World K V) (s : IGA K V) : Res Unit × IGA K V :=
  andThen (defaultOrder { s with stage := 3 }) fun s =>
  andThen (initDir W 0 s) fun s =>
  andThen (initDir W 1 s) fun s =>
  andThen (initDir W 2 s) fun s =>
  (.ok (), { s with iter := true })

/-- `IGASetUp`, petiga.c:1450-1493. -/
def setUp (W : World K V) (s : IGA K V) : Res Unit × IGA K V :=
  if s.setup then (.ok (), s)
  else if s.dim < 1 then (.err .wrongState, s)
  else
    andThen (stage1 W { s with setup := true }) fun s =>
    andThen (stage2 s) fun s =>
    stage3 W s

/-- `IGAReset`, petiga.c:111-152. -/
def reset (s : IGA K V) : Res Unit × IGA K V :=
  (.ok (), { s with setup := false, stage := 0, geo := Geo.none, fixtable := none, grid := none, iter := false })

/-- Entries of the ghosted geometry box, `n` of petiga.c:1535-1537. -/
def geoCount (L : Layout K) : Nat := (L.dir.foldl (fun a (d : Dir) => a * d.geomGwidth) 1).toNat

/-- `IGALoadGeometry`/`IGASetGeometryDim`/`IGALoadProperty` and the fix table (petigaio.c:174-520, petigaform.c:273-296) as
seen from the object: the arrays are allocated for the ghosted geometry box.  Calls with other lengths do not exist in the
code and are ignored. -/
def setGeo (s : IGA K V) (g : Geo K) (fx : Option (List K)) : Res Unit × IGA K V :=
  match s.layout with
  | some L =>
    if 1 ≤ s.stage ∧ (∀ w, g.W = some w → w.length = geoCount L) ∧ (∀ x, g.X = some x → x.length = geoCount L * g.nsd.toNat)
      ∧ (∀ a, g.A = some a → a.length = geoCount L * g.npd.toNat) then (.ok (), { s with geo := g, fixtable := fx })
    else (.err .wrongState, s)
  | none => (.err .wrongState, s)

/-- `PetscMemcpy` of `n` entries; the source must be that long. -/
def copyN (n : Nat) (l : List K) : Res (List K) := if n ≤ l.length then .ok (l.take n) else .ub

/-- The three guarded array copies of `IGAClone`, petiga.c:1538-1555. -/
def cloneGeo (L : Layout K) (g : Geo K) : Res (Geo K) :=
  let n := geoCount L
  let g0 : Geo K := Geo.none
  (match g.rational, g.W with
   | true, some w => (copyN n w).bind fun w' => .ok { g0 with rational := true, W := some w' }
   | _, _ => .ok g0).bind fun g1 =>
  (match g.X with
   | some x => if g.nsd ≠ 0 then (copyN (n * g.nsd.toNat) x).bind fun x' => .ok { g1 with nsd := g.nsd, X := some x' } else .ok g1
   | none => .ok g1).bind fun g2 =>
  (match g.A with
   | some a => if g.npd ≠ 0 then (copyN (n * g.npd.toNat) a).bind fun a' => .ok { g2 with npd := g.npd, A := some a' } else .ok g2
   | none => .ok g2)

/-- `IGAAxisCopy`, petigaaxis.c:96-120, of distinct axes (knots copied up to index `m`; the memory beyond is `junk`). -/
def copyAxis (junk : Int → K) (ax : Axis K) : Axis K :=
  { ax with U := fun i => if 0 ≤ i ∧ i ≤ ax.m then ax.U i else junk i }

/-- `IGAClone`, petiga.c:1495-1565. -/
def clone (W : World K V) (s : IGA K V) (dof : Int) : Res (IGA K V) :=
  if ¬ s.setup then .err .wrongState
  else
    match s.layout with
    | none => .ub
    | some L =>
      (cloneGeo L s.geo).bind fun g =>
      let c : IGA K V := { create W with
        colloc := s.colloc, dim := s.dim, axes := s.axes.map (copyAxis W.junk),
        rules := s.rules.map fun r => Rule.copy r Rule.create, btypes := s.btypes, procs := s.procs,
        layout := some L, stage := 1, geo := g, dof := if dof > 0 then dof else s.dof }
      match andThen (stage2 c) fun c => setUp W { c with order := s.order } with
      | (.ok _, c) => .ok c
      | (.err e, _) => .err e
      | (.ub, _) => .ub

/-- The calls of a program on one IGA object. -/
inductive Op (K V : Type) where
  | setDim (d : Int) | setDof (n : Int) | setOrder (k : Int)
  | setBasisType (i : Int) (t : BasisType) | setRuleType (i : Int) (t : RuleType)
  | setRuleSize (i q : Int) | setQuadrature (i q : Int) | setProcessors (i n : Int) | setCollocation (b : Bool)
  | axis (i : Int) (f : Axis K → Res Unit × Axis K)
  | setGeo (g : Geo K) (fx : Option (List K))
  | setUp | reset

/-- One call. -/
def step (W : World K V) (s : IGA K V) : Op K V → Res Unit × IGA K V
  | .setDim d => setDim s d
  | .setDof n => setDof s n
  | .setOrder k => setOrder s k
  | .setBasisType i t => setBasisType s i t
  | .setRuleType i t => setRuleType s i t
  | .setRuleSize i q => setRuleSize s i q
  | .setQuadrature i q => setQuadrature s i q
  | .setProcessors i n => setProcessors W s i n
  | .setCollocation b => setCollocation s b
  | .axis i f => axisCall s i f
  | .setGeo g fx => setGeo s g fx
  | .setUp => setUp W s
  | .reset => reset s

/-- A history. -/
def run (W : World K V) (s : IGA K V) (ops : List (Op K V)) : IGA K V := ops.foldl (fun s o => (step W s o).2) s

end PetIGA.SetUp
