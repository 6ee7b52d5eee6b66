import Verif.Model.Elem
import Verif.Model.Grid
import Verif.Model.Point
/-
Model of the element loops that assemble global objects: `IGAComputeVector`, `IGAComputeMatrix` (src/petigaksp.c:33-117),
`IGAComputeSystem` (src/petigaksp.c:146-199), `IGAComputeFunction`, `IGAComputeJacobian` (src/petigasnes.c:23-139) and the
loops of src/petigats.c, which differ only in what they evaluate on an element, and of `IGAComputeScalar`
(src/petigacomp.c:35-90).

What is evaluated on one element (work arrays, boundary values, form loop, point loop, callbacks) is a function `form` of
the process, the element and the element values gathered by `IGAElementGetValues`, which may fail; Model/Driver.lean and
Model/GlobalDriver.lean model it.  A loop that takes several vectors gathers them alike: `W` is then a product.  Sums are
exact.
-/
namespace PetIGA.Asm
open PetIGA.Ax PetIGA.Lay PetIGA.Elem PetIGA.Grid

variable {K : Type} [Field K] [LinearOrder K] [IsStrictOrderedRing K]

/-- Per direction data of element `x` used by `IGAElementBuildClosure`: `nen = p+1`, `offset[x]` is `span[x]-p`
(`IGABasisInitQuadrature`, src/petigabasis.c:187-194) or `k-p-shift` with `k` the span of the Greville point `x+shift`
(`IGABasisInitCollocation`, src/petigabasis.c:245-270). -/
def cdir (colloc : Bool) (ax : Axis K) (d : Dir) (x : Int) : Res CDir :=
  (if colloc then grevSpan ax (x + d.nodeShift) else spanAt ax x).bind fun k =>
    .ok ⟨(ax.p + 1).toNat, k - ax.p - d.nodeShift, x, d.nodeGstart, d.nodeGwidth⟩

/-- All directions of an element. -/
def cdirs (colloc : Bool) : List (Axis K) → List Dir → List Int → Res (List CDir)
  | [], [], [] => .ok []
  | ax :: axs, d :: ds, x :: xs =>
    (cdir colloc ax d x).bind fun c => (cdirs colloc axs ds xs).bind fun cs => .ok (c :: cs)
  | _, _, _ => .ub

/-- Data of a direction beyond `dim`: one basis function, one node. -/
def cpad : CDir := ⟨1, 0, 0, 0, 1⟩

/-- `element->mapping` for one, two or three directions, src/petigaelem.c:692-721. -/
def mapping : List CDir → Res (List Int)
  | [a] => .ok (closure a cpad cpad)
  | [a, b] => .ok (closure a b cpad)
  | [a, b, c] => .ok (closure a b c)
  | _ => .ub

/-- `element->rowmap`: the mapping itself, or the single collocation row, src/petigaelem.c:172-190, 722-727. -/
def rows (colloc : Bool) (cds : List CDir) : Res (List Int) :=
  if colloc then
    match cds with
    | [a] => .ok [rowmap a cpad cpad]
    | [a, b] => .ok [rowmap a b cpad]
    | [a, b, c] => .ok [rowmap a b c]
    | _ => .ub
  else mapping cds

/-- `IGAElementGetValues`, src/petigaelem.c:1087-1094. -/
def getValues {V : Type} (dof : Nat) (map : List Int) (arrayU : Int → V) : List V :=
  map.flatMap fun m => (List.range dof).map fun (i : Nat) => arrayU (m * dof + i)

/-- Look up the local-to-global mapping; an index outside is an error of `ISLocalToGlobalMappingApply`. -/
def lookup (lg : List Int) (i : Int) : Res Int :=
  if i < 0 then .err .outOfRange else
  match lg[i.toNat]? with
  | some g => .ok g
  | none => .err .outOfRange

/-- Global indices of local ones. -/
def lookupAll (lg : List Int) : List Int → Res (List Int)
  | [] => .ok []
  | i :: is => (lookup lg i).bind fun g => (lookupAll lg is).bind fun gs => .ok (g :: gs)

/-- `IGAElementAssembleVec`, src/petigaelem.c:1525-1540: `VecSetValuesBlockedLocal(vec,mm,ii,F,ADD_VALUES)` adds
`F[a*dof+c]` to the entry `dof*lg[ii[a]]+c` (contract of PETSc); the model returns the (index, value) pairs. -/
def addVec {V : Type} (lg : List Int) (dof : Nat) (ii : List Int) (F : Nat → V) : Res (List (Int × V)) :=
  (lookupAll lg ii).bind fun gs =>
    .ok (gs.zipIdx.flatMap fun ga => (List.range dof).map fun (c : Nat) => ((dof:Int) * ga.1 + c, F (ga.2 * dof + c)))

/-- `IGAElementAssembleMat`, src/petigaelem.c:1542-1559: `MatSetValuesBlockedLocal(mat,mm,ii,nn,jj,K,ADD_VALUES)` adds
entry `(a*dof+c, b*dof+d)` of the row-oriented `mm*dof × nn*dof` array `K` to the entry
`(dof*lg[ii[a]]+c, dof*lg[jj[b]]+d)` (contract of PETSc). -/
def addMat {V : Type} (lg : List Int) (dof : Nat) (ii jj : List Int) (A : Nat → V) : Res (List ((Int × Int) × V)) :=
  (lookupAll lg ii).bind fun gs => (lookupAll lg jj).bind fun hs =>
    .ok (gs.zipIdx.flatMap fun ga => (List.range dof).flatMap fun (c : Nat) =>
      hs.zipIdx.flatMap fun hb => (List.range dof).map fun (d : Nat) =>
        (((dof:Int) * ga.1 + c, (dof:Int) * hb.1 + d), A ((ga.2 * dof + c) * (jj.length * dof) + (hb.2 * dof + d))))

/-- What earlier calls left in the element iterator of a process. -/
structure Hist where
  atb : Bool
  bid : Int
  calls : List Call

/-- The elements visited by `IGABeginElement; while (IGANextElement) …; IGAEndElement` on a process. -/
def visited (L : Layout K) (h : Hist) : Res (List (List Int)) :=
  let r := loop (fun _ => false) (h.calls.foldl call (init L.dir h.atb h.bid))
  r.1.bind fun _ => .ok r.2.1

/-- One element of a vector loop on a process: closure, values, form, assembly.  `arrayU` is the local array. -/
def elemVec {W V : Type} (colloc : Bool) (lg : List Int) (L : Layout K) (dof : Nat) (arrayU : Int → W)
    (form : List Int → List W → Res (Nat → V)) (x : List Int) : Res (List (Int × V)) :=
  (cdirs colloc L.axes L.dir x).bind fun cds => (mapping cds).bind fun map => (rows colloc cds).bind fun row =>
    (form x (getValues dof map arrayU)).bind fun F => addVec lg dof row F

/-- One element of a matrix loop on a process. -/
def elemMat {W V : Type} (colloc : Bool) (lg : List Int) (L : Layout K) (dof : Nat) (arrayU : Int → W)
    (form : List Int → List W → Res (Nat → V)) (x : List Int) : Res (List ((Int × Int) × V)) :=
  (cdirs colloc L.axes L.dir x).bind fun cds => (mapping cds).bind fun map => (rows colloc cds).bind fun row =>
    (form x (getValues dof map arrayU)).bind fun A => addMat lg dof row map A

/-- The contributions of all elements of a process. -/
def rankLoop {α : Type} (L : Layout K) (h : Hist) (elem : List Int → Res (List α)) : Res (List α) :=
  (visited L h).bind fun xs => collect (xs.map elem)

/-- Vector or matrix after `…ZeroEntries`, the additions of all processes, `…AssemblyBegin/End`: each entry is the sum
of the values added to it (contract of PETSc). -/
def assembled {ι V : Type} [DecidableEq ι] [AddCommMonoid V] (ps : List (ι × V)) (i : ι) : V :=
  ((ps.filter fun p => decide (p.1 = i)).map Prod.snd).sum

/-- The global vector of the loops listed above; `gvec` is the vector `U` they take (`junk` is what the local
vectors contained), `hist r` the iterator of rank `r`. -/
def computeVec {W V : Type} [AddCommMonoid V] (colloc : Bool) (Ls : List (Layout K)) (hist : Nat → Hist) (dof : Nat)
    (gvec : Int → W) (junk : Nat × Int → W) (form : Nat → List Int → List W → Res (Nat → V)) : Res (Int → V) :=
  let w := world (appWorld Ls)
  let loc := globalToLocal w dof gvec junk
  (collect (Ls.zipIdx.map fun Lr =>
    rankLoop Lr.1 (hist Lr.2) (elemVec colloc (lgmap w (Lr.1.dir.map gdir)) Lr.1 dof (fun k => loc (Lr.2, k)) (form Lr.2)))).bind
  fun ps => .ok (assembled ps)

/-- The global matrix of the loops listed above. -/
def computeMat {W V : Type} [AddCommMonoid V] (colloc : Bool) (Ls : List (Layout K)) (hist : Nat → Hist) (dof : Nat)
    (gvec : Int → W) (junk : Nat × Int → W) (form : Nat → List Int → List W → Res (Nat → V)) : Res (Int × Int → V) :=
  let w := world (appWorld Ls)
  let loc := globalToLocal w dof gvec junk
  (collect (Ls.zipIdx.map fun Lr =>
    rankLoop Lr.1 (hist Lr.2) (elemMat colloc (lgmap w (Lr.1.dir.map gdir)) Lr.1 dof (fun k => loc (Lr.2, k)) (form Lr.2)))).bind
  fun ps => .ok (assembled ps)

/-! ### `IGAComputeScalar` -/

/-- A quadrature point: `detJac`, `weight` and what else the callback can read. -/
structure QPoint (P : Type) where
  detJac : ℝ
  weight : ℝ
  data : P

/-- The point loop of one element, src/petigacomp.c:67-73: `workS` is zeroed, the callback called, the result added
with the weight of the point. -/
noncomputable def pointLoop {P : Type} (n : Nat) (scalar : P → List ℝ → (Nat → ℝ) → Res (Nat → ℝ)) (U : List ℝ) :
    Nat → List (QPoint P) → (workS localS : Nat → ℝ) → Res ((Nat → ℝ) × (Nat → ℝ))
  | _, [], workS, localS => .ok (workS, localS)
  | index, q :: qs, workS, localS =>
    (scalar q.data U (fun i => if i < n then 0 else workS i)).bind fun workS =>
      (Ker.pointAddArray index q.detJac q.weight n workS localS).bind fun localS =>
        pointLoop n scalar U (index+1) qs workS localS

/-- The element loop of one process, src/petigacomp.c:62-75. -/
noncomputable def scalarElems {P : Type} (colloc : Bool) (L : Layout K) (dof n : Nat) (arrayU : Int → ℝ)
    (points : List Int → List (QPoint P)) (scalar : P → List ℝ → (Nat → ℝ) → Res (Nat → ℝ)) :
    List (List Int) → (workS localS : Nat → ℝ) → Res (Nat → ℝ)
  | [], _, localS => .ok localS
  | x :: xs, workS, localS =>
    (cdirs colloc L.axes L.dir x).bind fun cds => (mapping cds).bind fun map =>
      (pointLoop n scalar (getValues dof map arrayU) 0 (points x) workS localS).bind fun wl =>
        scalarElems colloc L dof n arrayU points scalar xs wl.1 wl.2

/-- The local scalars of all processes, in rank order; `workS` is allocated without initialisation (`heap r`),
`localS` with zeros, src/petigacomp.c:54-55. -/
noncomputable def scalarRanks {P : Type} (colloc : Bool) (dof n : Nat) (loc : Nat × Int → ℝ) (hist : Nat → Hist)
    (heap : Nat → Nat → ℝ) (points : List Int → List (QPoint P)) (scalar : P → List ℝ → (Nat → ℝ) → Res (Nat → ℝ)) :
    List (Layout K × Nat) → Res (List (Nat → ℝ))
  | [] => .ok []
  | Lr :: rest =>
    (visited Lr.1 (hist Lr.2)).bind fun xs =>
      (scalarElems colloc Lr.1 dof n (fun k => loc (Lr.2, k)) points scalar xs (heap Lr.2) (fun _ => 0)).bind fun s =>
        (scalarRanks colloc dof n loc hist heap points scalar rest).bind fun ss => .ok (s :: ss)

/-- `IGAComputeScalar`, src/petigacomp.c:35-90: every process gets the sum computed by `MPI_Allreduce` (contract of
MPI); `S` is the array of a process before the call. -/
noncomputable def computeScalar {P : Type} (colloc : Bool) (Ls : List (Layout K)) (hist : Nat → Hist) (dof n : Nat)
    (gvec : Int → ℝ) (junk : Nat × Int → ℝ) (heap : Nat → Nat → ℝ) (points : List Int → List (QPoint P))
    (scalar : P → List ℝ → (Nat → ℝ) → Res (Nat → ℝ)) (S : Nat → ℝ) : Res (Nat → ℝ) :=
  let loc := globalToLocal (world (appWorld Ls)) dof gvec junk
  (scalarRanks colloc dof n loc hist heap points scalar Ls.zipIdx).bind fun ss =>
    .ok fun i => if i < n then (ss.map fun s => s i).sum else S i

end PetIGA.Asm
