import Verif.Model.Block
import Verif.Model.Point
/-
Model of the probe, src/petigaprobe.c: `IGAProbeCreate` (the per-direction data, 48-54), `IGAProbeSetOrder` (182-190),
`IGAProbeSetCollective` (192-207), `IGAProbeSetPoint` (224-426), `IGAProbeGeomMap` (428-440) and `IGAProbeEvaluate` (444-467).

The arrays copied for the closure of the span (`W`, `X` and `A`, petigaprobe.c:287-298) are treated alike, as a list of
arrays with the number of values per control point; reading outside an array is undefined.  The scalars are real.
The kernels called by `IGAProbeSetPoint` after the copy (petigaprobe.c:313-424) are those of
`IGAElementBuildTabulation` away from the boundary, Model/Point.lean, called in the same order.
Not modelled: creation and destruction (the memory), `IGAProbeSetVec` (gets the local vector of C27, then sets the
point), MPI failures other than a broadcast from a process that does not exist.
-/
namespace PetIGA.Prb
open PetIGA.Ax PetIGA.Lay PetIGA.Grid PetIGA.Elem PetIGA.Asm PetIGA.Blk

variable {K V : Type} [Field K] [LinearOrder K]

/-- `prb->p`, `prb->n`, `prb->s`, `prb->w`, `prb->U` of one direction, petigaprobe.c:48-54. -/
structure PDir (K : Type) where
  p : Int
  n : Int
  s : Int
  w : Int
  U : Int → K

/-- `IGAProbeCreate`, petigaprobe.c:48-54: sizes and ghosted box of the geometry grid. -/
def pdir (ax : Axis K) (d : Dir) : PDir K := ⟨ax.p, d.geomSize, d.geomGstart, d.geomGwidth, ax.U⟩

/-- The check of a build with error checking, petigaprobe.c:233-240. -/
def inRange (d : PDir K) (u : K) : Bool := ¬ (u < d.U d.p ∨ u > d.U d.n)

/-- `IGA_FindSpan(n-1,p,u,U)`, petigaprobe.c:247; an endless search is undefined. -/
def span (d : PDir K) (u : K) : Res Int :=
  Res.ofOption (findSpan (d.n + d.p + 1).toNat (d.n - 1) d.p u d.U)

/-- petigaprobe.c:246-247, all directions. -/
def spans : List (PDir K) → List K → Res (List Int)
  | [], [] => .ok []
  | d :: ds, u :: us => (span d u).bind fun k => (spans ds us).bind fun ks => .ok (k :: ks)
  | _, _ => .ub

/-- `first < start || last >= end`, petigaprobe.c:253-255: `first = ID-p`, `last = first+p`. -/
def offDir (d : PDir K) (k : Int) : Bool := k - d.p < d.s ∨ (k - d.p) + d.p ≥ d.s + d.w

/-- `prb->offprocess`, petigaprobe.c:250-257. -/
def off (ds : List (PDir K)) (ks : List Int) : Bool := (List.zipWith offDir ds ks).any id

/-- What the loops of petigaprobe.c:268-285 use of a direction: `p+1` functions from `ID-p` on, in the box `s`, `w`.
(The loops are those of `IGAElementBuildClosure`.) -/
def cdirOf (d : PDir K) (k : Int) : CDir := ⟨(d.p + 1).toNat, k - d.p, 0, d.s, d.w⟩

/-- Reading an array. -/
def read (arr : List V) (i : Int) : Res V := if i < 0 then .ub else Res.ofOption arr[i.toNat]?

/-- Copying the values of the closure, petigaprobe.c:287-298: entries `c + map[a]*dof` for all `c` and `a`. -/
def copy (map : List Int) (a : Nat × List V) : Res (List V) :=
  collect (map.map fun i => collect ((List.range a.1).map fun (c : Nat) => (read a.2 ((c:Int) + i * a.1)).bind fun v => .ok [v]))

/-- `IGAProbeSetPoint`, petigaprobe.c:224-299, on one process up to the communication: the flag `offprocess` and the
copied arrays (`old` is what they contained before). -/
def localPoint (debug : Bool) (ds : List (PDir K)) (arrays : List (Nat × List V)) (old : List (List V)) (u : List K) :
    Res (Bool × List (List V)) :=
  if debug = true ∧ (List.zipWith inRange ds u).any not = true then .err .outOfRange else
  (spans ds u).bind fun ks =>
    if off ds ks then .ok (true, old) else
    (mapping (List.zipWith cdirOf ds ks)).bind fun map =>
    (Blk.sequence (arrays.map (copy map))).bind fun vals => .ok (false, vals)

/-- One process: directions, arrays to copy from, contents of the copies before the call. -/
structure Proc (K V : Type) where
  dirs : List (PDir K)
  arrays : List (Nat × List V)
  old : List (List V)

/-- `MPI_Allreduce` with `MPI_MAX` of the rank or `-1`, petigaprobe.c:305-307. -/
def root (offs : List Bool) : Int :=
  ((offs.zipIdx.filter fun x => !x.1).map fun x => (x.2 : Int)).foldl max (-1)

/-- `IGAProbeSetPoint`, petigaprobe.c:224-312, on all processes with the same point; broadcasting from the process `-1`
is an error of MPI; without arrays there is no broadcast. -/
def setPoint (debug collective : Bool) (ps : List (Proc K V)) (u : List K) : Res (List (Bool × List (List V))) :=
  (Blk.sequence (ps.map fun p => localPoint debug p.dirs p.arrays p.old u)).bind fun os =>
    if collective then
      if root (os.map Prod.fst) < 0 then (if ps.all (fun p => p.arrays.isEmpty) then .ok os else .err .lib) else
      (Res.ofOption os[(root (os.map Prod.fst)).toNat]?).bind fun o => .ok (os.map fun x => (x.1, o.2))
    else .ok os

/-- `IGAProbeSetCollective`, petigaprobe.c:192-207. -/
def setCollective (collective : Bool) (size : Nat) : Bool := if collective then (if size = 1 then false else true) else false

/-- `IGAProbeSetOrder`, petigaprobe.c:182-190. -/
def setOrder (order : Int) : Res Int := if order < 0 ∨ order > 4 then .err .outOfRange else .ok order

/-- What the kernels called by `IGAProbeSetPoint`, petigaprobe.c:332-424, depend on: those of
`IGAElementBuildTabulation` without boundary and without its check of the determinant. -/
def ptIn {d nsd : Nat} {ι : Type} (order : Int) (rational : Option (ι → ℝ)) (geometry : Option (Fin nsd → ι → ℝ)) :
    Ker.PtIn d nsd ι := ⟨order, rational, geometry, none, true, false⟩

/-- `IGAProbeEvaluate`, petigaprobe.c:444-467: `shape` are the tables, `A` the copied coefficients. -/
def evaluate {d dof : Nat} {ι : Type} [Fintype ι] (order der : Int) (hasVec off collective : Bool) (shape : Ker.Tab ℝ d ι)
    (A : Fin dof → ι → ℝ) (mem : List (Fin d) → Fin dof → ℝ) : Res (List (Fin d) → Fin dof → ℝ) :=
  if der < 0 ∨ der > order then .err .outOfRange else
  if hasVec = false then .err .wrongState else
  if off = true ∧ collective = false then .ok fun l c => if (l.length : Int) = der then 0 else mem l c else
  Ker.pointEvaluate 0 der shape A mem

/-- `IGAProbeGeomMap`, petigaprobe.c:428-440: the `nsd` entries of `mapX[0]` if there is a geometry array, of `mapU[0]`
(the point, with `nsd = dim`, petigaprobe.c:42) otherwise. -/
def geomMap {d nsd : Nat} (hasX off collective : Bool) (mapX : Fin nsd → ℝ) (point : Fin d → ℝ) : Res (Fin nsd → ℝ) :=
  if off = true ∧ collective = false then .ok fun _ => 0 else
  if hasX then .ok mapX else if h : nsd ≤ d then .ok fun i => point (Fin.castLE h i) else .ub

end PetIGA.Prb
