import Verif.Model.Kernel
import Verif.Model.Basic
/-
Model of the data of one quadrature point: the sequence of kernels run by `IGAElementBuildTabulation`
(src/petigaelem.c:794-1033) seen from one point, and the functions by which the user reads the point
(src/petigapoint.c:178-465).

The kernels run over the points one after another and use, for every point, only the data of that point, so one point
is modelled; where the data of a point is stored is the subject of C65.  Arithmetic is exact.
-/
namespace PetIGA.Ker
open Finset

variable {d nsd : Nat} {ι : Type} [Fintype ι]

/-- What `IGAElementBuildTabulation` depends on besides the one-dimensional tables. -/
structure PtIn (d nsd : Nat) (ι : Type) where
  /-- `ord = iga->order` -/
  order : Int
  /-- `element->rational` and `element->rationalW` -/
  rational : Option (ι → ℝ)
  /-- `element->geometry` and `element->geometryX` -/
  geometry : Option (Fin nsd → ι → ℝ)
  /-- `element->atboundary` and `boundary_id` as `(axis, side)` -/
  boundary : Option (Fin d × Int)
  /-- `element->collocation` -/
  collocation : Bool
  /-- `PETSC_USE_DEBUG` -/
  debug : Bool

/-- The arrays of the element at one point. -/
structure PtOut (d nsd : Nat) (ι : Type) where
  basis : Tab ℝ d ι
  mapX : Tab ℝ d (Fin nsd)
  detX : ℝ
  mapU : Tab ℝ d (Fin d)
  shape : Tab ℝ d ι
  detS : ℝ
  normal : Fin nsd → ℝ
  detJac : ℝ

/-- The boundary part without a geometry map into a space of the same dimension, src/petigaelem.c:1017-1020. -/
def flatNormal (axis : Fin d) (side : Int) : Fin nsd → ℝ :=
  fun i => if i.val = axis.val then (if side ≠ 0 then 1 else -1) else 0

/-- The rationalisation step of `IGAElementBuildTabulation`, src/petigaelem.c:922-934. -/
noncomputable def basisOf (c : PtIn d nsd ι) (T : Tab ℝ d ι) : Tab ℝ d ι :=
  match c.rational with
  | some W => rationalize c.order W T
  | none => T

/-- `IGAElementBuildTabulation`, src/petigaelem.c:794-1033, from the call of the basis kernel on: `N` is the table made
by `IGA_BasisFuns`, `J` the `detJac` stored by `IGA_Quadrature`, `mem` the contents of the arrays before the call.
The comparison `dim == nsd` is a comparison of the two dimensions here too. -/
noncomputable def tabulate (c : PtIn d nsd ι) (N : Tab ℝ d ι) (J : ℝ) (mem : PtOut d nsd ι) : Res (PtOut d nsd ι) :=
  let B := basisOf c N
  match c.geometry with
  | some C =>
    -- src/petigaelem.c:936-961
    let X := geometryMap c.order C B mem.mapX
    if h : nsd = d then
      -- src/petigaelem.c:963-1009
      let X' : Tab ℝ d (Fin d) := h ▸ X
      let I := inverseMap c.order X' (mem.detX, mem.mapU)
      if c.debug ∧ I.1 ≤ 0 then .err .user else
      let S := shapeFunctions c.order I.2 B { mem.shape with t0 := B.t0 }
      match c.boundary with
      | none =>
        -- src/petigaelem.c:1024-1026
        .ok { basis := B, mapX := X, detX := I.1, mapU := I.2, shape := S, detS := mem.detS, normal := mem.normal,
              detJac := if c.collocation then J else J * I.1 }
      | some (axis, side) =>
        -- src/petigaelem.c:1011-1016, 1024, 1027-1028
        let n := getNormal d axis.val side X'.t1 (mem.detS, h ▸ mem.normal)
        .ok { basis := B, mapX := X, detX := I.1, mapU := I.2, shape := S, detS := n.1, normal := h ▸ n.2,
              detJac := if c.collocation then J else J * n.1 }
    else
      match c.boundary with
      | none => .ok { mem with basis := B, mapX := X, detJac := J }
      | some (axis, side) => .ok { mem with basis := B, mapX := X, detS := 1, normal := flatNormal axis side, detJac := J }
  | none =>
    match c.boundary with
    | none => .ok { mem with basis := B, detJac := J }
    | some (axis, side) => .ok { mem with basis := B, detS := 1, normal := flatNormal axis side, detJac := J }

/-- `point->shape` as set by `IGAElementBeginPoint`, src/petigaelem.c:548-561. -/
def pointShape (c : PtIn d nsd ι) (o : PtOut d nsd ι) : Tab ℝ d ι :=
  if c.geometry.isSome ∧ d = nsd then o.shape else o.basis

/-! ### Reading the point -/

/-- Entry of the tables at a list of derivative directions; there are no tables beyond the fourth. -/
def Tab.at {K : Type} (T : Tab K d ι) : List (Fin d) → ι → K → K
  | [], a, _ => T.t0 a
  | [i], a, _ => T.t1 i a
  | [i, j], a, _ => T.t2 i j a
  | [i, j, k], a, _ => T.t3 i j k a
  | [i, j, k, l], a, _ => T.t4 i j k l a
  | _, _, m => m

/-- `IGAPointEvaluate`, src/petigapoint.c:387-412: `ider` selects the table and the kernel; the entries of the result
are indexed by the list of `ider` directions and by the field. -/
def pointEvaluate {dof : Nat} (index ider : Int) (shape : Tab ℝ d ι) (U : Fin dof → ι → ℝ) (mem : List (Fin d) → Fin dof → ℝ) :
    Res (List (Fin d) → Fin dof → ℝ) :=
  if index < 0 then .err .wrongState else
  if ider < 0 ∨ ider > 4 then .err .outOfRange else
  .ok fun l c =>
    if (l.length : Int) ≠ ider then mem l c else
    match l with
    | [] => evaluate (fun _ : Unit => shape.t0) U () c
    | [i] => evaluate shape.t1 U i c
    | [i, j] => evaluate (fun t : Fin d × Fin d => shape.t2 t.1 t.2) U (i, j) c
    | [i, j, k] => evaluate (fun t : Fin d × Fin d × Fin d => shape.t3 t.1 t.2.1 t.2.2) U (i, j, k) c
    | [i, j, k, l] =>
      evaluate (fun t : Fin d × Fin d × Fin d × Fin d => shape.t4 t.1 t.2.1 t.2.2.1 t.2.2.2) U (i, j, k, l) c
    | _ => mem l c

/-- `IGAPointFormDel2`, src/petigapoint.c:357-365. -/
def pointDel2 {dof : Nat} (shape : Tab ℝ d ι) (U : Fin dof → ι → ℝ) : Fin dof → ℝ := getDel2 shape.t2 U

/-- `IGAPointFormGeomMap`, src/petigapoint.c:225-240: `x[i]` (`u` is `mapU[0]`, written by `IGA_Quadrature`). -/
def pointGeomMap (c : PtIn d nsd ι) (o : PtOut d nsd ι) (u : Fin d → ℝ) (mem : Nat → ℝ) : Nat → ℝ :=
  match c.geometry with
  | some _ => fun i => if h : i < nsd then o.mapX.t0 ⟨i, h⟩ else mem i
  | none => fun i => if h : i < d then u ⟨i, h⟩ else mem i

/-- Fortran storage of an `m × n` array: `A(i,j)` is at `i + m*j`. -/
def store {m n : Nat} (A : Fin m → Fin n → ℝ) (mem : Nat → ℝ) : Nat → ℝ :=
  fun k => if h : k < m * n then
      A ⟨k % m, Nat.mod_lt _ (Nat.pos_of_mul_pos_right (Nat.lt_of_le_of_lt (Nat.zero_le _) h))⟩
        ⟨k / m, Nat.div_lt_of_lt_mul h⟩
    else mem k

/-- `IGAPointFormGradGeomMap`, src/petigapoint.c:242-267: the array `F`; `L` is filled by `IGAPointFormScale`,
src/petigapoint.c:209-223, with the `detJac` of the element in each direction. -/
noncomputable def pointGradGeomMap (c : PtIn d nsd ι) (o : PtOut d nsd ι) (L : Nat → ℝ) (mem : Nat → ℝ) : Nat → ℝ :=
  match c.geometry with
  | some C =>
    let F := if d = nsd then store o.mapX.t1 mem else store (gradGeomMap o.basis.t1 C) mem
    -- for i<nsd, a<dim: F[i*dim+a] *= L[a]
    fun k => if k < nsd * d then F k * L (k % d) else F k
  | none =>
    -- memzero; F[i*(dim+1)] = L[i]
    fun k => if k < d * d then (if k / d = k % d then L (k % d) else 0) else mem k

/-- `IGAPointFormInvGradGeomMap`, src/petigapoint.c:269-294. -/
noncomputable def pointInvGradGeomMap (c : PtIn d nsd ι) (o : PtOut d nsd ι) (L : Nat → ℝ) (mem : Nat → ℝ) : Nat → ℝ :=
  match c.geometry with
  | some C =>
    let G := if d = nsd then store o.mapU.t1 mem else store (invGradGeomMap o.basis.t1 C) mem
    -- for a<dim, i<nsd: G[a*nsd+i] /= L[a]
    fun k => if k < d * nsd then G k / L (k / nsd) else G k
  | none =>
    fun k => if k < d * d then (if k / d = k % d then 1 / L (k % d) else 0) else mem k

/-- `IGAPointAddArray`, src/petigapoint.c:451-466. -/
def pointAddArray (index : Int) (detJac weight : ℝ) (n : Nat) (a A : Nat → ℝ) : Res (Nat → ℝ) :=
  if index < 0 then .err .wrongState else
  .ok fun i => if i < n then A i + a i * (detJac * weight) else A i

end PetIGA.Ker
