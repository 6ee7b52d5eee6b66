import Verif.Model.Elem
import Verif.Model.Fix
/-
Model of what the assembly loops evaluate on one element: `IGAComputeVector`, `IGAComputeMatrix`, `IGAComputeSystem`
(src/petigaksp.c:33-199), `IGAComputeFunction`, `IGAComputeJacobian` (src/petigasnes.c:23-139), `IGAComputeIFunction`,
`IGAComputeIJacobian`, `IGAComputeIEFunction`, `IGAComputeIEJacobian`, `IGAComputeRHSFunction`,
`IGAComputeRHSJacobian` (src/petigats.c:23-477), `IGAComputeI2Function`, `IGAComputeI2Jacobian` (src/petigats2.c:23-175):
work arrays of elements and points, gathered values, boundary values, form loop, point loop, accumulation.

Simplifications: Galerkin discretisations only (the collocation branches of `IGAElementFix…` are modelled in
Model/Fix.lean).  A callback is a function of the data of the point, its arguments and the work array it is handed
(`P → … → (Int → V) → Res (Int → V)`); it writes that array only.  Reading an array outside its bounds is not
tracked, the loops below read `[0,neq*dof)` and `[0,nen*dof)`.  Arithmetic is exact.
-/
namespace PetIGA.Drv
open PetIGA.Fix

variable {V P : Type}

/-- A quadrature point: `detJac`, `weight` and what else the callback can read. -/
structure QP (V P : Type) where
  detJac : V
  weight : V
  data : P

/-- What the loops read of an element: `element->index` (`≥ 0` inside the element loop), `neq`, `nen`, `dof`, the
lists `ifix/vfix`, `iflux/vflux` built by `IGAElementBuildFix`, the element number `ID` and the grid `sizes` used by the
form loop, the sides with a boundary form, and the points tabulated by `IGAElementBeginPoint` on a side or inside. -/
structure Elt (V P : Type) where
  index : Int
  neq : Nat
  nen : Nat
  dof : Nat
  fixes : Fixes V
  id : List Int
  sizes : List Int
  visit : Int → Int → Bool
  points : Option Int → List (QP V P)

/-- `element->neq * element->dof`. -/
def Elt.m (E : Elt V P) : Nat := E.neq * E.dof
/-- `element->nen * element->dof`. -/
def Elt.n (E : Elt V P) : Nat := E.nen * E.dof

/-- `nval, wval[8]`, `nvec, wvec[8]`, `nmat, wmat[4]` and `ufix` of `struct _n_IGAElement`, include/petiga.h:585-596. -/
structure Work (V : Type) where
  nval : Nat
  wval : Nat → Int → V
  nvec : Nat
  wvec : Nat → Int → V
  nmat : Nat
  wmat : Nat → Int → V
  ufix : List (Int × V × V)

/-- `nvec, wvec[8]`, `nmat, wmat[4]` of `struct _n_IGAPoint`, include/petiga.h:699-702. -/
structure PWork (V : Type) where
  nvec : Nat
  wvec : Nat → Int → V
  nmat : Nat
  wmat : Nat → Int → V

/-- Replace array `k`. -/
def setArr (W : Nat → Int → V) (k : Nat) (A : Int → V) : Nat → Int → V := fun j => if j = k then A else W j

/-- `PetscMemzero` of the first `m` entries. -/
def zeroed [Zero V] (m : Nat) (A : Int → V) : Int → V := fun i => if 0 ≤ i ∧ i < m then 0 else A i

/-- The counters are cleared by `IGANextElement`, src/petigaelem.c:384-386. -/
def nextElement (w : Work V) : Work V := { w with nval := 0, nvec := 0, nmat := 0 }

/-- `IGAElementGetWorkVec`, src/petigaelem.c:1037-1053: the number of the array handed out. -/
def getWorkVec [Zero V] (E : Elt V P) (w : Work V) : Res (Nat × Work V) :=
  if E.index < 0 then .err .wrongState else
  if w.nvec ≥ 8 then .err .outOfRange else
  .ok (w.nvec, { w with nvec := w.nvec + 1, wvec := setArr w.wvec w.nvec (zeroed E.m (w.wvec w.nvec)) })

/-- `IGAElementGetWorkMat`, src/petigaelem.c:1055-1072. -/
def getWorkMat [Zero V] (E : Elt V P) (w : Work V) : Res (Nat × Work V) :=
  if E.index < 0 then .err .wrongState else
  if w.nmat ≥ 4 then .err .outOfRange else
  .ok (w.nmat, { w with nmat := w.nmat + 1, wmat := setArr w.wmat w.nmat (zeroed (E.m * E.n) (w.wmat w.nmat)) })

/-- `IGAElementGetValues`, src/petigaelem.c:1074-1102; `vals` are the values `arrayU[map[a]*dof+i]` in the order of the
loop (`Asm.getValues`), `none` when `arrayU` is `NULL`. -/
def getValues [Zero V] (E : Elt V P) (vals : Option (List V)) (w : Work V) : Res (Nat × Work V) :=
  if E.index < 0 then .err .wrongState else
  if w.nval ≥ 8 then .err .outOfRange else
  .ok (w.nval, { w with nval := w.nval + 1, wval := setArr w.wval w.nval (match vals with
    | some l => fun i => if 0 ≤ i ∧ i < E.n then l.getD i.toNat 0 else w.wval w.nval i
    | none => zeroed E.n (w.wval w.nval)) })

/-- `IGAElementDelValues` on array `k`, src/petigaelem.c:1327-1341. -/
def delVals [Zero V] (E : Elt V P) (k : Nat) (w : Work V) : Work V :=
  { w with wval := setArr w.wval k (delValues E.fixes.fix (w.wval k)) }

/-- `IGAElementFixValues` on array `k`, src/petigaelem.c:1343-1358: `ufix` is overwritten. -/
def fixVals (E : Elt V P) (k : Nat) (w : Work V) : Work V :=
  { w with wval := setArr w.wval k (fixValues E.fixes.fix (w.wval k)).2
           ufix := (fixValues E.fixes.fix (w.wval k)).1 }

/-- `IGAElementFixFunction` on work vector `k`, src/petigaelem.c:1441-1462. -/
def fixFun [Sub V] (E : Elt V P) (k : Nat) (w : Work V) : Work V :=
  { w with wvec := setArr w.wvec k (fixFunction E.fixes.flux w.ufix (w.wvec k)) }

/-- `IGAElementFixJacobian` on work matrix `k`, src/petigaelem.c:1483-1501. -/
def fixJac [Zero V] [One V] (E : Elt V P) (k : Nat) (w : Work V) : Work V :=
  { w with wmat := setArr w.wmat k (fixJacobian E.m E.n E.fixes.fix (w.wmat k)) }

/-- `IGAElementFixSystem` on work matrix `k` and work vector `l`, src/petigaelem.c:1360-1390. -/
def fixSys [Zero V] [One V] [Add V] [Sub V] [Mul V] (E : Elt V P) (k l : Nat) (w : Work V) : Work V :=
  { w with wmat := setArr w.wmat k (fixSystem E.m E.n E.fixes (w.wmat k) (w.wvec l)).1
           wvec := setArr w.wvec l (fixSystem E.m E.n E.fixes (w.wmat k) (w.wvec l)).2 }

/-- The `nen*dof` values a callback reads in array `k`. -/
def read (E : Elt V P) (w : Work V) (k : Nat) : List V := (List.range E.n).map fun (i : Nat) => w.wval k i

/-- `IGAPointGetWorkVec`, src/petigapoint.c:414-430. -/
def pointGetWorkVec [Zero V] (E : Elt V P) (index : Int) (w : PWork V) : Res (Nat × PWork V) :=
  if index < 0 then .err .wrongState else
  if w.nvec ≥ 8 then .err .outOfRange else
  .ok (w.nvec, { w with nvec := w.nvec + 1, wvec := setArr w.wvec w.nvec (zeroed E.m (w.wvec w.nvec)) })

/-- `IGAPointGetWorkMat`, src/petigapoint.c:432-449. -/
def pointGetWorkMat [Zero V] (E : Elt V P) (index : Int) (w : PWork V) : Res (Nat × PWork V) :=
  if index < 0 then .err .wrongState else
  if w.nmat ≥ 4 then .err .outOfRange else
  .ok (w.nmat, { w with nmat := w.nmat + 1, wmat := setArr w.wmat w.nmat (zeroed (E.m * E.n) (w.wmat w.nmat)) })

/-- `IGAPointAddArray`, src/petigapoint.c:451-466. -/
def addArray [Add V] [Mul V] (index : Int) (q : QP V P) (n : Nat) (a A : Int → V) : Res (Int → V) :=
  if index < 0 then .err .wrongState else
  .ok fun i => if 0 ≤ i ∧ i < n then A i + a i * (q.detJac * q.weight) else A i

/-- `IGAElementNextPoint` clears the counters of the point, src/petigaelem.c:493-494. -/
def nextPoint (w : PWork V) : PWork V := { w with nvec := 0, nmat := 0 }

section loops
variable [Zero V] [Add V] [Mul V]

/-- The point loop of a vector form, e.g. src/petigasnes.c:58-64. -/
def vecPoints (E : Elt V P) (cb : P → (Int → V) → Res (Int → V)) :
    Int → List (QP V P) → PWork V → (Int → V) → Res (PWork V × (Int → V))
  | _, [], pw, F => .ok (pw, F)
  | index, q :: qs, pw, F =>
    (pointGetWorkVec E index (nextPoint pw)).bind fun r =>
      (cb q.data (r.2.wvec r.1)).bind fun R =>
        let pw := { r.2 with wvec := setArr r.2.wvec r.1 R }
        (addArray index q E.m (pw.wvec r.1) F).bind fun F => vecPoints E cb (index + 1) qs pw F

/-- The point loop of a matrix form, e.g. src/petigasnes.c:117-123. -/
def matPoints (E : Elt V P) (cb : P → (Int → V) → Res (Int → V)) :
    Int → List (QP V P) → PWork V → (Int → V) → Res (PWork V × (Int → V))
  | _, [], pw, J => .ok (pw, J)
  | index, q :: qs, pw, J =>
    (pointGetWorkMat E index (nextPoint pw)).bind fun r =>
      (cb q.data (r.2.wmat r.1)).bind fun k =>
        let pw := { r.2 with wmat := setArr r.2.wmat r.1 k }
        (addArray index q (E.m * E.n) (pw.wmat r.1) J).bind fun J => matPoints E cb (index + 1) qs pw J

/-- The point loop of `IGAComputeSystem`, src/petigaksp.c:179-187. -/
def sysPoints (E : Elt V P) (cb : P → (Int → V) → (Int → V) → Res ((Int → V) × (Int → V))) :
    Int → List (QP V P) → PWork V → (Int → V) → (Int → V) → Res (PWork V × (Int → V) × (Int → V))
  | _, [], pw, A, B => .ok (pw, A, B)
  | index, q :: qs, pw, A, B =>
    (pointGetWorkMat E index (nextPoint pw)).bind fun r => (pointGetWorkVec E index r.2).bind fun s =>
      (cb q.data (s.2.wmat r.1) (s.2.wvec s.1)).bind fun kf =>
        let pw := { s.2 with wmat := setArr s.2.wmat r.1 kf.1, wvec := setArr s.2.wvec s.1 kf.2 }
        (addArray index q (E.m * E.n) (pw.wmat r.1) A).bind fun A =>
          (addArray index q E.m (pw.wvec s.1) B).bind fun B => sysPoints E cb (index + 1) qs pw A B

/-- The visits of the form loop of a new element (`Elem.runForm`; `start`, `width`, `count` of the iterator play no
part). -/
def visits (E : Elt V P) : List (Option Int) :=
  (Elem.runForm false E.visit (2 * E.id.length + 3) ⟨E.id, E.id, E.sizes, E.id, E.index, 0, -1, false⟩).1

/-- The form loop of a vector form: `IGAElementBeginPoint` starts the points of the visit with index 0. -/
def vecForms (E : Elt V P) (cb : P → (Int → V) → Res (Int → V)) :
    List (Option Int) → PWork V → (Int → V) → Res (PWork V × (Int → V))
  | [], pw, F => .ok (pw, F)
  | b :: bs, pw, F => (vecPoints E cb 0 (E.points b) pw F).bind fun r => vecForms E cb bs r.1 r.2

/-- The form loop of a matrix form. -/
def matForms (E : Elt V P) (cb : P → (Int → V) → Res (Int → V)) :
    List (Option Int) → PWork V → (Int → V) → Res (PWork V × (Int → V))
  | [], pw, J => .ok (pw, J)
  | b :: bs, pw, J => (matPoints E cb 0 (E.points b) pw J).bind fun r => matForms E cb bs r.1 r.2

/-- The form loop of `IGAComputeSystem`. -/
def sysForms (E : Elt V P) (cb : P → (Int → V) → (Int → V) → Res ((Int → V) × (Int → V))) :
    List (Option Int) → PWork V → (Int → V) → (Int → V) → Res (PWork V × (Int → V) × (Int → V))
  | [], pw, A, B => .ok (pw, A, B)
  | b :: bs, pw, A, B => (sysPoints E cb 0 (E.points b) pw A B).bind fun r => sysForms E cb bs r.1 r.2.1 r.2.2

/-- Run a vector form on work vector `k`. -/
def runVec (E : Elt V P) (cb : P → (Int → V) → Res (Int → V)) (k : Nat) (pw : PWork V) (w : Work V) : Res (Work V) :=
  (vecForms E cb (visits E) pw (w.wvec k)).bind fun r => .ok { w with wvec := setArr w.wvec k r.2 }

/-- Run a matrix form on work matrix `k`. -/
def runMat (E : Elt V P) (cb : P → (Int → V) → Res (Int → V)) (k : Nat) (pw : PWork V) (w : Work V) : Res (Work V) :=
  (matForms E cb (visits E) pw (w.wmat k)).bind fun r => .ok { w with wmat := setArr w.wmat k r.2 }

end loops

variable [CommRing V]

/-- One element of `IGAComputeVector`, src/petigaksp.c:56-68: the array handed to `IGAElementAssembleVec`. -/
def vector (E : Elt V P) (cb : P → (Int → V) → Res (Int → V)) (pw : PWork V) (w : Work V) : Res (Int → V) :=
  (getWorkVec E (nextElement w)).bind fun b =>
    (runVec E cb b.1 pw b.2).bind fun w => .ok (w.wvec b.1)

/-- One element of `IGAComputeMatrix`, src/petigaksp.c:102-114. -/
def matrix (E : Elt V P) (cb : P → (Int → V) → Res (Int → V)) (pw : PWork V) (w : Work V) : Res (Int → V) :=
  (getWorkMat E (nextElement w)).bind fun a =>
    (runMat E cb a.1 pw a.2).bind fun w => .ok (w.wmat a.1)

/-- One element of `IGAComputeSystem`, src/petigaksp.c:174-191: matrix and vector. -/
def system (E : Elt V P) (cb : P → (Int → V) → (Int → V) → Res ((Int → V) × (Int → V))) (pw : PWork V) (w : Work V) :
    Res ((Int → V) × (Int → V)) :=
  (getWorkMat E (nextElement w)).bind fun a => (getWorkVec E a.2).bind fun b =>
    (sysForms E cb (visits E) pw (b.2.wmat a.1) (b.2.wvec b.1)).bind fun r =>
      let w := { b.2 with wmat := setArr b.2.wmat a.1 r.2.1, wvec := setArr b.2.wvec b.1 r.2.2 }
      let w := fixSys E a.1 b.1 w
      .ok (w.wmat a.1, w.wvec b.1)

/-- One element of `IGAComputeFunction`, src/petigasnes.c:52-67. -/
def function (E : Elt V P) (cb : P → List V → (Int → V) → Res (Int → V)) (arrayU : List V) (pw : PWork V) (w : Work V) :
    Res (Int → V) :=
  (getWorkVec E (nextElement w)).bind fun f => (getValues E (some arrayU) f.2).bind fun u =>
    let w := fixVals E u.1 u.2
    (runVec E (fun p R => cb p (read E w u.1) R) f.1 pw w).bind fun w =>
      let w := fixFun E f.1 w
      .ok (w.wvec f.1)

/-- One element of `IGAComputeJacobian`, src/petigasnes.c:111-126. -/
def jacobian (E : Elt V P) (cb : P → List V → (Int → V) → Res (Int → V)) (arrayU : List V) (pw : PWork V) (w : Work V) :
    Res (Int → V) :=
  (getWorkMat E (nextElement w)).bind fun j => (getValues E (some arrayU) j.2).bind fun u =>
    let w := fixVals E u.1 u.2
    (runMat E (fun p k => cb p (read E w u.1) k) j.1 pw w).bind fun w =>
      let w := fixJac E j.1 w
      .ok (w.wmat j.1)

/-- One element of `IGAComputeIFunction`, src/petigats.c:59-76. -/
def ifunction (E : Elt V P) (cb : P → V → List V → V → List V → (Int → V) → Res (Int → V)) (a : V) (arrayV : List V) (t : V)
    (arrayU : List V) (pw : PWork V) (w : Work V) : Res (Int → V) :=
  (getWorkVec E (nextElement w)).bind fun f => (getValues E (some arrayV) f.2).bind fun v =>
    (getValues E (some arrayU) v.2).bind fun u =>
      let w := delVals E v.1 u.2
      let w := fixVals E u.1 w
      (runVec E (fun p R => cb p a (read E w v.1) t (read E w u.1) R) f.1 pw w).bind fun w =>
        let w := fixFun E f.1 w
        .ok (w.wvec f.1)

/-- One element of `IGAComputeIJacobian`, src/petigats.c:128-145. -/
def ijacobian (E : Elt V P) (cb : P → V → List V → V → List V → (Int → V) → Res (Int → V)) (a : V) (arrayV : List V) (t : V)
    (arrayU : List V) (pw : PWork V) (w : Work V) : Res (Int → V) :=
  (getWorkMat E (nextElement w)).bind fun j => (getValues E (some arrayV) j.2).bind fun v =>
    (getValues E (some arrayU) v.2).bind fun u =>
      let w := delVals E v.1 u.2
      let w := fixVals E u.1 w
      (runMat E (fun p k => cb p a (read E w v.1) t (read E w u.1) k) j.1 pw w).bind fun w =>
        let w := fixJac E j.1 w
        .ok (w.wmat j.1)

/-- One element of `IGAComputeIEFunction`, src/petigats.c:223-242. -/
def iefunction (E : Elt V P) (cb : P → V → List V → V → List V → V → List V → (Int → V) → Res (Int → V)) (a : V)
    (arrayV : List V) (t : V) (arrayU : List V) (t0 : V) (arrayU0 : List V) (pw : PWork V) (w : Work V) : Res (Int → V) :=
  (getWorkVec E (nextElement w)).bind fun f => (getValues E (some arrayV) f.2).bind fun v =>
    (getValues E (some arrayU) v.2).bind fun u => (getValues E (some arrayU0) u.2).bind fun u0 =>
      let w := delVals E v.1 u0.2
      let w := fixVals E u0.1 w
      let w := fixVals E u.1 w
      (runVec E (fun p R => cb p a (read E w v.1) t (read E w u.1) t0 (read E w u0.1) R) f.1 pw w).bind fun w =>
        let w := fixFun E f.1 w
        .ok (w.wvec f.1)

/-- One element of `IGAComputeIEJacobian`, src/petigats.c:300-319. -/
def iejacobian (E : Elt V P) (cb : P → V → List V → V → List V → V → List V → (Int → V) → Res (Int → V)) (a : V)
    (arrayV : List V) (t : V) (arrayU : List V) (t0 : V) (arrayU0 : List V) (pw : PWork V) (w : Work V) : Res (Int → V) :=
  (getWorkMat E (nextElement w)).bind fun j => (getValues E (some arrayV) j.2).bind fun v =>
    (getValues E (some arrayU) v.2).bind fun u => (getValues E (some arrayU0) u.2).bind fun u0 =>
      let w := delVals E v.1 u0.2
      let w := fixVals E u0.1 w
      let w := fixVals E u.1 w
      (runMat E (fun p k => cb p a (read E w v.1) t (read E w u.1) t0 (read E w u0.1) k) j.1 pw w).bind fun w =>
        let w := fixJac E j.1 w
        .ok (w.wmat j.1)

/-- One element of `IGAComputeRHSFunction`, src/petigats.c:388-403. -/
def rhsfunction (E : Elt V P) (cb : P → V → List V → (Int → V) → Res (Int → V)) (t : V) (arrayU : List V) (pw : PWork V)
    (w : Work V) : Res (Int → V) :=
  (getWorkVec E (nextElement w)).bind fun f => (getValues E (some arrayU) f.2).bind fun u =>
    let w := fixVals E u.1 u.2
    (runVec E (fun p R => cb p t (read E w u.1) R) f.1 pw w).bind fun w =>
      let w := fixFun E f.1 w
      .ok (w.wvec f.1)

/-- One element of `IGAComputeRHSJacobian`, src/petigats.c:449-464. -/
def rhsjacobian (E : Elt V P) (cb : P → V → List V → (Int → V) → Res (Int → V)) (t : V) (arrayU : List V) (pw : PWork V)
    (w : Work V) : Res (Int → V) :=
  (getWorkMat E (nextElement w)).bind fun j => (getValues E (some arrayU) j.2).bind fun u =>
    let w := fixVals E u.1 u.2
    (runMat E (fun p k => cb p t (read E w u.1) k) j.1 pw w).bind fun w =>
      let w := fixJac E j.1 w
      .ok (w.wmat j.1)

/-- One element of `IGAComputeI2Function`, src/petigats2.c:64-82. -/
def i2function (E : Elt V P) (cb : P → V → List V → V → List V → V → List V → (Int → V) → Res (Int → V)) (a : V)
    (arrayA : List V) (v : V) (arrayV : List V) (t : V) (arrayU : List V) (pw : PWork V) (w : Work V) : Res (Int → V) :=
  (getWorkVec E (nextElement w)).bind fun f => (getValues E (some arrayA) f.2).bind fun aa =>
    (getValues E (some arrayV) aa.2).bind fun vv => (getValues E (some arrayU) vv.2).bind fun u =>
      let w := delVals E aa.1 u.2
      let w := delVals E vv.1 w
      let w := fixVals E u.1 w
      (runVec E (fun p R => cb p a (read E w aa.1) v (read E w vv.1) t (read E w u.1) R) f.1 pw w).bind fun w =>
        let w := fixFun E f.1 w
        .ok (w.wvec f.1)

/-- One element of `IGAComputeI2Jacobian`, src/petigats2.c:142-160. -/
def i2jacobian (E : Elt V P) (cb : P → V → List V → V → List V → V → List V → (Int → V) → Res (Int → V)) (a : V)
    (arrayA : List V) (v : V) (arrayV : List V) (t : V) (arrayU : List V) (pw : PWork V) (w : Work V) : Res (Int → V) :=
  (getWorkMat E (nextElement w)).bind fun j => (getValues E (some arrayA) j.2).bind fun aa =>
    (getValues E (some arrayV) aa.2).bind fun vv => (getValues E (some arrayU) vv.2).bind fun u =>
      let w := delVals E aa.1 u.2
      let w := delVals E vv.1 w
      let w := fixVals E u.1 w
      (runMat E (fun p k => cb p a (read E w aa.1) v (read E w vv.1) t (read E w u.1) k) j.1 pw w).bind fun w =>
        let w := fixJac E j.1 w
        .ok (w.wmat j.1)

end PetIGA.Drv
