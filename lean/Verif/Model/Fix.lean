import Verif.Model.Form
import Verif.Model.Grid
/-
Model of the boundary condition handling of an element, src/petigaelem.c:1166-1523.
-/
namespace PetIGA.Fix
open PetIGA.Form PetIGA.Grid

variable {V : Type}

/-- Data of one direction of an element: `BD[i]->nen`, `BD[i]->offset[ID[i]]`, `ID[i]`, `element->sizes[i]` and
`AX[i]->periodic`. -/
structure EDir where
  nen : Nat
  offset : Int
  id : Int
  size : Int
  periodic : Bool
  deriving DecidableEq, Repr

/-- What `IGAElementBuildFix` reads: the directions (`dim` of them), `element->dof`, the form, the fix table
(`iga->fixtableU` or null), `element->mapping`, and the value `BoundaryArea(element,dir,side)` (petigaelem.c:1118-1164,
a parameter here, modelled in Model/Area). -/
structure Ctx (V : Type) where
  dirs : List EDir
  dof : Nat
  form : Form V
  table : Option (Int → V)
  mapping : Int → Int
  area : Int → Int → V

/-- `element->nen`. -/
def Ctx.nen (c : Ctx V) : Nat := (c.dirs.map EDir.nen).foldl (· * ·) 1
/-- Number of entries of `ifix`, `vfix`, `ufix`, `iflux`, `vflux`, petigaelem.c:250-260. -/
def Ctx.bufsize (c : Ctx V) : Nat := c.nen * c.dof
/-- The node number `ia + ja*jstride + ka*kstride`, petigaelem.c:1226, 1233. -/
def Ctx.node (c : Ctx V) (x : List Int) : Int := natural 1 (c.dirs.map fun d => (d.nen : Int)) x

/-- `AddFixa`, petigaelem.c:1166-1189, on the first `nfix` entries of `ifix`/`vfix`. -/
def addFixa (c : Ctx V) (a : Int) : BC V → List (Int × V) → Res (List (Int × V))
  | [], l => .ok l
  | (f, v) :: bc, l =>
    if f ≥ c.dof then addFixa c a bc l
    else do
      let val := match c.table with
        | some U => U (f + c.mapping a * c.dof)
        | none => v
      let l ← put c.bufsize l (a * c.dof + f) val
      addFixa c a bc l

/-- The search and accumulate of `AddFlux`, petigaelem.c:1204-1208. -/
def accum [Zero V] [Add V] (n : Nat) (l : List (Int × V)) (i : Int) (w : V) : Res (List (Int × V)) :=
  let j := l.findIdx (fun p => p.1 == i)
  if j = l.length then
    if j < n then .ok (l ++ [(i, 0 + w)]) else .ub
  else match l[j]? with
    | some p => .ok (l.set j (i, p.2 + w))
    | none => .ub

/-- `AddFlux`, petigaelem.c:1191-1212. -/
def addFlux [Zero V] [Add V] [Mul V] (c : Ctx V) (a : Int) (A : V) : BC V → List (Int × V) → Res (List (Int × V))
  | [], l => .ok l
  | (f, v) :: bc, l =>
    if f ≥ c.dof then addFlux c a A bc l
    else do
      let l ← accum c.bufsize l (a * c.dof + f) (v * A)
      addFlux c a A bc l

/-- The `nfix`/`ifix`/`vfix` and `nflux`/`iflux`/`vflux` lists. -/
structure Fixes (V : Type) where
  fix : List (Int × V)
  flux : List (Int × V)
  deriving DecidableEq, Repr

/-- `(S[i], E[i]-S[i])` of `BuildFix`, petigaelem.c:1222-1228. -/
def faceBox : List EDir → Nat → Bool → List (Int × Int)
  | [], _, _ => []
  | d :: ds, 0, side =>
    (if side then ((d.nen : Int) - 1, d.nen - ((d.nen : Int) - 1)) else (0, 0 + 1 - 0))
      :: ds.map fun d => (0, (d.nen : Int) - 0)
  | d :: ds, k+1, side => (0, (d.nen : Int) - 0) :: faceBox ds k side

/-- Run a fallible body over a list of loop values. -/
def forM' {α S : Type} (f : α → S → Res S) : List α → S → Res S
  | [], s => .ok s
  | a :: as, s => f a s >>= forM' f as

/-- `BuildFix`, petigaelem.c:1214-1238. -/
def buildSide [Zero V] [One V] [Add V] [Mul V] (c : Ctx V) (dir : Nat) (side : Bool) (s : Fixes V) : Res (Fixes V) :=
  let bcv := c.form.value dir (if side then 1 else 0)
  let bcl := c.form.load dir (if side then 1 else 0)
  if bcv.length ≠ 0 ∨ bcl.length ≠ 0 then
    let A : V := if bcl.length ≠ 0 then c.area dir (if side then 1 else 0) else 1
    forM' (fun x s => do
      let a := c.node x
      let fix ← addFixa c a bcv s.fix
      let flux ← addFlux c a A bcl s.flux
      .ok ⟨fix, flux⟩) (box (faceBox c.dirs dir side)) s
  else .ok s

/-- `IGAElementBuildFix`, petigaelem.c:1263-1284, without collocation. -/
def build [Zero V] [One V] [Add V] [Mul V] (c : Ctx V) : Res (Fixes V) :=
  forM' (fun (p : EDir × Nat) s =>
    (if p.1.id = 0 ∧ ¬ p.1.periodic then buildSide c p.2 false s else .ok s) >>= fun s =>
    if p.1.id = p.1.size - 1 ∧ ¬ p.1.periodic then buildSide c p.2 true s else .ok s) c.dirs.zipIdx ⟨[], []⟩

/-- The tests of one node in the collocation branch, petigaelem.c:1311-1316: per direction
`if (iA == L) AddFixa(bc[i][0]) else if (iA == R) AddFixa(bc[i][1])`, with `L = 0` always and `R` the last node of a
direction that is not periodic (`PETSC_MAX_INT` otherwise, never reached by a node). -/
def collocNode (c : Ctx V) (a : Int) : List (EDir × Nat) → List Int → List (Int × V) → Res (List (Int × V))
  | (d, i) :: ds, x :: xs, l =>
    let A := d.offset + x
    (if A = 0 then addFixa c a (c.form.value i 0) l
      else if ¬ d.periodic ∧ A = d.size - 1 then addFixa c a (c.form.value i 1) l
      else .ok l) >>= fun l => collocNode c a ds xs l
  | _, _, l => .ok l

/-- `IGAElementBuildFix`, petigaelem.c:1285-1324, with collocation: `a` counts the nodes in loop order. -/
def buildColloc (c : Ctx V) : Res (Fixes V) := do
  let r ← forM' (fun x (s : Int × List (Int × V)) => do
    let l ← collocNode c s.1 c.dirs.zipIdx x s.2
    .ok (s.1 + 1, l)) (box (c.dirs.map fun d => (0, (d.nen : Int)))) (0, [])
  .ok ⟨r.2, []⟩

/-! ### Use of the lists

Element vectors and matrices are arrays with arbitrary contents; `K[i*N+j]` is the entry in row `i`, column `j`. -/

/-- `for (i=0; i<n; i++) body`. -/
def loop {S : Type} (n : Nat) (body : Int → S → S) (s : S) : S :=
  (List.range n).foldl (fun s (i : Nat) => body i s) s

/-- `IGAElementDelValues`, petigaelem.c:1327-1341. -/
def delValues [Zero V] (fix : List (Int × V)) (U : Int → V) : Int → V :=
  fix.foldl (fun U p => upd U p.1 0) U

/-- `IGAElementFixValues`, petigaelem.c:1343-1358: the saved values `ufix` (paired with index and prescribed value)
and the modified array. -/
def fixValues (fix : List (Int × V)) (U : Int → V) : List (Int × V × V) × (Int → V) :=
  fix.foldl (fun s p => (s.1 ++ [(p.1, p.2, s.2 p.1)], upd s.2 p.1 p.2)) ([], U)

/-- One constrained index in `IGAElementFixSystem`, petigaelem.c:1378-1387. -/
def fixOne [Zero V] [One V] [Sub V] [Mul V] (M N : Nat) (k : Int) (v : V) (s : (Int → V) × (Int → V)) :
    (Int → V) × (Int → V) :=
  let F := loop M (fun i F => upd F i (F i - s.1 (i * N + k) * v)) s.2
  let K := loop M (fun i K => upd K (i * N + k) 0) s.1
  let K := loop N (fun j K => upd K (k * N + j) 0) K
  let K := upd K (k * N + k) 1
  (K, upd F k v)

/-- `IGAElementFixSystem`, petigaelem.c:1366-1390, without collocation. -/
def fixSystem [Zero V] [One V] [Add V] [Sub V] [Mul V] (M N : Nat) (s : Fixes V) (K F : Int → V) :
    (Int → V) × (Int → V) :=
  let F := s.flux.foldl (fun F p => upd F p.1 (F p.1 + p.2)) F
  s.fix.foldl (fun KF p => fixOne M N p.1 p.2 KF) (K, F)

/-- `IGAElementFixFunction`, petigaelem.c:1447-1462, without collocation; `sv` is the list of `fixValues`. -/
def fixFunction [Sub V] (flux : List (Int × V)) (sv : List (Int × V × V)) (F : Int → V) : Int → V :=
  let F := flux.foldl (fun F p => upd F p.1 (F p.1 - p.2)) F
  sv.foldl (fun F p => upd F p.1 (p.2.2 - p.2.1)) F

/-- `IGAElementFixJacobian`, petigaelem.c:1489-1501, without collocation. -/
def fixJacobian [Zero V] [One V] (M N : Nat) (fix : List (Int × V)) (J : Int → V) : Int → V :=
  fix.foldl (fun J p =>
    let J := loop M (fun i J => upd J (i * N + p.1) 0) J
    let J := loop N (fun j J => upd J (p.1 * N + j) 0) J
    upd J (p.1 * N + p.1) 1) J

/-! ### Collocation -/

/-- Store into an array with `n` entries. -/
def store (n : Int) (A : Int → V) (i : Int) (v : V) : Res (Int → V) :=
  if 0 ≤ i ∧ i < n then .ok (upd A i v) else .ub

/-- One condition on field `f` in the collocation branch of `IGAElementFixSystem`, petigaelem.c:1414-1420 and
1427-1433: row `f` becomes `row` and the right-hand side `v`.  `K` has `N*N` and `F` has `N` entries,
`N = nen*dof` (petigaelem.c:236-248). -/
def setRow [Zero V] (nen dof : Nat) (row : Int → V) (f : Int) (v : V) (s : (Int → V) × (Int → V)) :
    Res ((Int → V) × (Int → V)) := do
  let N : Int := nen * dof
  let K ← forM' (fun (j : Nat) K => store (N*N) K (f * N + j) 0) (List.range (nen * dof)) s.1
  let K ← forM' (fun (a : Nat) K => store (N*N) K (f * N + a * dof + f) (row a)) (List.range nen) K
  let F ← store N s.2 f v
  .ok (K, F)

/-- The collocation branch of `IGAElementFixSystem`, petigaelem.c:1391-1438.  `nrm i side a` is the normal
derivative `DOT(dim,&dshape[a*dim],normal)` of shape function `a`, `shape a` its value. -/
def fixSystemColloc [Zero V] (c : Ctx V) (nrm : Nat → Bool → Int → V) (shape : Int → V) (K F : Int → V) :
    Res ((Int → V) × (Int → V)) :=
  forM' (fun (p : (EDir × Nat) × Bool) s => do
    let side : Int := if p.2 then 1 else 0
    let e := if p.2 then p.1.1.size - 1 else 0
    if p.1.1.id = e then do
      let s ← forM' (fun (b : Int × V) s => setRow c.nen c.dof (nrm p.1.2 p.2) b.1 b.2 s) (c.form.load p.1.2 side) s
      forM' (fun (b : Int × V) s => setRow c.nen c.dof shape b.1 b.2 s) (c.form.value p.1.2 side) s
    else .ok s) (c.dirs.zipIdx.flatMap fun d => [(d, false), (d, true)]) (K, F)

/-- The collocation branch of `IGAElementFixFunction`, petigaelem.c:1463-1480; `row` is `rowmap[0]`. -/
def fixFunctionColloc [Sub V] (dof : Nat) (row : Int) (colmap : Int → Int) (sv : List (Int × V × V)) (F : Int → V) :
    Int → V :=
  sv.foldl (fun F p =>
    let a := Int.tdiv p.1 dof
    let f := Int.tmod p.1 dof
    if row = colmap a then upd F f (p.2.2 - p.2.1) else F) F

/-- The collocation branch of `IGAElementFixJacobian`, petigaelem.c:1502-1522. -/
def fixJacobianColloc [Zero V] (nen dof : Nat) (row : Int) (colmap : Int → Int) (shape : Int → V)
    (fix : List (Int × V)) (J : Int → V) : Int → V :=
  fix.foldl (fun J p =>
    let a := Int.tdiv p.1 dof
    let f := Int.tmod p.1 dof
    if row = colmap a then
      let N : Int := nen * dof
      let J := loop (nen * dof) (fun j J => upd J (f * N + j) 0) J
      loop nen (fun i J => upd J (f * N + i * dof + f) (shape i)) J
    else J) J

end PetIGA.Fix
