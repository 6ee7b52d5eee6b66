import Verif.Model.Basic
import Mathlib.Algebra.Order.Field.Basic
/-
Model of src/petigaaxis.c.

Knot values live in an arbitrary linearly ordered field `K` (exact arithmetic).  A knot array
`PetscReal U[]` with valid indices `0..m` is a function `U : Int → K` together with `m`: entries outside
`0..m` stand for arbitrary memory, and since every theorem quantifies over all such functions, no result
may depend on them (`C04_reads_in_range` proves it for the search itself).
Functions that update an axis return the return code together with the axis after the call, so that a
failing call that has already modified the axis is visible.
-/
namespace PetIGA.Ax

variable {K : Type} [Field K] [LinearOrder K] [IsStrictOrderedRing K]

/-- `for (j=k+1; j<m; j++) if (U[j] > U[k]) return j; return m;` petigaaxis.c:487-488.
`fuel` is the number of remaining loop iterations, `u` is `U[k]`. -/
def scanUp (m : Int) (U : Int → K) (u : K) : Nat → Int → Int
  | 0, _ => m
  | f+1, j => if U j > u then j else scanUp m U u f (j+1)

/-- `for (j=k-1; j>0; j--) if (U[j] < U[k]) return j; return 0;` petigaaxis.c:491-492. -/
def scanDown (U : Int → K) (u : K) : Nat → Int → Int
  | 0, _ => 0
  | f+1, j => if U j < u then j else scanDown U u f (j-1)

/-- `IGA_NextKnot`, petigaaxis.c:482-494. -/
def nextKnot (m : Int) (U : Int → K) (k dir : Int) : Int :=
  if dir ≥ 0 then
    if k < 0 then 0 else scanUp m U (U k) (m - (k+1)).toNat (k+1)
  else
    if k > m then m else scanDown U (U k) (k-1).toNat (k-1)

/-- `struct _n_IGAAxis` (include/petiga.h), without the reference count. -/
structure Axis (K : Type) where
  periodic : Bool
  p : Int
  m : Int
  U : Int → K
  nnp : Int
  nel : Int
  span : List Int

/-- `IGAAxisCreate`, petigaaxis.c:3-27 (and the state restored by `IGAAxisReset`, :44-71).
`junk` stands for the memory around the two-entry array. -/
def create (junk : Int → K) : Axis K :=
  { periodic := false, p := 0, m := 1,
    U := fun i => if i = 0 then -(1/2) else if i = 1 then 1/2 else junk i,
    nnp := 1, nel := 1, span := [0] }

/-- `IGAAxisSetPeriodic`, petigaaxis.c:147-153. -/
def setPeriodic (ax : Axis K) (b : Bool) : Res Unit × Axis K := (.ok (), { ax with periodic := b })

/-- `IGAAxisSetDegree`, petigaaxis.c:177-187. -/
def setDegree (ax : Axis K) (p : Int) : Res Unit × Axis K :=
  if p < 1 then (.err .outOfRange, ax)
  else if ax.p > 0 ∧ ax.m > 1 ∧ ax.p ≠ p then (.err .wrongState, ax)
  else (.ok (), { ax with p := p })

/-- The monotonicity check `for (k=1; k<=m; k++) if (U[k-1] > U[k]) SETERRQ`, petigaaxis.c:217-220. -/
def increasing (m : Int) (U : Int → K) : Bool :=
  (List.range m.toNat).all fun k => !decide (U (k:Int) > U ((k:Int)+1))

/-- The multiplicity check `for (k=1,j=m; k<m; k=j) { j = IGA_NextKnot(m,U,k,1); if (j-k > p) SETERRQ }`,
petigaaxis.c:221-225 (`fuel` ≥ number of iterations). -/
def multOk (p m : Int) (U : Int → K) : Nat → Int → Bool
  | 0, _ => true
  | f+1, k =>
    if k < m then
      let j := nextKnot m U k 1
      if j - k > p then false else multOk p m U f j
    else true

/-- The loop `k = p; while ((k = IGA_NextKnot(m,U,k,1)) <= n+1) index[count++] = k-1;`
of `IGAAxisGetSpans`, petigaaxis.c:299-303. -/
def spansLoop (n m : Int) (U : Int → K) : Nat → Int → List Int
  | 0, _ => []
  | f+1, k =>
    let k' := nextKnot m U k 1
    if k' ≤ n+1 then (k'-1) :: spansLoop n m U f k' else []

/-- `IGAAxisGetSpans` when the span list has to be computed, petigaaxis.c:294-305. -/
def computeSpans (p m : Int) (U : Int → K) : List Int :=
  spansLoop (m-p-1) m U (m+1).toNat p

/-- The node count computed by `IGAAxisSetKnots` (petigaaxis.c:238-249) and `IGAAxisSetUp`
(petigaaxis.c:467-478). -/
def computeNnp (periodic : Bool) (p m : Int) (U : Int → K) : Int :=
  let n := m - p - 1
  if periodic then
    let k := n+1
    let j := nextKnot m U k 1
    let s := j - k
    let C := p - s
    n - C
  else n + 1

/-- `IGAAxisSetKnots`, petigaaxis.c:202-251. -/
def setKnots (ax : Axis K) (m : Int) (U : Int → K) : Res Unit × Axis K :=
  if ax.p < 1 then (.err .order, ax)
  else if m < 2*ax.p+1 then (.err .outOfRange, ax)
  else if ¬ increasing m U then (.err .outOfRange, ax)
  else if ¬ multOk ax.p m U m.toNat 1 then (.err .outOfRange, ax)
  else
    let sp := computeSpans ax.p m U
    (.ok (), { ax with
      m := m, U := U, span := sp, nel := sp.length, nnp := computeNnp ax.periodic ax.p m U })

/-- `IGAAxisInit`, petigaaxis.c:312-321: it overwrites the degree before validating the knots. -/
def init (ax : Axis K) (p m : Int) (U : Int → K) : Res Unit × Axis K :=
  let ax0 := { ax with p := 0 }
  match setDegree ax0 p with
  | (.ok _, ax1) => setKnots ax1 m U
  | r => r

/-- `IGAAxisSetUp`, petigaaxis.c:456-480.  `IGAAxisGetSpans` recomputes the spans only when the pointer is
`NULL`, i.e. when the list is empty (`PetscMalloc1(0)` yields `NULL`). -/
def setUp (ax : Axis K) : Res Unit × Axis K :=
  if ax.p < 1 then (.err .order, ax)
  else if ax.m < 2*ax.p+1 then (.err .order, ax)
  else
    let sp := if ax.span = [] then computeSpans ax.p ax.m ax.U else ax.span
    let ne := if ax.span = [] then (sp.length : Int) else ax.nel
    (.ok (), { ax with
      span := sp, nel := ne, nnp := computeNnp ax.periodic ax.p ax.m ax.U })

/-- Array write `U[i] = v`. -/
def upd (U : Int → K) (i : Int) (v : K) : Int → K := fun j => if j = i then v else U j

/-- `for (k=0; k<=p; k++) { U[k] = a; U[m-k] = b; }`, petigaaxis.c:357-360 and :433-436
(`t` iterations already counted). -/
def openPart (m : Int) (a b : K) : Nat → (Int → K) → (Int → K)
  | 0, U => U
  | t+1, U => upd (upd (openPart m a b t U) t a) (m-t) b

/-- `for (j=0; j<s; j++) U[k++] = v;`, petigaaxis.c:362-363 and :438-439. -/
def fillRun (v : K) : Nat → Int → (Int → K) → (Int → K)
  | 0, _, U => U
  | t+1, k, U => fillRun v t (k+1) (upd U k v)

/-- `for (i=1; i<=r-1; i++) …`, petigaaxis.c:361-364 and :437-440: `t` remaining breaks, next break `i`,
next knot index `k`. -/
def fillBreaks (u : Int → K) (s : Nat) : Nat → Int → Int → (Int → K) → (Int → K)
  | 0, _, _, U => U
  | t+1, i, k, U => fillBreaks u s t (i+1) (k+s) (fillRun (u i) s k U)

/-- The first `t` iterations of
`for (k=0; k<=C; k++) { U[C-k] = U[p]-U[m-p]+U[n-k]; U[m-C+k] = U[m-p]-U[p]+U[p+1+k]; }`,
petigaaxis.c:366-369 and :442-445. -/
def periodicPart (p n m C : Int) : Nat → (Int → K) → (Int → K)
  | 0, U => U
  | t+1, U =>
    let V := periodicPart p n m C t U
    let V := upd V (C-t) (V p - V (m-p) + V (n-t))
    upd V (m-C+t) (V (m-p) - V p + V (p+1+t))

/-- The part common to `IGAAxisInitBreaks` (petigaaxis.c:343-376) and `IGAAxisInitUniform`
(petigaaxis.c:419-452): `u 0, …, u r` are the breaks. -/
def fillAxis (ax : Axis K) (r C : Int) (u : Int → K) (mem : Int → K) : Axis K :=
  let p := ax.p
  let s := p - C
  let m := 2*(p+1) + (r-1)*s - 1
  let n := m - p - 1
  let U := if m ≠ ax.m then mem else ax.U
  let U := openPart m (u 0) (u r) (p+1).toNat U
  let U := fillBreaks u s.toNat (r-1).toNat 1 (p+1) U
  let U := if ax.periodic then periodicPart p n m C (C+1).toNat U else U
  { ax with
    m := m, U := U, nel := r,
    span := (List.range r.toNat).map fun (i:Nat) => p + (i:Int)*s,
    nnp := if ax.periodic then n - C else n + 1 }

/-- `PETSC_DECIDE`. -/
def PETSC_DECIDE : Int := -1

/-- `IGAAxisInitBreaks`, petigaaxis.c:323-378.  `mem` is the content of freshly allocated memory. -/
def initBreaks (mem : Int → K) (ax : Axis K) (nu : Int) (u : Int → K) (C : Int) : Res Unit × Axis K :=
  let C := if C = PETSC_DECIDE then ax.p - 1 else C
  if ax.p < 1 then (.err .order, ax)
  else if nu < 2 then (.err .outOfRange, ax)
  else if ¬ ((List.range (nu-1).toNat).all fun i => !decide (u (i:Int) ≥ u ((i:Int)+1))) then
    (.err .outOfRange, ax)
  else if C < 0 ∨ C ≥ ax.p then (.err .wrong, ax)
  else (.ok (), fillAxis ax (nu-1) C u mem)

/-- The equally spaced breaks of `IGAAxisInitUniform`: `Ui` first, `Uf` last (petigaaxis.c:433-436) and
`Ui + i/N*(Uf-Ui)` in between (petigaaxis.c:439). -/
def uniformBreak (N : Int) (Ui Uf : K) (i : Int) : K :=
  if i = 0 then Ui else if i = N then Uf else Ui + (i:K)/(N:K) * (Uf-Ui)

/-- `IGAAxisInitUniform`, petigaaxis.c:401-454. -/
def initUniform (mem : Int → K) (ax : Axis K) (N : Int) (Ui Uf : K) (C : Int) : Res Unit × Axis K :=
  let C := if C = PETSC_DECIDE then ax.p - 1 else C
  if ax.p < 1 then (.err .order, ax)
  else if N < 1 then (.err .wrong, ax)
  else if Ui ≥ Uf then (.err .wrong, ax)
  else if C < 0 ∨ C ≥ ax.p then (.err .wrong, ax)
  else (.ok (), fillAxis ax N C (uniformBreak N Ui Uf) mem)

end PetIGA.Ax
