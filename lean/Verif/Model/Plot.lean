import Verif.Model.SetUp
/-
Model of `IGADraw`, src/petigadraw.c:245-393, on a viewer that draws in a window: what each process draws.  The other
viewers (`VTK`, `GLVis`) are given the `DM` of `IGAGetDrawDM` (Model/DM).  Drawing itself is PETSc's; the colours of the
lines and points are left out.
-/
namespace PetIGA.Plt
open PetIGA.Ax PetIGA.Lay PetIGA.Quad

variable {K V : Type} [Field K] [LinearOrder K] [IsStrictOrderedRing K]

/-- What is drawn: `PetscDrawSetCoordinates`, `PetscDrawRectangle` with its colour (white or gray), `PetscDrawLine`,
`PetscDrawPoint`. -/
inductive Item (K : Type) where
  | window (x0 y0 x1 y1 : K)
  | rect (x0 y0 x1 y1 : K) (white : Bool)
  | line (x0 y0 x1 y1 : K)
  | point (x y : K)

/-- `IGAAxisGetLimits`, petigaaxis.c:264-273. -/
def limits (ax : Axis K) : K × K := (ax.U ax.p, ax.U (ax.m - ax.p))

/-- The range of a process in one direction for elements, petigadraw.c:321-329: `U[span[a]]`, `U[span[b]+1]` for its first
and last element. -/
def knotRange (ax : Axis K) (d : Dir) : Res (K × K) :=
  (spanAt ax d.elemStart).bind fun a => (spanAt ax (d.elemStart + d.elemWidth - 1)).bind fun b =>
    .ok (ax.U a, ax.U (b+1))

/-- Reading the array of points of a direction. -/
def pointAt (pts : List K) (i : Int) : Res K := Res.ofOption (if i < 0 then none else pts[i.toNat]?)

/-- The range of a process in one direction for collocation, petigadraw.c:330-338: from the middle between its first point
and the one before to the middle between its last point and the one after. -/
def pointRange (pts : List K) (d : Dir) : Res (K × K) :=
  let a := d.nodeLstart
  let b := a + d.nodeLwidth - 1
  let n := d.nodeSize - 1
  (pointAt pts a).bind fun ua =>
  (if a > 0 then (pointAt pts (a-1)).bind fun u => .ok (ua + (u - ua) / 2) else .ok ua).bind fun lo =>
  (pointAt pts b).bind fun ub =>
  (if b < n then (pointAt pts (b+1)).bind fun u => .ok (ub + (u - ub) / 2) else .ok ub).bind fun hi =>
    .ok (lo, hi)

/-- The array `point` of a basis: element after element. -/
def pointsOf (B : Basis K V) : List K := B.elems.flatMap fun e => e.point

/-- The array `weight` of a basis. -/
def weightsOf (B : Basis K V) : List K := B.elems.flatMap fun e => e.weight

/-- `for (i=p; i<=m-p; i = IGA_NextKnot(m,U,i,1))`, petigadraw.c:357-360, 364-367: the knots at which lines are drawn.  A loop that
goes on after `m+1` passes would not end. -/
def lineLoop (m last : Int) (U : Int → K) : Nat → Int → Res (List K)
  | 0, i => if i ≤ last then .ub else .ok []
  | f+1, i => if i ≤ last then (lineLoop m last U f (nextKnot m U i 1)).bind fun r => .ok (U i :: r) else .ok []

/-- The lines of a direction. -/
def lineKnots (ax : Axis K) : Res (List K) := lineLoop ax.m (ax.m - ax.p) ax.U (ax.m + 1).toNat ax.p

/-- The points of a direction that are drawn: those with a positive weight, petigadraw.c:381, 383. -/
def drawn (B : Basis K V) : List K :=
  ((List.zip (pointsOf B) (weightsOf B)).filter fun e => decide (¬ e.2 ≤ 0)).map Prod.fst

/-- `IGADraw` on process `rank` of `size`, petigadraw.c:284-391; `frac` is `(PetscReal)0.05`.  Nothing is drawn unless the
dimension is 2. -/
def draw (frac : K) (colloc : Bool) (size rank : Int) (L : Layout K) (Bs : List (Basis K V)) : Res (List (Item K)) :=
  match L.axes, L.dir, L.ranks, Bs with
  | [ax, bx], [d, e], [r, s], [A, B] =>
    let x := limits ax
    let y := limits bx
    let xb := frac * (x.2 - x.1)
    let yb := frac * (y.2 - y.1)
    (if size > 1 then
      (if colloc then pointRange (pointsOf A) d else knotRange ax d).bind fun rx =>
      (if colloc then pointRange (pointsOf B) e else knotRange bx e).bind fun ry =>
        .ok [Item.rect rx.1 ry.1 rx.2 ry.2 (decide (Int.tmod (r + s) 2 = 1))]
     else .ok []).bind fun procs =>
    (if rank = 0 then
      (lineKnots ax).bind fun us => (lineKnots bx).bind fun vs =>
        .ok (us.map (fun u => Item.line u y.1 u y.2) ++ vs.map (fun v => Item.line x.1 v x.2 v) ++
          (drawn A).flatMap fun u => (drawn B).map fun v => Item.point u v)
     else .ok []).bind fun grid =>
    .ok (Item.window (x.1 - xb) (y.1 - yb) (x.2 + xb) (y.2 + yb) :: (procs ++ grid))
  | _, _, _, _ => .ok []

end PetIGA.Plt
