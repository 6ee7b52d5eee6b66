import Verif.Model.Layout
import Verif.Model.Axis
/-
What `IGAView` prints about a discretisation, petiga.c:158-286.
-/
namespace PetIGA.Vw
open PetIGA.Ax PetIGA.Lay

variable {K : Type} [Field K] [LinearOrder K] [IsStrictOrderedRing K]

/-- The loop of `IGA_ContinuityString`, petiga.c:169-173; the first number bounds the iterations. -/
def contLoop (p m : Int) (U : Int → K) (ke : Int) : Nat → Int → Int × Int → Int × Int
  | 0, _, C => C
  | f+1, k, C =>
    if k < ke then
      let j := nextKnot m U k 1
      contLoop p m U ke f j (min C.1 (p - (j - k)), max C.2 (p - (j - k)))
    else C

/-- `IGA_ContinuityString`, petiga.c:158-176: `none` is the text `*`, `some (a, b)` the text `a` if both are the same and
`a:b` otherwise.  Simplified: the text is not cut to the 7 characters of the buffer. -/
def continuity (ax : Axis K) : Option (Int × Int) :=
  let p := ax.p
  let m := ax.m
  let ks := if ax.periodic then nextKnot m ax.U p (-1) + 1 else p + 1
  let ke := if ax.periodic then nextKnot m ax.U (m - p) 1 - 1 else m - p
  let C := contLoop p m ax.U ke (m + 1).toNat ks (p, -1)
  if ax.nel = 1 ∧ ax.periodic = false then none else some C

/-- `ival`, petiga.c:212: the numbers of nodes and elements of a process. -/
def ownCounts (d : List Dir) : Int × Int :=
  d.foldl (fun a d => (a.1 * d.nodeLwidth, a.2 * d.elemWidth)) (1, 1)

/-- `MPI_Allreduce` with `MPI_SUM`, `MPI_MIN` and `MPI_MAX` of one number of each process. -/
def reduce (x : List Int) : Int × Int × Int :=
  match x with
  | [] => (0, 0, 0)
  | a :: as => (as.foldl (· + ·) a, as.foldl min a, as.foldl max a)

/-- What is printed about an axis, petiga.c:201-205. -/
structure AxisLine where
  p : Int
  C : Option (Int × Int)
  periodic : Bool
  nnp : Int
  nel : Int

/-- What `IGAPrint` prints, petiga.c:177-252, in the default format: the axes (without the names of types and rules), the
process grid, and sum, minimum and maximum of the numbers of nodes and elements of the processes. -/
structure Printed where
  axes : List AxisLine
  procs : List Int
  total : Int
  nnp : Int × Int × Int
  nel : Int × Int × Int

/-- The line of an axis; `elem_sizes`, `node_sizes` are those of the set-up. -/
def axisLine (ax : Axis K) (d : Dir) : AxisLine := ⟨ax.p, continuity ax, ax.periodic, d.nodeSize, d.elemSize⟩

/-- `IGAPrint`, petiga.c:177-252, with the layouts of all processes (it is collective).  The first process writes. -/
def print (Ls : List (Layout K)) : Printed :=
  let L := Ls.head?
  let axes := ((L.map Layout.axes).getD []).zip ((L.map Layout.dir).getD [])
  let sizes := (L.map Layout.procs).getD []
  ⟨axes.map fun x => axisLine x.1 x.2, sizes, sizes.foldl (· * ·) 1,
    reduce (Ls.map fun L => (ownCounts L.dir).1), reduce (Ls.map fun L => (ownCounts L.dir).2)⟩

/-- The types of viewers `IGAView` knows. -/
inductive Viewer where
  | binary | ascii | draw | vtk | glvis | other
  deriving DecidableEq

/-- What `IGAView` does, petiga.c:255-286 (PETSc 3.14 or later). -/
inductive Action where
  | save | print | draw | nothing
  deriving DecidableEq

/-- `IGAView`, petiga.c:255-286. -/
def view (setup : Bool) (v : Option Viewer) : Action :=
  let v := v.getD .ascii
  if ¬ setup then .nothing
  else match v with
    | .binary => .save
    | .ascii => .print
    | .draw => .draw
    | .vtk => .draw
    | .glvis => .draw
    | .other => .nothing

end PetIGA.Vw
