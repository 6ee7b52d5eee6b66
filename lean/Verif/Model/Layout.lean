import Verif.Model.Part
import Verif.Model.Span
/-
Model of the partitioning done by `IGASetUp_Stage1`, src/petiga.c:1111-1310.  MPI enters only through the
communicator size and the rank of the calling process.
-/
namespace PetIGA.Lay
open PetIGA.Ax PetIGA.Part

variable {K : Type} [Field K] [LinearOrder K] [IsStrictOrderedRing K]

/-- The entries for one direction of the arrays `elem_*`, `geom_*`, `node_*` of `struct _p_IGA`
(include/petiga.h). -/
structure Dir where
  elemSize : Int
  elemStart : Int
  elemWidth : Int
  geomSize : Int
  geomLstart : Int
  geomLwidth : Int
  geomGstart : Int
  geomGwidth : Int
  nodeShift : Int
  nodeSize : Int
  nodeLstart : Int
  nodeLwidth : Int
  nodeGstart : Int
  nodeGwidth : Int
  deriving DecidableEq, Repr

/-- `span[i]`; reading outside the array is undefined. -/
def spanAt (ax : Axis K) (i : Int) : Res Int :=
  Res.ofOption (if i < 0 then none else ax.span[i.toNat]?)

/-- One direction of the Galerkin branch, petiga.c:1155-1207: `P`, `r` are `proc_sizes[i]`, `proc_ranks[i]`;
`N`, `start`, `width` are `elem_sizes[i]`, `elem_start[i]`, `elem_width[i]`. -/
def galerkinDir (ax : Axis K) (P r N start width : Int) : Res Dir := do
  let efirst := start
  let elast := start + width - 1
  let p := ax.p
  let sN ← spanAt ax (N-1)
  let size := sN + 1
  let s0 ← spanAt ax efirst
  let s1 ← spanAt ax elast
  let gstart := s0 - p
  let gend := s1 + 1
  let lstart := s0 - p
  let lend ← (if elast < N-1 then (do let s2 ← spanAt ax (elast+1); Res.ok (s2 - p)) else Res.ok (s1 + 1))
  Res.ok
    { elemSize := N, elemStart := start, elemWidth := width,
      geomSize := size, geomLstart := lstart, geomLwidth := lend - lstart,
      geomGstart := gstart, geomGwidth := gend - gstart,
      nodeShift := 0, nodeSize := ax.nnp, nodeLstart := lstart,
      nodeLwidth := if r = P-1 then ax.nnp - lstart else lend - lstart,
      nodeGstart := gstart, nodeGwidth := gend - gstart }

/-- `IGA_FindSpan(n,p,IGA_Greville(i,p,U),U)`: a search that does not terminate would hang (`ub`). -/
def grevSpan (ax : Axis K) (i : Int) : Res Int :=
  Res.ofOption (findSpan (ax.m+1).toNat (ax.m - ax.p - 1) ax.p (greville i ax.p ax.U) ax.U)

/-- One direction of the collocation branch, petiga.c:1211-1275. -/
def collocDir (ax : Axis K) (P r N start width : Int) : Res Dir := do
  let p := ax.p
  let n := ax.m - p - 1
  let shift := Int.tdiv (n + 1 - N) 2
  let k0 ← grevSpan ax (start + shift)
  let gstart := k0 - shift - p
  let k1 ← grevSpan ax (start + width - 1 + shift)
  let gwidth := k1 - shift + 1 - gstart
  let geomSize := n + 1
  let geomLstart := start + shift
  let geomLwidth := width
  let geomGstart := gstart + shift
  let geomLstart' := if r = 0 then geomLstart - shift else geomLstart
  let geomLwidth' := if r = 0 then geomLwidth + shift else geomLwidth
  Res.ok
    { elemSize := N, elemStart := start, elemWidth := width,
      geomSize := geomSize, geomLstart := geomLstart',
      geomLwidth := if r = P-1 then geomSize - geomLstart' else geomLwidth',
      geomGstart := geomGstart, geomGwidth := if r = P-1 then geomSize - geomGstart else gwidth,
      nodeShift := shift, nodeSize := N, nodeLstart := start, nodeLwidth := width,
      nodeGstart := gstart, nodeGwidth := gwidth }

/-- The values stored for the directions beyond `dim`, petiga.c:1279-1294. -/
def padDir : Dir :=
  { elemSize := 1, elemStart := 0, elemWidth := 1, geomSize := 1, geomLstart := 0, geomLwidth := 1,
    geomGstart := 0, geomGwidth := 1, nodeShift := 0, nodeSize := 1, nodeLstart := 0, nodeLwidth := 1,
    nodeGstart := 0, nodeGwidth := 1 }

/-- `for (i=0; i<dim; i++) IGAAxisSetUp(iga->axis[i])`, petiga.c:1123-1124. -/
def setUpAxes : List (Axis K) → Res (List (Axis K))
  | [] => .ok []
  | ax :: as =>
    match Ax.setUp ax with
    | (.ok _, ax') => do
      let as' ← setUpAxes as
      .ok (ax' :: as')
    | (.err e, _) => .err e
    | (.ub, _) => .ub

/-- Number of elements (Galerkin) or of nodes (collocation) of a direction, petiga.c:1128-1132. -/
def gridSize (colloc : Bool) (ax : Axis K) : Int := if colloc then ax.nnp else ax.nel

/-- Evaluate the directions one after the other. -/
def dirs (colloc : Bool) : List (Axis K) → List Int → List Int → List (Int × Int) → Res (List Dir)
  | ax :: as, P :: Ps, r :: rs, (w, s) :: ds => do
    let d ← if colloc then collocDir ax P r (gridSize colloc ax) s w
            else galerkinDir ax P r (gridSize colloc ax) s w
    let rest ← dirs colloc as Ps rs ds
    .ok (d :: rest)
  | [], [], [], [] => .ok []
  | _, _, _, _ => .ub

/-- What one process knows after Stage 1. -/
structure Layout (K : Type) where
  axes : List (Axis K)
  procs : List Int
  ranks : List Int
  dir : List Dir

/-- `IGASetUp_Stage1`, petiga.c:1111-1310, on the process `rank` of `size`; `procs` is what the user gave to
`IGASetProcessors` (entries below 1 mean `PETSC_DECIDE`).  Simplified: only the data computed from the axes is
kept (the geometry and property arrays it frees are not part of this state). -/
def stage1 (g2 : Guess2) (g3 : Guess3) (colloc : Bool) (size rank : Int) (procs : List Int)
    (axes : List (Axis K)) : Res (Layout K) := do
  let axes ← setUpAxes axes
  let grid := axes.map (gridSize colloc)
  let pr ← partition g2 g3 size rank grid procs
  let ws ← distribute (pr.1.zip (pr.2.zip grid))
  let ds ← dirs colloc axes pr.1 pr.2 ws
  .ok ⟨axes, pr.1, pr.2, ds⟩

end PetIGA.Lay
