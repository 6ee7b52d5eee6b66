import Verif.Model.Grid
import Mathlib.Data.List.Sort

/-!
Model of the index computations of src/petigapcbddc.c: boundary classification, interface colouring and adjacency graph of
the nodes of one process.

The code works with three directions; those beyond `dim` have one node.  The model takes lists of any length.
-/

namespace PetIGA.BDDC
open PetIGA.Lay PetIGA.Grid

/-! ### Boundary -/

/-- The two bit tables and the two counters, petigapcbddc.c:151-155; `bad` records an access outside the tables. -/
structure Masks where
  D : Int → Bool
  N : Int → Bool
  nd : Int
  nn : Int
  bad : Bool

/-- Write one bit. -/
def put (f : Int → Bool) (i : Int) (b : Bool) : Int → Bool := fun k => if k = i then b else f k

/-- `if (!PetscBTLookupSet(Dmask,i)) ndirichlet++; if (PetscBTLookupClear(Nmask,i)) nneumann--;`, petigapcbddc.c:176-178; `m` is
the size of the tables. -/
def valueStep (m : Int) (s : Masks) (i : Int) : Masks :=
  { D := put s.D i true, N := put s.N i false, nd := if s.D i then s.nd else s.nd + 1, nn := if s.N i then s.nn - 1 else s.nn,
    bad := s.bad || decide (¬ (0 ≤ i ∧ i < m)) }

/-- `if (!PetscBTLookup(Dmask,i)) if (!PetscBTLookupSet(Nmask,i)) nneumann++;`, petigapcbddc.c:181-183. -/
def freeStep (m : Int) (s : Masks) (i : Int) : Masks :=
  if s.D i then { s with bad := s.bad || decide (¬ (0 ≤ i ∧ i < m)) }
  else { s with N := put s.N i true, nn := if s.N i then s.nn else s.nn + 1, bad := s.bad || decide (¬ (0 ≤ i ∧ i < m)) }

/-- The body of the `if`, petigapcbddc.c:172-184: node number `index`, fields `f[0..count)`. -/
def sideStep (bs : Nat) (m : Int) (index : Int) (f : List Int) (s : Masks) : Masks :=
  ((List.range bs).map fun (c : Nat) => (c:Int) + bs*index).foldl (freeStep m) ((f.map fun c => c + bs*index).foldl (valueStep m) s)

/-- The iterations of the loops petigapcbddc.c:166-170, in order: node, its number, direction, side. -/
def visits (shape : List Int) : List ((List Int × Nat) × (Nat × Nat)) :=
  (box (shape.map fun n => (0, n))).zipIdx.flatMap fun x => (List.range shape.length).flatMap fun dir => [(x, (dir, 0)), (x, (dir, 1))]

/-- The condition of the `if`, petigapcbddc.c:171. -/
def onSide (shape : List Int) (x : List Int) (dir side : Nat) : Bool :=
  decide (x.getD dir 0 = if side = 0 then 0 else shape.getD dir 0 - 1)

/-- `IGAComputeBDDCBoundary`, petigapcbddc.c:144-200: the two index arrays.  `shape` has `dim` entries.  An access outside the
tables, and a counter that differs from the number of bits set (the arrays have the counted lengths), are `ub`. -/
def boundary (bs : Nat) (shape : List Int) (atbnd : Nat → Nat → Bool) (field : Nat → Nat → List Int) : Res (List Int × List Int) :=
  let m : Int := bs * shape.foldl (· * ·) 1
  let s := (visits shape).foldl (fun s v =>
      if atbnd v.2.1 v.2.2 && onSide shape v.1.1 v.2.1 v.2.2 then sideStep bs m v.1.2 (field v.2.1 v.2.2) s else s)
    { D := fun _ => false, N := fun _ => false, nd := 0, nn := 0, bad := false }
  let D := ((List.range m.toNat).map fun (i : Nat) => (i:Int)).filter s.D
  let N := ((List.range m.toNat).map fun (i : Nat) => (i:Int)).filter s.N
  if s.bad = true ∨ s.nd ≠ D.length ∨ s.nn ≠ N.length then .ub else .ok (D, N)

/-! ### Colouring and graph -/

/-- One direction of the arguments: `shape[d]`, `start[d]`, `width[d]`, `wrap[d]`. -/
structure CDir where
  shape : Int
  start : Int
  width : Int
  wrap : Bool

/-- `r`, `g` or `b`, petigapcbddc.c:49-51. -/
def layer (d : CDir) (i : Int) : Int :=
  if i > d.start + d.width - 1 then i - (d.start + d.width - 1) else if i < d.start then i - d.start else 0

/-- `Color`, petigapcbddc.c:40-56. -/
def color (g : List CDir) (x : List Int) : Int :=
  natural 1 (g.map fun d => d.shape - d.width + 1) (List.zipWith layer g x)

/-- One direction of `OnGrid`, petigapcbddc.c:27-38. -/
def onGrid1 (d : CDir) (i : Int) : Option Int :=
  let i := if d.wrap then (if i < 0 then i + d.shape else if i ≥ d.shape then i - d.shape else i) else i
  if i < 0 ∨ i ≥ d.shape then none else some i

/-- `OnGrid`: the wrapped indices, or none. -/
def onGrid : List CDir → List Int → Option (List Int)
  | d :: g, i :: x => (onGrid1 d i).bind fun j => (onGrid g x).map fun y => j :: y
  | _, _ => some []

/-- The displacement `s` in direction `d`. -/
def unit (n d : Nat) (s : Int) : List Int := (List.range n).map fun k => if k = d then s else 0

/-- `STENCIL`, petigapcbddc.c:58-65 (for `n = 3`). -/
def stencil (n : Nat) : List (List Int) :=
  ((List.range n).reverse.map fun d => unit n d (-1)) ++ [List.replicate n 0] ++ (List.range n).map fun d => unit n d 1

/-- The neighbours of the same colour, petigapcbddc.c:111-123, before and after `PetscSortInt`. -/
def vertices (g : List CDir) (x : List Int) : List Int :=
  (stencil g.length).filterMap fun s =>
    (onGrid g (List.zipWith (fun i j => i + j) x s)).bind fun y =>
      if color g y = color g x then some (natural 1 (g.map CDir.shape) y) else none

/-- The nodes in loop order. -/
def nodes (g : List CDir) : List (List Int) := box (g.map fun d => (0, d.shape))

/-- The adjacency lists of all local unknowns, petigapcbddc.c:101-133: entry `bs*index + c` is row `c` of node `index`, that is
`adjy[xadj[v] .. xadj[v+1])`. -/
def rows (bs : Nat) (g : List CDir) : List (List Int) :=
  (nodes g).flatMap fun x => (List.range bs).map fun _ =>
    ((vertices g x).insertionSort (· ≤ ·)).flatMap fun v => (List.range bs).map fun (c2 : Nat) => (c2:Int) + bs*v

/-- `IGAComputeBDDCGraph`, petigapcbddc.c:67-142: number of vertices, `xadj` and `adjy`.  The array `adjy` has the length counted
in the first pass (lines 84-97); a different number of writes is `ub`. -/
def graph (bs : Nat) (g : List CDir) : Res (Int × List Int × List Int) :=
  let nvtx : Int := bs * (g.map CDir.shape).foldl (· * ·) 1
  let nadj : Nat := ((nodes g).map fun x => (vertices g x).length).sum * (bs*bs)
  let adjy := (rows bs g).flatten
  let xadj := (rows bs g).scanl (fun p r => p + (r.length:Int)) 0
  if (xadj.length:Int) ≠ nvtx + 1 ∨ adjy.length ≠ nadj then .ub else .ok (nvtx, xadj, adjy)

/-! ### Arguments -/

/-- The arguments `shape`, `start`, `width`, `wrap` computed by `IGAPreparePCBDDC`, petigapcbddc.c:247-257; `P` is
`proc_sizes[i]`. -/
def cdir (P : Int) (periodic : Bool) (d : Dir) : CDir :=
  if P > 1 then { shape := d.nodeGwidth, start := d.nodeLstart - d.nodeGstart, width := d.nodeLwidth, wrap := false }
  else { shape := d.nodeGwidth, start := d.nodeGstart, width := d.nodeGwidth, wrap := periodic }

/-- The arguments `atbnd` computed by `IGAPreparePCBDDC`, petigapcbddc.c:447-456, for one direction. -/
def atbnd1 (periodic : Bool) (P r : Int) (side : Nat) : Bool :=
  !periodic && decide (r = if side = 0 then 0 else P - 1)

/-- The directions handed to `IGAComputeBDDCGraph`, petigapcbddc.c:247-257. -/
def cdirs {K : Type} : List (Ax.Axis K) → List Int → List Dir → List CDir
  | ax :: as, P :: Ps, d :: ds => cdir P ax.periodic d :: cdirs as Ps ds
  | _, _, _ => []

/-- The graph that `IGAPreparePCBDDC` hands to PETSc, petigapcbddc.c:238-260. -/
def prepareGraph {K : Type} (dof : Nat) (L : Layout K) : Res (Int × List Int × List Int) := graph dof (cdirs L.axes L.procs L.dir)

/-- `atbnd`, petigapcbddc.c:449-457. -/
def atbnd {K : Type} (L : Layout K) (dir side : Nat) : Bool :=
  match L.axes[dir]?, L.procs[dir]?, L.ranks[dir]? with
  | some ax, some P, some r => atbnd1 ax.periodic P r side
  | _, _, _ => false

/-- The index lists that `IGAPreparePCBDDC` hands to PETSc, petigapcbddc.c:434-460; `value dir side` are the fields with a value
condition on that side. -/
def prepareBoundary {K : Type} (dof : Nat) (L : Layout K) (value : Nat → Nat → List Int) : Res (List Int × List Int) :=
  boundary dof (L.dir.map Dir.nodeGwidth) (atbnd L) value

end PetIGA.BDDC
