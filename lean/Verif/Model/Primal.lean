import Verif.Model.BDDC

/-!
Model of the primal vertices `IGAPreparePCBDDC` hands to the BDDC preconditioner (src/petigapcbddc.c:262-306).
-/

namespace PetIGA.BDDC
open PetIGA.Lay PetIGA.Grid

variable {K : Type}

/-- `corner[i]`, petigapcbddc.c:281-283: the local index of the middle of the overlap at the upper side. -/
def corner (d : Dir) : Int :=
  let lend := d.nodeLstart + d.nodeLwidth
  let gend := d.nodeGstart + d.nodeGwidth
  d.nodeGwidth - Int.tdiv (gend - lend) 2 - 1

/-- `Index`, petigapcbddc.c:21-24. -/
def index3 (N0 N1 i j k : Int) : Int := i + j * N0 + k * N0 * N1

/-- `vertex[i][j][k]` after all assignments, petigapcbddc.c:285-297; `false` and `true` stand for the indices 0 and 1.  The
directions beyond `dim` have `node_gwidth` 1 (petiga.c:1291), `proc_ranks` 0 (petiga.c:1145), `wrap` false and `corner` 0. -/
def vertex (L : Layout K) (i j k : Bool) : Int :=
  let dim := L.dir.length
  let shape := L.dir.map Dir.nodeGwidth
  let corner := L.dir.map corner
  let rank := L.ranks
  let wrap := L.axes.map fun ax => ax.periodic
  if k = false ∧ (rank.getD 2 0 > 0 ∨ wrap.getD 2 false = true) then -1
  else if j = false ∧ (rank.getD 1 0 > 0 ∨ wrap.getD 1 false = true) then -1
  else if i = false ∧ (rank.getD 0 0 > 0 ∨ wrap.getD 0 false = true) then -1
  else if dim < 2 ∧ j = true ∧ k = false then -1
  else if dim < 3 ∧ k = true then -1
  else index3 (shape.getD 0 1) (shape.getD 1 1) (if i then corner.getD 0 0 else 0) (if j then corner.getD 1 0 else 0)
    (if k then corner.getD 2 0 else 0)

/-- The array `index` (the table in memory order), petigapcbddc.c:279, 298. -/
def table (L : Layout K) : List Int :=
  [vertex L false false false, vertex L false false true, vertex L false true false, vertex L false true true,
   vertex L true false false, vertex L true false true, vertex L true true false, vertex L true true true]

/-- `ip[0..np)` after `PetscSortInt`, petigapcbddc.c:298-302: the block indices of the index set. -/
def primal (L : Layout K) : List Int := ((table L).filter fun v => v ≥ 0).insertionSort (· ≤ ·)

/-- The index set `ISCreateBlock(comm,dof,np,ip)`, petigapcbddc.c:304 (contract of `ISCreateBlock`): the unknowns of the nodes. -/
def primalIS (dof : Nat) (L : Layout K) : List Int :=
  (primal L).flatMap fun v => (List.range dof).map fun (c : Nat) => (dof:Int) * v + c

end PetIGA.BDDC
