import Verif.Model.Quad
import Verif.Model.Kernel
import Verif.Model.Driver
import Verif.Model.Block
/-
Model of the tensor product part of `IGAElementBuildTabulation` (src/petigaelem.c:764-929): the points, weights and basis
tables of an element from the one-dimensional tables of the directions (`IGABasis`, Model/Quad).  Without geometry and
without rational weights the tables are then used as they are (C61 covers those steps).
-/
namespace PetIGA.Itg
open PetIGA.Quad PetIGA.Drv

/-- One point of one direction: coordinate, weight, Jacobian, and the table of the basis functions. -/
structure Pt (V : Type) where
  x : ℝ
  w : ℝ
  J : ℝ
  value : Option V

/-- `while (q >= 0 && w[q] <= 0) q--`, src/petigaelem.c:769-773, from `q = n-1`: the number `q+1` of points kept. -/
noncomputable def trim (w : List ℝ) : Nat → Nat
  | 0 => 0
  | q+1 => if w.getD q 0 ≤ 0 then trim w q else q+1

/-- `IGA_Quadrature_ARGS`, `IGA_BasisFuns_ARGS`, src/petigaelem.c:778-786: the tables of element `id` of a direction. -/
noncomputable def dirPoints {V : Type} (B : Basis ℝ V) (id : Int) : Res (List (Pt V)) :=
  if id < 0 then .ub else
  match B.elems[id.toNat]? with
  | none => .ub
  | some e => .ok ((List.range (trim e.weight B.nqp.toNat)).map fun (q : Nat) =>
      ⟨e.point.getD q 0, e.weight.getD q 0, e.detJac, (e.value[q]?).join⟩)

/-- `do kq=1,knq; do jq=1,jnq; do iq=1,inq`, src/petiga3d.F90:22 (petiga2d.F90, petiga1d.F90): the first direction runs
fastest. -/
def tensorPoints {α : Type} : List (List α) → List (List α)
  | [] => [[]]
  | l :: ls => (tensorPoints ls).flatMap fun rest => l.map fun p => p :: rest

/-- The points of the element with indices `id`, src/petigaelem.c:807-836, 870-886: `detJac`, `weight`, and what the
callback reads (coordinates and the tables of the directions, from which `IGA_BasisFuns` makes those of the point). -/
noncomputable def elemPoints {V : Type} (Bs : List (Basis ℝ V)) (id : List Int) : Res (List (QP ℝ (List ℝ × List (Option V)))) :=
  (Blk.sequence (List.zipWith dirPoints Bs id)).bind fun ls =>
    .ok ((tensorPoints ls).map fun pts =>
      let q := Ker.quadrature (pts.map fun p => (p.x, p.w, p.J))
      ⟨q.2.2, q.2.1, (q.1, pts.map Pt.value)⟩)

end PetIGA.Itg
