import Verif.Model.Tabulate
/-
Model of the boundary branches of `IGAElementBuildTabulation` (src/petigaelem.c:788-1034): the points of a side of an
element as the boundary callbacks see them.

Simplifications: exact arithmetic; the array `bnd_point` of a direction, which Model/Quad does not keep, is a parameter
(`ends`), and `bnd_weight`, `bnd_detJac` are the numbers 1 stored by src/petigabasis.c:208-209.
-/
namespace PetIGA.Itg
open PetIGA.Quad PetIGA.Drv PetIGA.Ker PetIGA.Ax

/-- `bnd_point[0..1]` of a direction, src/petigabasis.c:203-209: `u0 = U[p]`, `u1 = U[n+1]` with `n = m-p-1`. -/
def endPoints (ax : Axis ℝ) : ℝ × ℝ := (ax.U ax.p, ax.U (ax.m - ax.p - 1 + 1))

/-- `IGA_Quadrature_BNDR`, `IGA_BasisFuns_BNDR`, src/petigaelem.c:787-791: the single point of the direction across the side,
`bnd_point[side]`, `bnd_weight`, `bnd_detJac`, `bnd_value[side]`. -/
noncomputable def endPt {V : Type} (B : Basis ℝ V) (pt : ℝ × ℝ) (side : Bool) : Pt V :=
  ⟨if side then pt.2 else pt.1, 1, 1, some (if side then B.bnd.2 else B.bnd.1)⟩

/-- The direction across the side.  `IGA_Quadrature_SIZE` has counted its points in the element (src/petigaelem.c:764-776), and
`nqp /= NQ[axis]` (src/petigaelem.c:813) divides by that number: an integer division by zero if there is none. -/
noncomputable def acrossPoints {V : Type} (B : Basis ℝ V) (pt : ℝ × ℝ) (id : Int) (side : Bool) : Res (List (Pt V)) :=
  (dirPoints B id).bind fun l => match l with | [] => .ub | _ :: _ => .ok [endPt B pt side]

/-- The tables of the directions on the side `side` of direction `axis`, src/petigaelem.c:838-866, 887-925: the tables of the
end of the domain in direction `axis`, those of the element in the others.  There is no case for `axis` beyond the number of
directions. -/
noncomputable def faceDirs {V : Type} : List (Basis ℝ V) → List (ℝ × ℝ) → List Int → Nat → Bool → List (Res (List (Pt V)))
  | B :: Bs, pt :: _, i :: is, 0, side => acrossPoints B pt i side :: List.zipWith dirPoints Bs is
  | B :: Bs, _ :: pts, i :: is, axis+1, side => dirPoints B i :: faceDirs Bs pts is axis side
  | _, _, _, _, _ => [.ub]

/-- The points of the side `boundary_id = 2*axis+side` of the element with indices `id`, src/petigaelem.c:809-868. -/
noncomputable def facePoints {V : Type} (Bs : List (Basis ℝ V)) (ends : List (ℝ × ℝ)) (id : List Int) (axis : Nat) (side : Bool) :
    Res (List (QP ℝ (List ℝ × List (Option V)))) :=
  (Blk.sequence (faceDirs Bs ends id axis side)).bind fun ls =>
    .ok ((tensorPoints ls).map fun pts =>
      let q := Ker.quadrature (pts.map fun p => (p.x, p.w, p.J))
      ⟨q.2.2, q.2.1, (q.1, pts.map Pt.value)⟩)

/-- `IGAElementBuildTabulation` with `element->atboundary`: the points of the side as the boundary callbacks see them.
`c.boundary` is that same side (`boundary_id` is `2*axis + side`, src/petigaelem.c:811-812). -/
noncomputable def tabulateFace {d nsd nen : Nat} (c : PtIn d nsd (Fin nen)) (Bs : List (Basis ℝ Line)) (ends : List (ℝ × ℝ))
    (id : List Int) (axis : Fin d) (side : Bool) (mem : Nat → Tab ℝ d Nat × PtOut d nsd (Fin nen)) :
    Res (List (QP ℝ (PtData d nsd nen))) :=
  (facePoints Bs ends id axis side).bind fun qs =>
    Blk.sequence (qs.zipIdx.map fun qi =>
      tabulatePoint { c with boundary := some (axis, if side then 1 else 0) } (Bs.map fun B => B.nen.toNat) (mem qi.2) qi.1)

end PetIGA.Itg
