import Verif.Spec.Fix
/-
Independent specification of Dirichlet conditions at the nodes of the grid.
-/
namespace PetIGA.Spec

/-- One direction of the grid of nodes: first node, last node, and whether it is periodic. -/
structure NodeDir where
  lo : Int
  hi : Int
  periodic : Bool

/-- Node `X` lies on side `s` of the grid. -/
def OnGridSide (D : List NodeDir) (X : List Int) (s : Nat × Bool) : Bool :=
  match D[s.1]?, X[s.1]? with
  | some d, some x => !d.periodic && (if s.2 then decide (x = d.hi) else decide (x = d.lo))
  | _, _ => false

/-- The value prescribed for field `c` at node `X`: that of the last side the node lies on which prescribes one. -/
def nodePrescribed {V : Type} (D : List NodeDir) (bc : Int → Int → Int → Option V) (X : List Int) (c : Int) : Option V :=
  (sides D.length).reverse.findSome? fun s =>
    if OnGridSide D X s then bc s.1 (if s.2 then 1 else 0) c else none

end PetIGA.Spec

namespace PetIGA.Spec

/-- A collocation point lies on side `s` of the domain. -/
def PointOnSide (E : List ElemDir) (s : Nat × Bool) : Bool :=
  match E[s.1]? with
  | some d => !d.periodic && (if s.2 then decide (d.id = d.size - 1) else decide (d.id = 0))
  | none => false

/-- The condition that replaces equation `f` of a collocation point: that of the last side the point lies on which
has one, the value before the load (`true`: value).  -/
def pointCondition {V : Type} (E : List ElemDir) (val load : Int → Int → Int → Option V) (f : Int) :
    Option ((Nat × Bool) × Bool × V) :=
  (sides E.length).reverse.findSome? fun s =>
    if PointOnSide E s then
      ((val s.1 (if s.2 then 1 else 0) f).map fun v => (s, true, v)).or
      ((load s.1 (if s.2 then 1 else 0) f).map fun v => (s, false, v))
    else none

end PetIGA.Spec
