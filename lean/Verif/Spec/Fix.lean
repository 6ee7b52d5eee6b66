import Verif.Spec.Layout
import Verif.Spec.Form
/-
Independent specification of the boundary conditions of one element: which sides of the domain it lies on, which of
its nodes lie on a side, and what is prescribed there.
-/
namespace PetIGA.Spec

/-- One direction of an element: number of its basis functions, position of the element, number of elements, and
whether the direction is periodic. -/
structure ElemDir where
  nen : Int
  id : Int
  size : Int
  periodic : Bool

/-- The sides of a domain, in the order `(0,low) (0,high) (1,low) (1,high) …`. -/
def sides (dim : Nat) : List (Nat × Bool) := (List.range dim).flatMap fun i => [(i, false), (i, true)]

/-- The node with multi-index `x` lies on side `s` of its element, and this side of the element lies on the boundary
of the domain. -/
def OnDomainSide (E : List ElemDir) (x : List Int) (s : Nat × Bool) : Bool :=
  match E[s.1]?, x[s.1]? with
  | some d, some xi =>
    !d.periodic && (if s.2 then decide (d.id = d.size - 1 ∧ xi = d.nen - 1) else decide (d.id = 0 ∧ xi = 0))
  | _, _ => false

/-- The value prescribed for field `c` at node `x` by the conditions `bc axis side field`: that of the last side,
in the order of `sides`, the node lies on and which prescribes one. -/
def prescribed {V : Type} (E : List ElemDir) (bc : Int → Int → Int → Option V) (x : List Int) (c : Int) : Option V :=
  (sides E.length).reverse.findSome? fun s =>
    if OnDomainSide E x s then bc s.1 (if s.2 then 1 else 0) c else none

/-- The contributions of loads to field `c` at node `x`: load times area, for all sides the node lies on. -/
def loads {V : Type} [Mul V] (E : List ElemDir) (bc : Int → Int → Int → Option V) (area : Int → Int → V)
    (x : List Int) (c : Int) : List V :=
  (sides E.length).filterMap fun s =>
    if OnDomainSide E x s then (bc s.1 (if s.2 then 1 else 0) c).map (· * area s.1 (if s.2 then 1 else 0)) else none

end PetIGA.Spec
