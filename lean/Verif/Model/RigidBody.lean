import Verif.Model.Coords
/-
Model of `IGACreateRigidBody`, src/petigansp.c:119-131.
-/
namespace PetIGA.Crd
open PetIGA.Ax PetIGA.Lay PetIGA.Grid PetIGA.Quad

variable {K : Type} [Field K] [LinearOrder K] [IsStrictOrderedRing K]

/-- The vectors that span the null space of `MatNullSpaceCreateRigidBody(coords,nsp)`, `d` being the block size of
`coords` and `x` its entries (contract of PETSc; PETSc also orthonormalises them, which does not change the span).
Entry `i` is component `i % d` of node `i / d`.  Block size 1: the constants only. -/
def rigidModes (d : Nat) (x : Int → K) : List (Int → K) :=
  match d with
  | 1 => [fun _ => 1]
  | 2 => [fun i => if i % 2 = 0 then 1 else 0, fun i => if i % 2 = 1 then 1 else 0,
      fun i => if i % 2 = 0 then -x (i+1) else x (i-1)]
  | 3 => [fun i => if i % 3 = 0 then 1 else 0, fun i => if i % 3 = 1 then 1 else 0, fun i => if i % 3 = 2 then 1 else 0,
      fun i => if i % 3 = 0 then x (i+1) else if i % 3 = 1 then -x (i-1) else 0,
      fun i => if i % 3 = 1 then -x (i+1) else if i % 3 = 2 then x (i-1) else 0,
      fun i => if i % 3 = 0 then x (i+2) else if i % 3 = 2 then -x (i-2) else 0]
  | _ => []

/-- `IGACreateRigidBody`, src/petigansp.c:119-131: the vectors that span the null space.  The block size of the vector of
coordinates is `nsd` (petigansp.c:54); its entries are the local arrays in rank order. -/
def createRigidBody (huge : K) (types : List BasisType) (geometry dim : Nat) (Ls : List (Layout K)) (xyz : Nat → Option (List K)) :
    Res (List (Int → K)) :=
  (createCoordinates huge types geometry Ls xyz).bind fun outs =>
    .ok (rigidModes (nsdOf dim geometry) fun k => outs.flatten.getD k.toNat 0)

end PetIGA.Crd
