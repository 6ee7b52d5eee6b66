import Verif.Spec.Layout
/-
Independent specification used for assembled vectors and matrices (C48, C51).  Nothing here refers to the model.
-/
namespace PetIGA.Spec

/-- All multi-indices of the box `[0,n₀)×[0,n₁)×…`, first index fastest. -/
def indices : List Int → List (List Int)
  | [] => [[]]
  | n :: ns => (indices ns).flatMap fun is => (List.range n.toNat).map fun (k : Nat) => (k:Int) :: is

/-- The node a (possibly periodic) function number stands for: each index modulo the number of nodes. -/
def modAll (Ns y : List Int) : List Int := List.zipWith (fun n i => i % n) Ns y

/-- Componentwise sum. -/
def plus (a b : List Int) : List Int := List.zipWith (fun i j => i + j) a b

end PetIGA.Spec
