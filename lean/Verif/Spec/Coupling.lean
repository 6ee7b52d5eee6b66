import Verif.Spec.Knots
import Mathlib.Data.List.Forall2
/-
Independent specification of the couplings between the nodes of a tensor-product grid.
-/
namespace PetIGA.Spec

variable {K : Type} [LinearOrder K]

/-- Node `i` of a direction with `N` nodes stands for basis function `a` (functions that differ by a multiple of `N` are
identified on a periodic direction; otherwise there are `N` functions and each is its own node). -/
def NodeOf (N a i : Int) : Prop := 0 ≤ i ∧ i < N ∧ ∃ t : Int, a = i + t * N

/-- Nodes `i` and `j` of a direction both have a basis function that is nonzero on some common element `[U k, U (k+1)]`
of the domain (the functions that are nonzero there are `k-p, …, k`). -/
def Coupled (p m : Int) (U : Int → K) (N i j : Int) : Prop :=
  ∃ k a b, IsElement p m U k ∧ k - p ≤ a ∧ a ≤ k ∧ k - p ≤ b ∧ b ≤ k ∧ NodeOf N a i ∧ NodeOf N b j

end PetIGA.Spec
