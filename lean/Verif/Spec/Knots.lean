import Mathlib.Algebra.Order.Field.Basic
/-
Independent specification of knot vectors.  A knot vector of degree `p` is `U 0 ≤ … ≤ U m`.
-/
namespace PetIGA.Spec

variable {K : Type} [LinearOrder K]

/-- `U 0 ≤ U 1 ≤ … ≤ U m`. -/
def SortedKnots (m : Int) (U : Int → K) : Prop := ∀ i, 0 ≤ i → i < m → U i ≤ U (i+1)

/-- Legal knot vector: at least `2(p+1)` knots, sorted, and no `p+1` consecutive equal knots among
`U 1, …, U (m-1)` (so interior multiplicity ≤ p, end multiplicity ≤ p+1). -/
structure LegalKnots (p m : Int) (U : Int → K) : Prop where
  degree : 1 ≤ p
  enough : 2*p+1 ≤ m
  sorted : SortedKnots m U
  mult : ∀ i, 1 ≤ i → i + p < m → U i < U (i+p)

/-- Knot interval `[U k, U (k+1)]` is an element of the parametric domain `[U p, U (m-p)]`. -/
def IsElement (p m : Int) (U : Int → K) (k : Int) : Prop := p ≤ k ∧ k ≤ m-p-1 ∧ U k < U (k+1)

end PetIGA.Spec
