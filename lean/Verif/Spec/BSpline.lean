import Mathlib.Algebra.Polynomial.Derivative
/-
Independent specification of B-spline basis functions: the Cox–de Boor recursion, with the usual convention
that a term whose denominator vanishes is dropped.
-/
namespace PetIGA.Spec
open Polynomial

variable {K : Type} [Field K]

/-- Cox–de Boor: the value at `u` of the `i`-th B-spline of degree `q` on the knots `U`. -/
def bspline [LinearOrder K] (U : Int → K) : Nat → Int → K → K
  | 0, i, u => if U i ≤ u ∧ u < U (i+1) then 1 else 0
  | q+1, i, u =>
      (if U (i+q+1) - U i = 0 then 0 else (u - U i) / (U (i+q+1) - U i) * bspline U q i u)
    + (if U (i+q+2) - U (i+1) = 0 then 0
       else (U (i+q+2) - u) / (U (i+q+2) - U (i+1)) * bspline U q (i+1) u)

/-- The polynomial that the `i`-th B-spline of degree `q` equals on the knot interval
`[U k, U (k+1))` (that this is what it is, is `piece_eval`). -/
noncomputable def piece (U : Int → K) (k : Int) : Nat → Int → K[X]
  | 0, i => if i = k then 1 else 0
  | q+1, i => C (U (i+q+1) - U i)⁻¹ * (X - C (U i)) * piece U k q i
      + C (U (i+q+2) - U (i+1))⁻¹ * (C (U (i+q+2)) - X) * piece U k q (i+1)

end PetIGA.Spec
