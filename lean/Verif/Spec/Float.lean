import Mathlib.Algebra.Order.Field.Basic
import Mathlib.Algebra.Order.AbsoluteValue.Basic
import Mathlib.Order.Monotone.Defs
import Mathlib.Data.Int.Log
import Mathlib.Data.Rat.Floor
import Mathlib.Algebra.Order.Round
/-
The standard model of floating-point arithmetic.
-/
namespace PetIGA.Spec

variable {K : Type} [Field K] [LinearOrder K]

/-- The result of an operation is the exact result rounded by `fl`: with a relative error of at most `ε`, and such that
the order is kept.  This is IEEE arithmetic (any rounding mode; `ε = 2⁻⁵³` for binary64 rounded to nearest) as long as
there is neither overflow nor underflow. -/
structure Rounding (ε : K) (fl : K → K) : Prop where
  nonneg : 0 ≤ ε
  small : ε < 1
  err : ∀ x, |fl x - x| ≤ ε * |x|
  mono : Monotone fl

/-- A positive number rounded to `t + 1` significant binary digits: the multiple of `2^(e-t)` next to it, where
`2^e ≤ x < 2^(e+1)`. -/
def binaryPos (t : Nat) (x : ℚ) : ℚ := (round (x / 2 ^ (Int.log 2 x - t)) : ℤ) * 2 ^ (Int.log 2 x - t)

/-- Rounding to `t + 1` significant binary digits; `binary 52` is the rounding of IEEE binary64 to nearest, ties away
from zero, without bounds on the exponent. -/
def binary (t : Nat) (x : ℚ) : ℚ := if 0 < x then binaryPos t x else if x < 0 then - binaryPos t (-x) else 0

end PetIGA.Spec
