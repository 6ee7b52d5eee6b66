import Verif.Spec.Layout
import Mathlib.Algebra.Order.Field.Basic
/-
Independent specification of data attached to the control points of a grid, as stored by one process.
-/
namespace PetIGA.Spec

variable {K : Type} [Field K] [LinearOrder K] [IsStrictOrderedRing K]

/-- `arr` holds `n` numbers per control point of the block `∏ [start_d, start_d + width_d)`: those of control point `y` at
position `n*(y₀-s₀ + w₀*(y₁-s₁ + …)) + c` are `f y c`. -/
structure Stores (start width : List Int) (n : Nat) (arr : List K) (f : List Int → Nat → K) : Prop where
  length : (arr.length : Int) = n * prod width
  entry : ∀ y, InBlock start width y → ∀ c, c < n → arr[((n:Int) * flat width (rel start y) + c).toNat]? = some (f y c)

/-- `arr`, when present, holds the weights; without an array all weights are 1. -/
def StoresWeights (start width : List Int) (arr : Option (List K)) (w : List Int → K) : Prop :=
  match arr with
  | some a => Stores start width 1 a fun y _ => w y
  | none => ∀ y, InBlock start width y → w y = 1

end PetIGA.Spec
