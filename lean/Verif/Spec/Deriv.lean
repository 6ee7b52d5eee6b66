import Mathlib.Analysis.Calculus.Deriv.Basic
import Mathlib.Analysis.Calculus.ContDiff.Basic
/-
Specification vocabulary for derivatives: the partial derivatives of elementary calculus.
-/
namespace PetIGA.Spec

/-- The partial derivative `∂f/∂x_i` at `x`: the derivative of `f` along the `i`-th coordinate line through `x`. -/
noncomputable def pd {d : Nat} (i : Fin d) (f : (Fin d → ℝ) → ℝ) : (Fin d → ℝ) → ℝ :=
  fun x => deriv (fun t => f (Function.update x i t)) (x i)

/-- `f` has continuous partial derivatives of every order on the open set `Ω`. -/
def Smooth {d : Nat} (Ω : Set (Fin d → ℝ)) (f : (Fin d → ℝ) → ℝ) : Prop :=
  ContDiffOn ℝ (⊤ : ℕ∞) f Ω

end PetIGA.Spec
