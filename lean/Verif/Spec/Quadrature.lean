import Mathlib.MeasureTheory.Integral.IntervalIntegral.Basic
import Mathlib.Analysis.SpecialFunctions.Integrals.Basic
/-
Independent specification: the sum a quadrature rule computes, and the integral it approximates.
-/
namespace PetIGA.Spec

/-- `Σ_i w_i f(x_i)`. -/
def quadSum {K : Type} [Field K] (X W : List K) (f : K → K) : K :=
  (List.zipWith (fun x w => w * f x) X W).sum

/-- `∫_{-1}^{1} f`. -/
noncomputable def integral11 (f : Polynomial ℝ) : ℝ := ∫ x in (-1:ℝ)..1, f.eval x

end PetIGA.Spec
