import Mathlib.MeasureTheory.Integral.IntervalIntegral.Basic
import Mathlib.Algebra.Polynomial.Eval.Defs
import Mathlib.Analysis.Calculus.Deriv.Basic
/-
Independent specification: integrals over boxes, and functions that are polynomial in every variable.
-/
namespace PetIGA.Spec
open Polynomial

/-- `∫_{a₀}^{b₀} ∫_{a₁}^{b₁} ⋯ f(x₀,x₁,…)` over the box `[a₀,b₀]×[a₁,b₁]×⋯`. -/
noncomputable def integralBox : List (ℝ × ℝ) → (List ℝ → ℝ) → ℝ
  | [], f => f []
  | (a, b) :: bs, f => ∫ x in a..b, integralBox bs fun xs => f (x :: xs)

/-- Inside the box (open in every direction). -/
def InsideBox : List (ℝ × ℝ) → List ℝ → Prop := List.Forall₂ fun ab x => ab.1 < x ∧ x < ab.2

/-- The value of `Π_k P_k(x_k)`. -/
noncomputable def evalProd (P : List ℝ[X]) (xs : List ℝ) : ℝ := (List.zipWith (fun p x => p.eval x) P xs).prod

/-- In the box with its boundary. -/
def InClosedBox : List (ℝ × ℝ) → List ℝ → Prop := List.Forall₂ fun ab x => ab.1 ≤ x ∧ x ≤ ab.2

/-- On the set `D`, `f` is a polynomial whose degree in variable `k` is at most `deg k`. -/
def PolyOn (D : List ℝ → Prop) (deg : List Nat) (f : List ℝ → ℝ) : Prop :=
  ∃ terms : List (List ℝ[X]), (∀ P ∈ terms, List.Forall₂ (fun p d => p.natDegree ≤ d) P deg) ∧
    ∀ xs, D xs → f xs = (terms.map fun P => evalProd P xs).sum

/-- `Σ_l ∂²g/∂x_l²` at `xs`, for a function of `d` variables. -/
noncomputable def laplacian (d : Nat) (g : List ℝ → ℝ) (xs : List ℝ) : ℝ :=
  ∑ l : Fin d, deriv (deriv fun s => g (xs.set l s)) (xs.getD l 0)

end PetIGA.Spec
