import Mathlib.Analysis.Calculus.Deriv.Basic
import Mathlib.Data.Real.Sqrt
import Mathlib.Data.Fintype.BigOperators
/-
Independent specification of the boundary of an element: the physical map of an element in the plane or in space given
by control points and weights, and the length and surface elements of its restriction to a side.
-/
namespace PetIGA.Spec
open Finset

/-- `∑ B_a P_a`, or `∑ w_a B_a P_a / ∑ w_a B_a` for a rational map. -/
noncomputable def combine {ι : Type} [Fintype ι] (rational : Bool) (w B P : ι → ℝ) : ℝ :=
  if rational then (∑ a, w a * B a * P a) / ∑ a, w a * B a else ∑ a, B a * P a

/-- Coordinate `i` of the image of `(u,v)`: element with `m × n` functions `N_a(u) M_b(v)`, the control point
of function `(a,b)` is entry `a + m b` of the arrays, two coordinates each. -/
noncomputable def map2 (m n : Nat) (rational : Bool) (w x : Nat → ℝ) (N : Fin m → ℝ → ℝ) (M : Fin n → ℝ → ℝ) (u v : ℝ)
    (i : Fin 2) : ℝ :=
  combine rational (fun a : Fin m × Fin n => w (a.1 + m * a.2)) (fun a => N a.1 u * M a.2 v)
    (fun a => x (i + 2 * (a.1 + m * a.2)))

/-- Coordinate `i` of the image of `(u,v,t)`: element with `m × n × l` functions. -/
noncomputable def map3 (m n l : Nat) (rational : Bool) (w x : Nat → ℝ) (N : Fin m → ℝ → ℝ) (M : Fin n → ℝ → ℝ)
    (L : Fin l → ℝ → ℝ) (u v t : ℝ) (i : Fin 3) : ℝ :=
  combine rational (fun a : Fin m × Fin n × Fin l => w (a.1 + m * (a.2.1 + n * a.2.2)))
    (fun a => N a.1 u * M a.2.1 v * L a.2.2 t) (fun a => x (i + 3 * (a.1 + m * (a.2.1 + n * a.2.2))))

/-- Length element of a plane curve at parameter `s`. -/
noncomputable def lengthElement (c : ℝ → Fin 2 → ℝ) (s : ℝ) : ℝ :=
  Real.sqrt ((deriv (fun s => c s 0) s)^2 + (deriv (fun s => c s 1) s)^2)

/-- Length of the vector product. -/
noncomputable def crossNorm (s t : Fin 3 → ℝ) : ℝ :=
  Real.sqrt ((s 1 * t 2 - s 2 * t 1)^2 + (s 2 * t 0 - s 0 * t 2)^2 + (s 0 * t 1 - s 1 * t 0)^2)

/-- Surface element `|∂₁S × ∂₂S|` of a parametrised surface at `(s,t)`. -/
noncomputable def surfaceElement (S : ℝ → ℝ → Fin 3 → ℝ) (s t : ℝ) : ℝ :=
  crossNorm (fun i => deriv (fun s => S s t i) s) (fun i => deriv (fun t => S s t i) t)

end PetIGA.Spec
