import Verif.Spec.Deriv
import Verif.Model.Kernel
/-
What it means for the tables of a point to hold the derivatives of a family of functions, and the NURBS quotient.
-/
namespace PetIGA.Spec
open PetIGA.Ker

/-- The tables hold the values and the partial derivatives up to order `r` of the functions `f a` at `x`:
`Nr(i1,..,ir,a) = ∂_{i1} ⋯ ∂_{ir} f_a (x)`. -/
def Holds {d : Nat} {ι : Type} (r : Nat) (T : Tab ℝ d ι) (f : ι → (Fin d → ℝ) → ℝ) (x : Fin d → ℝ) : Prop :=
  (∀ a, T.t0 a = f a x) ∧
  (1 ≤ r → ∀ i a, T.t1 i a = pd i (f a) x) ∧
  (2 ≤ r → ∀ i j a, T.t2 i j a = pd i (pd j (f a)) x) ∧
  (3 ≤ r → ∀ i j k a, T.t3 i j k a = pd i (pd j (pd k (f a))) x) ∧
  (4 ≤ r → ∀ i j k l a, T.t4 i j k l a = pd i (pd j (pd k (pd l (f a)))) x)

/-- The rational functions `w_a N_a / ∑_b w_b N_b`. -/
noncomputable def quotient {d : Nat} {ι : Type} [Fintype ι] (W : ι → ℝ) (N : ι → (Fin d → ℝ) → ℝ) :
    ι → (Fin d → ℝ) → ℝ :=
  fun a y => W a * N a y / ∑ b, W b * N b y

end PetIGA.Spec
