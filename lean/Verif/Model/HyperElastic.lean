import Verif.Model.DemoForms
import Mathlib.Data.Fin.VecNotation
/-
Model of demo/HyperElasticity.c: the constitutive models, the residual and the Jacobian.

The tables are transcribed from the C text entry by entry.  A quotient of two integer literals is C's integer division (`cdiv`), `pow(J,-2/3)` is
a power with such an exponent (`cpow`).  `0.5` is written `1/2` and `1.0` is written `1`.  A model is the function from the deformation gradient to the stress `S` and the
tangent `D` it leaves in its output arrays; the five models compute the deformation gradient, its inverse and the strain tensors with the same text.
Simplifications: exact real arithmetic; the nested loops of `Jacobian` as in Model/DemoForms.lean.  Not modelled: the load stepping of `main`.
-/
namespace PetIGA.Hyp
open PetIGA.Itg PetIGA.Ker PetIGA.Demo PetIGA.Frm

/-- A 3 by 3 array. -/
abbrev M3 := Fin 3 → Fin 3 → ℝ

/-- A 6 by 6 array. -/
abbrev M6 := Fin 6 → Fin 6 → ℝ

/-- The quotient of two integer literals in C: truncated towards zero. -/
def cdiv (a b : Int) : ℝ := ((a.tdiv b : Int) : ℝ)

/-- `pow(x, a/b)` with integer literals `a` and `b`, as in demo/HyperElasticity.c:388 and 561. -/
noncomputable def cpow (x : ℝ) (a b : Int) : ℝ := x ^ (a.tdiv b)

/-- The copies `D[j][i] = D[i][j]` for `i < j`, for example demo/HyperElasticity.c:104-118. -/
def sym (D : M6) : M6 := fun i j => if i ≤ j then D i j else D j i

/-- `F = I + grad u`, demo/HyperElasticity.c:37-39. -/
def deformation (grad_u : M3) : M3 := ![
    ![
      1 + grad_u 0 0,
      grad_u 0 1,
      grad_u 0 2],
    ![
      grad_u 1 0,
      1 + grad_u 1 1,
      grad_u 1 2],
    ![
      grad_u 2 0,
      grad_u 2 1,
      1 + grad_u 2 2]]

/-- `J`, demo/HyperElasticity.c:43-45. -/
def detF (F : M3) : ℝ :=
  F 0 0 * (F 1 1 * F 2 2 - F 1 2 * F 2 1)
    - F 0 1 * (F 1 0 * F 2 2 - F 1 2 * F 2 0)
    + F 0 2 * (F 1 0 * F 2 1 - F 1 1 * F 2 0)

/-- `Finv`, demo/HyperElasticity.c:46-55. -/
noncomputable def invF (F : M3) : M3 :=
  let Jinv := 1 / detF F
  ![
    ![
      (F 1 1 * F 2 2 - F 2 1 * F 1 2) * Jinv,
      -(F 0 1 * F 2 2 - F 0 2 * F 2 1) * Jinv,
      (F 0 1 * F 1 2 - F 0 2 * F 1 1) * Jinv],
    ![
      -(F 1 0 * F 2 2 - F 1 2 * F 2 0) * Jinv,
      (F 0 0 * F 2 2 - F 0 2 * F 2 0) * Jinv,
      -(F 0 0 * F 1 2 - F 1 0 * F 0 2) * Jinv],
    ![
      (F 1 0 * F 2 1 - F 2 0 * F 1 1) * Jinv,
      -(F 0 0 * F 2 1 - F 2 0 * F 0 1) * Jinv,
      (F 0 0 * F 1 1 - F 1 0 * F 0 1) * Jinv]]

/-- `Cinv`, demo/HyperElasticity.c:59-67. -/
def invC (Finv : M3) : M3 := ![
    ![
      Finv 0 0 * Finv 0 0 + Finv 0 1 * Finv 0 1 + Finv 0 2 * Finv 0 2,
      Finv 0 0 * Finv 1 0 + Finv 0 1 * Finv 1 1 + Finv 0 2 * Finv 1 2,
      Finv 0 0 * Finv 2 0 + Finv 0 1 * Finv 2 1 + Finv 0 2 * Finv 2 2],
    ![
      Finv 1 0 * Finv 0 0 + Finv 1 1 * Finv 0 1 + Finv 1 2 * Finv 0 2,
      Finv 1 0 * Finv 1 0 + Finv 1 1 * Finv 1 1 + Finv 1 2 * Finv 1 2,
      Finv 1 0 * Finv 2 0 + Finv 1 1 * Finv 2 1 + Finv 1 2 * Finv 2 2],
    ![
      Finv 2 0 * Finv 0 0 + Finv 2 1 * Finv 0 1 + Finv 2 2 * Finv 0 2,
      Finv 2 0 * Finv 1 0 + Finv 2 1 * Finv 1 1 + Finv 2 2 * Finv 1 2,
      Finv 2 0 * Finv 2 0 + Finv 2 1 * Finv 2 1 + Finv 2 2 * Finv 2 2]]

/-- `C = FᵀF`, demo/HyperElasticity.c:142-150. -/
def rightC (F : M3) : M3 := ![
    ![
      F 0 0 * F 0 0 + F 1 0 * F 1 0 + F 2 0 * F 2 0,
      F 0 0 * F 0 1 + F 1 0 * F 1 1 + F 2 0 * F 2 1,
      F 0 0 * F 0 2 + F 1 0 * F 1 2 + F 2 0 * F 2 2],
    ![
      F 0 1 * F 0 0 + F 1 1 * F 1 0 + F 2 1 * F 2 0,
      F 0 1 * F 0 1 + F 1 1 * F 1 1 + F 2 1 * F 2 1,
      F 0 1 * F 0 2 + F 1 1 * F 1 2 + F 2 1 * F 2 2],
    ![
      F 0 2 * F 0 0 + F 1 2 * F 1 0 + F 2 2 * F 2 0,
      F 0 2 * F 0 1 + F 1 2 * F 1 1 + F 2 2 * F 2 1,
      F 0 2 * F 0 2 + F 1 2 * F 1 2 + F 2 2 * F 2 2]]

/-- The stress of `NeoHookeanModel`, demo/HyperElasticity.c:70-79. -/
noncomputable def neoS (lambda mu J : ℝ) (Cinv : M3) : M3 :=
  let temp := ((1/2) * lambda) * (J * J - 1)
  ![
    ![
      temp * Cinv 0 0 + mu * (1 - Cinv 0 0),
      temp * Cinv 0 1 + mu * (-Cinv 0 1),
      temp * Cinv 0 2 + mu * (-Cinv 0 2)],
    ![
      temp * Cinv 1 0 + mu * (-Cinv 1 0),
      temp * Cinv 1 1 + mu * (1 - Cinv 1 1),
      temp * Cinv 1 2 + mu * (-Cinv 1 2)],
    ![
      temp * Cinv 2 0 + mu * (-Cinv 2 0),
      temp * Cinv 2 1 + mu * (-Cinv 2 1),
      temp * Cinv 2 2 + mu * (1 - Cinv 2 2)]]

/-- The tangent of `NeoHookeanModel`, demo/HyperElasticity.c:82-119. -/
noncomputable def neoD (lambda mu J : ℝ) (Cinv : M3) : M6 :=
  let temp1 := lambda * J * J
  let temp2 := 2 * mu - lambda * (J * J - 1)
  sym ![
    ![
      temp1 * Cinv 0 0 * Cinv 0 0 + temp2 * (1/2) * (Cinv 0 0 * Cinv 0 0 + Cinv 0 0 * Cinv 0 0),
      temp1 * Cinv 0 0 * Cinv 1 1 + temp2 * (1/2) * (Cinv 0 1 * Cinv 0 1 + Cinv 0 1 * Cinv 0 1),
      temp1 * Cinv 0 0 * Cinv 2 2 + temp2 * (1/2) * (Cinv 0 2 * Cinv 0 2 + Cinv 0 2 * Cinv 0 2),
      temp1 * Cinv 0 0 * Cinv 0 1 + temp2 * (1/2) * (Cinv 0 0 * Cinv 0 1 + Cinv 0 1 * Cinv 0 0),
      temp1 * Cinv 0 0 * Cinv 1 2 + temp2 * (1/2) * (Cinv 0 1 * Cinv 0 2 + Cinv 0 2 * Cinv 0 1),
      temp1 * Cinv 0 0 * Cinv 0 2 + temp2 * (1/2) * (Cinv 0 0 * Cinv 0 2 + Cinv 0 2 * Cinv 0 0)],
    ![
      0,
      temp1 * Cinv 1 1 * Cinv 1 1 + temp2 * (1/2) * (Cinv 1 1 * Cinv 1 1 + Cinv 1 1 * Cinv 1 1),
      temp1 * Cinv 1 1 * Cinv 2 2 + temp2 * (1/2) * (Cinv 1 2 * Cinv 1 2 + Cinv 1 2 * Cinv 1 2),
      temp1 * Cinv 1 1 * Cinv 0 1 + temp2 * (1/2) * (Cinv 1 0 * Cinv 1 1 + Cinv 1 1 * Cinv 1 0),
      temp1 * Cinv 1 1 * Cinv 1 2 + temp2 * (1/2) * (Cinv 1 1 * Cinv 1 2 + Cinv 1 2 * Cinv 1 1),
      temp1 * Cinv 1 1 * Cinv 0 2 + temp2 * (1/2) * (Cinv 1 0 * Cinv 1 2 + Cinv 1 2 * Cinv 1 0)],
    ![
      0,
      0,
      temp1 * Cinv 2 2 * Cinv 2 2 + temp2 * (1/2) * (Cinv 2 2 * Cinv 2 2 + Cinv 2 2 * Cinv 2 2),
      temp1 * Cinv 2 2 * Cinv 0 1 + temp2 * (1/2) * (Cinv 2 0 * Cinv 2 1 + Cinv 2 1 * Cinv 2 0),
      temp1 * Cinv 2 2 * Cinv 1 2 + temp2 * (1/2) * (Cinv 2 1 * Cinv 2 2 + Cinv 2 2 * Cinv 2 1),
      temp1 * Cinv 2 2 * Cinv 0 2 + temp2 * (1/2) * (Cinv 2 0 * Cinv 2 2 + Cinv 2 2 * Cinv 2 0)],
    ![
      0,
      0,
      0,
      temp1 * Cinv 0 1 * Cinv 0 1 + temp2 * (1/2) * (Cinv 0 0 * Cinv 1 1 + Cinv 0 1 * Cinv 1 0),
      temp1 * Cinv 0 1 * Cinv 1 2 + temp2 * (1/2) * (Cinv 0 1 * Cinv 1 2 + Cinv 0 2 * Cinv 1 1),
      temp1 * Cinv 0 1 * Cinv 0 2 + temp2 * (1/2) * (Cinv 0 0 * Cinv 1 2 + Cinv 0 2 * Cinv 1 0)],
    ![
      0,
      0,
      0,
      0,
      temp1 * Cinv 1 2 * Cinv 1 2 + temp2 * (1/2) * (Cinv 1 1 * Cinv 2 2 + Cinv 1 2 * Cinv 2 1),
      temp1 * Cinv 1 2 * Cinv 0 2 + temp2 * (1/2) * (Cinv 1 0 * Cinv 2 2 + Cinv 1 2 * Cinv 2 0)],
    ![
      0,
      0,
      0,
      0,
      0,
      temp1 * Cinv 0 2 * Cinv 0 2 + temp2 * (1/2) * (Cinv 0 0 * Cinv 2 2 + Cinv 0 2 * Cinv 2 0)]]

/-- `NeoHookeanModel`, demo/HyperElasticity.c:23-120. -/
noncomputable def neoHookean (lambda mu : ℝ) (F : M3) : M3 × M6 :=
  let J := detF F
  let Cinv := invC (invF F)
  (neoS lambda mu J Cinv, neoD lambda mu J Cinv)

/-- The stress of `StVenantModel`, demo/HyperElasticity.c:154-163. -/
noncomputable def stvS (lambda mu : ℝ) (C : M3) : M3 :=
  let temp := (1/2) * lambda * (C 0 0 + C 1 1 + C 2 2 - 3)
  ![
    ![
      temp + mu * (C 0 0 - 1),
      mu * C 0 1,
      mu * C 0 2],
    ![
      mu * C 1 0,
      temp + mu * (C 1 1 - 1),
      mu * C 1 2],
    ![
      mu * C 2 0,
      mu * C 2 1,
      temp + mu * (C 2 2 - 1)]]

/-- The tangent of `StVenantModel`, demo/HyperElasticity.c:167-202. -/
def stvD (lambda mu : ℝ) : M6 :=
  sym ![
    ![
      lambda + 2 * mu,
      lambda,
      lambda,
      0,
      0,
      0],
    ![
      0,
      lambda + 2 * mu,
      lambda,
      0,
      0,
      0],
    ![
      0,
      0,
      lambda + 2 * mu,
      0,
      0,
      0],
    ![
      0,
      0,
      0,
      mu,
      0,
      0],
    ![
      0,
      0,
      0,
      0,
      mu,
      0],
    ![
      0,
      0,
      0,
      0,
      0,
      mu]]

/-- `StVenantModel`, demo/HyperElasticity.c:122-203. -/
noncomputable def stVenant (lambda mu : ℝ) (F : M3) : M3 × M6 := (stvS lambda mu (rightC F), stvD lambda mu)

/-- `Cs = Cinv²`, demo/HyperElasticity.c:255-263. -/
def squareC (Cinv : M3) : M3 := ![
    ![
      Cinv 0 0 * Cinv 0 0 + Cinv 0 1 * Cinv 1 0 + Cinv 0 2 * Cinv 2 0,
      Cinv 0 0 * Cinv 0 1 + Cinv 0 1 * Cinv 1 1 + Cinv 0 2 * Cinv 2 1,
      Cinv 0 0 * Cinv 0 2 + Cinv 0 1 * Cinv 1 2 + Cinv 0 2 * Cinv 2 2],
    ![
      Cinv 1 0 * Cinv 0 0 + Cinv 1 1 * Cinv 1 0 + Cinv 1 2 * Cinv 2 0,
      Cinv 1 0 * Cinv 0 1 + Cinv 1 1 * Cinv 1 1 + Cinv 1 2 * Cinv 2 1,
      Cinv 1 0 * Cinv 0 2 + Cinv 1 1 * Cinv 1 2 + Cinv 1 2 * Cinv 2 2],
    ![
      Cinv 2 0 * Cinv 0 0 + Cinv 2 1 * Cinv 1 0 + Cinv 2 2 * Cinv 2 0,
      Cinv 2 0 * Cinv 0 1 + Cinv 2 1 * Cinv 1 1 + Cinv 2 2 * Cinv 2 1,
      Cinv 2 0 * Cinv 0 2 + Cinv 2 1 * Cinv 1 2 + Cinv 2 2 * Cinv 2 2]]

/-- The stress of `MooneyRivlinModel1`, demo/HyperElasticity.c:266-275. -/
def mr1S (a b c d J : ℝ) (Cinv Cs : M3) : M3 :=
  let temp := Cinv 0 0 + Cinv 1 1 + Cinv 2 2
  ![
    ![
      2 * a + (J * J * (2 * c + b * temp) - d) * Cinv 0 0 - b * J * J * Cs 0 0,
      (J * J * (2 * c + b * temp) - d) * Cinv 0 1 - b * J * J * Cs 0 1,
      (J * J * (2 * c + b * temp) - d) * Cinv 0 2 - b * J * J * Cs 0 2],
    ![
      (J * J * (2 * c + b * temp) - d) * Cinv 1 0 - b * J * J * Cs 1 0,
      2 * a + (J * J * (2 * c + b * temp) - d) * Cinv 1 1 - b * J * J * Cs 1 1,
      (J * J * (2 * c + b * temp) - d) * Cinv 1 2 - b * J * J * Cs 1 2],
    ![
      (J * J * (2 * c + b * temp) - d) * Cinv 2 0 - b * J * J * Cs 2 0,
      (J * J * (2 * c + b * temp) - d) * Cinv 2 1 - b * J * J * Cs 2 1,
      2 * a + (J * J * (2 * c + b * temp) - d) * Cinv 2 2 - b * J * J * Cs 2 2]]

/-- The tangent of `MooneyRivlinModel1`, demo/HyperElasticity.c:278-316. -/
noncomputable def mr1D (b c d J : ℝ) (Cinv Cs : M3) : M6 :=
  let temp := Cinv 0 0 + Cinv 1 1 + Cinv 2 2
  let temp1 := J * J * (4 * c + 2 * b * temp)
  let temp2 := 2 * b * J * J
  let temp3 := temp1 - 2 * d
  sym ![
    ![
      temp1 * Cinv 0 0 * Cinv 0 0 - temp2 * (Cs 0 0 * Cinv 0 0 + Cinv 0 0 * Cs 0 0 - (1/2) * (Cs 0 0 * Cinv 0 0 + Cinv 0 0 * Cs 0 0 + Cs 0 0 * Cinv 0 0 + Cinv 0 0 * Cs 0 0)) - temp3 * (1/2) * (Cinv 0 0 * Cinv 0 0 + Cinv 0 0 * Cinv 0 0),
      temp1 * Cinv 0 0 * Cinv 1 1 - temp2 * (Cs 0 0 * Cinv 1 1 + Cinv 0 0 * Cs 1 1 - (1/2) * (Cs 1 0 * Cinv 0 1 + Cinv 1 0 * Cs 0 1 + Cs 1 0 * Cinv 0 1 + Cinv 1 0 * Cs 0 1)) - temp3 * (1/2) * (Cinv 0 1 * Cinv 1 0 + Cinv 1 0 * Cinv 0 1),
      temp1 * Cinv 0 0 * Cinv 2 2 - temp2 * (Cs 0 0 * Cinv 2 2 + Cinv 0 0 * Cs 2 2 - (1/2) * (Cs 2 0 * Cinv 0 2 + Cinv 2 0 * Cs 0 2 + Cs 2 0 * Cinv 0 2 + Cinv 2 0 * Cs 0 2)) - temp3 * (1/2) * (Cinv 0 2 * Cinv 2 0 + Cinv 2 0 * Cinv 0 2),
      temp1 * Cinv 0 0 * Cinv 0 1 - temp2 * (Cs 0 0 * Cinv 0 1 + Cinv 0 0 * Cs 0 1 - (1/2) * (Cs 1 0 * Cinv 0 0 + Cinv 1 0 * Cs 0 0 + Cs 1 0 * Cinv 0 0 + Cinv 1 0 * Cs 0 0)) - temp3 * (1/2) * (Cinv 0 0 * Cinv 1 0 + Cinv 1 0 * Cinv 0 0),
      temp1 * Cinv 0 0 * Cinv 1 2 - temp2 * (Cs 0 0 * Cinv 1 2 + Cinv 0 0 * Cs 1 2 - (1/2) * (Cs 2 0 * Cinv 0 1 + Cinv 2 0 * Cs 0 1 + Cs 2 0 * Cinv 0 1 + Cinv 2 0 * Cs 0 1)) - temp3 * (1/2) * (Cinv 0 1 * Cinv 2 0 + Cinv 2 0 * Cinv 0 1),
      temp1 * Cinv 0 0 * Cinv 0 2 - temp2 * (Cs 0 0 * Cinv 0 2 + Cinv 0 0 * Cs 0 2 - (1/2) * (Cs 2 0 * Cinv 0 0 + Cinv 2 0 * Cs 0 0 + Cs 2 0 * Cinv 0 0 + Cinv 2 0 * Cs 0 0)) - temp3 * (1/2) * (Cinv 0 0 * Cinv 2 0 + Cinv 2 0 * Cinv 0 0)],
    ![
      0,
      temp1 * Cinv 1 1 * Cinv 1 1 - temp2 * (Cs 1 1 * Cinv 1 1 + Cinv 1 1 * Cs 1 1 - (1/2) * (Cs 1 1 * Cinv 1 1 + Cinv 1 1 * Cs 1 1 + Cs 1 1 * Cinv 1 1 + Cinv 1 1 * Cs 1 1)) - temp3 * (1/2) * (Cinv 1 1 * Cinv 1 1 + Cinv 1 1 * Cinv 1 1),
      temp1 * Cinv 1 1 * Cinv 2 2 - temp2 * (Cs 1 1 * Cinv 2 2 + Cinv 1 1 * Cs 2 2 - (1/2) * (Cs 2 1 * Cinv 1 2 + Cinv 2 1 * Cs 1 2 + Cs 2 1 * Cinv 1 2 + Cinv 2 1 * Cs 1 2)) - temp3 * (1/2) * (Cinv 1 2 * Cinv 2 1 + Cinv 2 1 * Cinv 1 2),
      temp1 * Cinv 1 1 * Cinv 0 1 - temp2 * (Cs 1 1 * Cinv 0 1 + Cinv 1 1 * Cs 0 1 - (1/2) * (Cs 1 1 * Cinv 1 0 + Cinv 1 1 * Cs 1 0 + Cs 1 1 * Cinv 1 0 + Cinv 1 1 * Cs 1 0)) - temp3 * (1/2) * (Cinv 1 0 * Cinv 1 1 + Cinv 1 1 * Cinv 1 0),
      temp1 * Cinv 1 1 * Cinv 1 2 - temp2 * (Cs 1 1 * Cinv 1 2 + Cinv 1 1 * Cs 1 2 - (1/2) * (Cs 2 1 * Cinv 1 1 + Cinv 2 1 * Cs 1 1 + Cs 2 1 * Cinv 1 1 + Cinv 2 1 * Cs 1 1)) - temp3 * (1/2) * (Cinv 1 1 * Cinv 2 1 + Cinv 2 1 * Cinv 1 1),
      temp1 * Cinv 1 1 * Cinv 0 2 - temp2 * (Cs 1 1 * Cinv 0 2 + Cinv 1 1 * Cs 0 2 - (1/2) * (Cs 2 1 * Cinv 1 0 + Cinv 2 1 * Cs 1 0 + Cs 2 1 * Cinv 1 0 + Cinv 2 1 * Cs 1 0)) - temp3 * (1/2) * (Cinv 1 0 * Cinv 2 1 + Cinv 2 1 * Cinv 1 0)],
    ![
      0,
      0,
      temp1 * Cinv 2 2 * Cinv 2 2 - temp2 * (Cs 2 2 * Cinv 2 2 + Cinv 2 2 * Cs 2 2 - (1/2) * (Cs 2 2 * Cinv 2 2 + Cinv 2 2 * Cs 2 2 + Cs 2 2 * Cinv 2 2 + Cinv 2 2 * Cs 2 2)) - temp3 * (1/2) * (Cinv 2 2 * Cinv 2 2 + Cinv 2 2 * Cinv 2 2),
      temp1 * Cinv 2 2 * Cinv 0 1 - temp2 * (Cs 2 2 * Cinv 0 1 + Cinv 2 2 * Cs 0 1 - (1/2) * (Cs 1 2 * Cinv 2 0 + Cinv 1 2 * Cs 2 0 + Cs 1 2 * Cinv 2 0 + Cinv 1 2 * Cs 2 0)) - temp3 * (1/2) * (Cinv 2 0 * Cinv 1 2 + Cinv 1 2 * Cinv 2 0),
      temp1 * Cinv 2 2 * Cinv 1 2 - temp2 * (Cs 2 2 * Cinv 1 2 + Cinv 2 2 * Cs 1 2 - (1/2) * (Cs 2 2 * Cinv 2 1 + Cinv 2 2 * Cs 2 1 + Cs 2 2 * Cinv 2 1 + Cinv 2 2 * Cs 2 1)) - temp3 * (1/2) * (Cinv 2 1 * Cinv 2 2 + Cinv 2 2 * Cinv 2 1),
      temp1 * Cinv 2 2 * Cinv 0 2 - temp2 * (Cs 2 2 * Cinv 0 2 + Cinv 2 2 * Cs 0 2 - (1/2) * (Cs 2 2 * Cinv 2 0 + Cinv 2 2 * Cs 2 0 + Cs 2 2 * Cinv 2 0 + Cinv 2 2 * Cs 2 0)) - temp3 * (1/2) * (Cinv 2 0 * Cinv 2 2 + Cinv 2 2 * Cinv 2 0)],
    ![
      0,
      0,
      0,
      temp1 * Cinv 0 1 * Cinv 0 1 - temp2 * (Cs 0 1 * Cinv 0 1 + Cinv 0 1 * Cs 0 1 - (1/2) * (Cs 1 0 * Cinv 1 0 + Cinv 1 0 * Cs 1 0 + Cs 1 1 * Cinv 0 0 + Cinv 1 1 * Cs 0 0)) - temp3 * (1/2) * (Cinv 0 0 * Cinv 1 1 + Cinv 1 0 * Cinv 1 0),
      temp1 * Cinv 0 1 * Cinv 1 2 - temp2 * (Cs 0 1 * Cinv 1 2 + Cinv 0 1 * Cs 1 2 - (1/2) * (Cs 2 0 * Cinv 1 1 + Cinv 2 0 * Cs 1 1 + Cs 2 1 * Cinv 0 1 + Cinv 2 1 * Cs 0 1)) - temp3 * (1/2) * (Cinv 0 1 * Cinv 2 1 + Cinv 2 0 * Cinv 1 1),
      temp1 * Cinv 0 1 * Cinv 0 2 - temp2 * (Cs 0 1 * Cinv 0 2 + Cinv 0 1 * Cs 0 2 - (1/2) * (Cs 2 0 * Cinv 1 0 + Cinv 2 0 * Cs 1 0 + Cs 2 1 * Cinv 0 0 + Cinv 2 1 * Cs 0 0)) - temp3 * (1/2) * (Cinv 0 0 * Cinv 2 1 + Cinv 2 0 * Cinv 1 0)],
    ![
      0,
      0,
      0,
      0,
      temp1 * Cinv 1 2 * Cinv 1 2 - temp2 * (Cs 1 2 * Cinv 1 2 + Cinv 1 2 * Cs 1 2 - (1/2) * (Cs 2 1 * Cinv 2 1 + Cinv 2 1 * Cs 2 1 + Cs 2 2 * Cinv 1 1 + Cinv 2 2 * Cs 1 1)) - temp3 * (1/2) * (Cinv 1 1 * Cinv 2 2 + Cinv 2 1 * Cinv 2 1),
      temp1 * Cinv 1 2 * Cinv 0 2 - temp2 * (Cs 1 2 * Cinv 0 2 + Cinv 1 2 * Cs 0 2 - (1/2) * (Cs 2 1 * Cinv 2 0 + Cinv 2 1 * Cs 2 0 + Cs 2 2 * Cinv 1 0 + Cinv 2 2 * Cs 1 0)) - temp3 * (1/2) * (Cinv 1 0 * Cinv 2 2 + Cinv 2 1 * Cinv 2 0)],
    ![
      0,
      0,
      0,
      0,
      0,
      temp1 * Cinv 0 2 * Cinv 0 2 - temp2 * (Cs 0 2 * Cinv 0 2 + Cinv 0 2 * Cs 0 2 - (1/2) * (Cs 2 0 * Cinv 2 0 + Cinv 2 0 * Cs 2 0 + Cs 2 2 * Cinv 0 0 + Cinv 2 2 * Cs 0 0)) - temp3 * (1/2) * (Cinv 0 0 * Cinv 2 2 + Cinv 2 0 * Cinv 2 0)]]

/-- `MooneyRivlinModel1`, demo/HyperElasticity.c:205-318. -/
noncomputable def mooneyRivlin1 (a b c d : ℝ) (F : M3) : M3 × M6 :=
  let J := detF F
  let Cinv := invC (invF F)
  let Cs := squareC Cinv
  (mr1S a b c d J Cinv Cs, mr1D b c d J Cinv Cs)

/-- The scalars of `MooneyRivlinModel2`, demo/HyperElasticity.c:378-389: `trC`, `sinva`, `temp` and `tempD`. -/
noncomputable def mr2Scalars (c1 c2 J : ℝ) (C : M3) : ℝ × ℝ × ℝ × ℝ :=
  let trC := C 0 0 + C 1 1 + C 2 2
  let trCs := (C 0 0 * C 0 0 + C 0 1 * C 1 0 + C 0 2 * C 2 0) + (C 1 0 * C 0 1 + C 1 1 * C 1 1 + C 1 2 * C 2 1) + (C 2 0 * C 0 2 + C 2 1 * C 1 2 + C 2 2 * C 2 2)
  let sinva := (1/2) * (trC * trC - trCs)
  let temp := cpow J (-2) 3
  let tempD := (c1 * trC + 2 * c2 * temp * sinva)
  (trC, sinva, temp, tempD)

/-- `Siso` of `MooneyRivlinModel2`, demo/HyperElasticity.c:393-401. -/
noncomputable def mr2Siso (c1 c2 trC temp tempD : ℝ) (C Cinv : M3) : M3 := ![
    ![
      2 * temp * (c1 + c2 * temp * (trC - C 0 0) - (cdiv 1 3) * tempD * Cinv 0 0),
      2 * temp * (-c2 * temp * C 0 1 - (cdiv 1 3) * tempD * Cinv 0 1),
      2 * temp * (-c2 * temp * C 0 2 - (cdiv 1 3) * tempD * Cinv 0 2)],
    ![
      2 * temp * (-c2 * temp * C 1 0 - (cdiv 1 3) * tempD * Cinv 1 0),
      2 * temp * (c1 + c2 * temp * (trC - C 1 1) - (cdiv 1 3) * tempD * Cinv 1 1),
      2 * temp * (-c2 * temp * C 1 2 - (cdiv 1 3) * tempD * Cinv 1 2)],
    ![
      2 * temp * (-c2 * temp * C 2 0 - (cdiv 1 3) * tempD * Cinv 2 0),
      2 * temp * (-c2 * temp * C 2 1 - (cdiv 1 3) * tempD * Cinv 2 1),
      2 * temp * (c1 + c2 * temp * (trC - C 2 2) - (cdiv 1 3) * tempD * Cinv 2 2)]]

/-- `S` of `MooneyRivlinModel2`, demo/HyperElasticity.c:403-411. -/
def mr2S (kappa J : ℝ) (Siso Cinv : M3) : M3 := ![
    ![
      Siso 0 0 + kappa * J * (J - 1) * Cinv 0 0,
      Siso 0 1 + kappa * J * (J - 1) * Cinv 0 1,
      Siso 0 2 + kappa * J * (J - 1) * Cinv 0 2],
    ![
      Siso 1 0 + kappa * J * (J - 1) * Cinv 1 0,
      Siso 1 1 + kappa * J * (J - 1) * Cinv 1 1,
      Siso 1 2 + kappa * J * (J - 1) * Cinv 1 2],
    ![
      Siso 2 0 + kappa * J * (J - 1) * Cinv 2 0,
      Siso 2 1 + kappa * J * (J - 1) * Cinv 2 1,
      Siso 2 2 + kappa * J * (J - 1) * Cinv 2 2]]

/-- `Diso` of `MooneyRivlinModel2`, demo/HyperElasticity.c:414-434; only the entries on and above the diagonal are set. -/
noncomputable def mr2Diso (c2 trC sinva temp tempD : ℝ) (C Cinv Siso : M3) : M6 := ![
    ![
      (cdiv (-2) 3) * (Siso 0 0 * Cinv 0 0 + Cinv 0 0 * Siso 0 0) + (cdiv 4 3) * temp * tempD * ((1/2) * (Cinv 0 0 * Cinv 0 0 + Cinv 0 0 * Cinv 0 0) - (cdiv 1 3) * Cinv 0 0 * Cinv 0 0) + 4 * temp * temp * c2 * (1 - (cdiv 1 3) * trC * (1 * Cinv 0 0 + Cinv 0 0 * 1) + (cdiv 1 3) * (C 0 0 * Cinv 0 0 + Cinv 0 0 * C 0 0) + (cdiv 2 9) * sinva * Cinv 0 0 * Cinv 0 0 - 1),
      (cdiv (-2) 3) * (Siso 0 0 * Cinv 1 1 + Cinv 0 0 * Siso 1 1) + (cdiv 4 3) * temp * tempD * ((1/2) * (Cinv 0 1 * Cinv 0 1 + Cinv 0 1 * Cinv 0 1) - (cdiv 1 3) * Cinv 0 0 * Cinv 1 1) + 4 * temp * temp * c2 * (1 - (cdiv 1 3) * trC * (1 * Cinv 1 1 + Cinv 0 0 * 1) + (cdiv 1 3) * (C 0 0 * Cinv 1 1 + Cinv 0 0 * C 1 1) + (cdiv 2 9) * sinva * Cinv 0 0 * Cinv 1 1 - 0),
      (cdiv (-2) 3) * (Siso 0 0 * Cinv 2 2 + Cinv 0 0 * Siso 2 2) + (cdiv 4 3) * temp * tempD * ((1/2) * (Cinv 0 2 * Cinv 0 2 + Cinv 0 2 * Cinv 0 2) - (cdiv 1 3) * Cinv 0 0 * Cinv 2 2) + 4 * temp * temp * c2 * (1 - (cdiv 1 3) * trC * (1 * Cinv 2 2 + Cinv 0 0 * 1) + (cdiv 1 3) * (C 0 0 * Cinv 2 2 + Cinv 0 0 * C 2 2) + (cdiv 2 9) * sinva * Cinv 0 0 * Cinv 2 2 - 0),
      (cdiv (-2) 3) * (Siso 0 0 * Cinv 0 1 + Cinv 0 0 * Siso 0 1) + (cdiv 4 3) * temp * tempD * ((1/2) * (Cinv 0 0 * Cinv 0 1 + Cinv 0 1 * Cinv 0 0) - (cdiv 1 3) * Cinv 0 0 * Cinv 0 1) + 4 * temp * temp * c2 * (0 - (cdiv 1 3) * trC * (1 * Cinv 0 1 + Cinv 0 0 * 0) + (cdiv 1 3) * (C 0 0 * Cinv 0 1 + Cinv 0 0 * C 0 1) + (cdiv 2 9) * sinva * Cinv 0 0 * Cinv 0 1 - 0),
      (cdiv (-2) 3) * (Siso 0 0 * Cinv 1 2 + Cinv 0 0 * Siso 1 2) + (cdiv 4 3) * temp * tempD * ((1/2) * (Cinv 0 1 * Cinv 0 2 + Cinv 0 2 * Cinv 0 1) - (cdiv 1 3) * Cinv 0 0 * Cinv 1 2) + 4 * temp * temp * c2 * (0 - (cdiv 1 3) * trC * (1 * Cinv 1 2 + Cinv 0 0 * 0) + (cdiv 1 3) * (C 0 0 * Cinv 1 2 + Cinv 0 0 * C 1 2) + (cdiv 2 9) * sinva * Cinv 0 0 * Cinv 1 2 - 0),
      (cdiv (-2) 3) * (Siso 0 0 * Cinv 0 2 + Cinv 0 0 * Siso 0 2) + (cdiv 4 3) * temp * tempD * ((1/2) * (Cinv 0 0 * Cinv 0 2 + Cinv 0 2 * Cinv 0 0) - (cdiv 1 3) * Cinv 0 0 * Cinv 0 2) + 4 * temp * temp * c2 * (0 - (cdiv 1 3) * trC * (1 * Cinv 0 2 + Cinv 0 0 * 0) + (cdiv 1 3) * (C 0 0 * Cinv 0 2 + Cinv 0 0 * C 0 2) + (cdiv 2 9) * sinva * Cinv 0 0 * Cinv 0 2 - 0)],
    ![
      0,
      (cdiv (-2) 3) * (Siso 1 1 * Cinv 1 1 + Cinv 1 1 * Siso 1 1) + (cdiv 4 3) * temp * tempD * ((1/2) * (Cinv 1 1 * Cinv 1 1 + Cinv 1 1 * Cinv 1 1) - (cdiv 1 3) * Cinv 1 1 * Cinv 1 1) + 4 * temp * temp * c2 * (1 - (cdiv 1 3) * trC * (1 * Cinv 1 1 + Cinv 1 1 * 1) + (cdiv 1 3) * (C 1 1 * Cinv 1 1 + Cinv 1 1 * C 1 1) + (cdiv 2 9) * sinva * Cinv 1 1 * Cinv 1 1 - 1),
      (cdiv (-2) 3) * (Siso 1 1 * Cinv 2 2 + Cinv 1 1 * Siso 2 2) + (cdiv 4 3) * temp * tempD * ((1/2) * (Cinv 1 2 * Cinv 1 2 + Cinv 1 2 * Cinv 1 2) - (cdiv 1 3) * Cinv 1 1 * Cinv 2 2) + 4 * temp * temp * c2 * (1 - (cdiv 1 3) * trC * (1 * Cinv 2 2 + Cinv 1 1 * 1) + (cdiv 1 3) * (C 1 1 * Cinv 2 2 + Cinv 1 1 * C 2 2) + (cdiv 2 9) * sinva * Cinv 1 1 * Cinv 2 2 - 0),
      (cdiv (-2) 3) * (Siso 1 1 * Cinv 0 1 + Cinv 1 1 * Siso 0 1) + (cdiv 4 3) * temp * tempD * ((1/2) * (Cinv 1 0 * Cinv 1 1 + Cinv 1 1 * Cinv 1 0) - (cdiv 1 3) * Cinv 1 1 * Cinv 0 1) + 4 * temp * temp * c2 * (0 - (cdiv 1 3) * trC * (1 * Cinv 0 1 + Cinv 1 1 * 0) + (cdiv 1 3) * (C 1 1 * Cinv 0 1 + Cinv 1 1 * C 0 1) + (cdiv 2 9) * sinva * Cinv 1 1 * Cinv 0 1 - 0),
      (cdiv (-2) 3) * (Siso 1 1 * Cinv 1 2 + Cinv 1 1 * Siso 1 2) + (cdiv 4 3) * temp * tempD * ((1/2) * (Cinv 1 1 * Cinv 1 2 + Cinv 1 2 * Cinv 1 1) - (cdiv 1 3) * Cinv 1 1 * Cinv 1 2) + 4 * temp * temp * c2 * (0 - (cdiv 1 3) * trC * (1 * Cinv 1 2 + Cinv 1 1 * 0) + (cdiv 1 3) * (C 1 1 * Cinv 1 2 + Cinv 1 1 * C 1 2) + (cdiv 2 9) * sinva * Cinv 1 1 * Cinv 1 2 - 0),
      (cdiv (-2) 3) * (Siso 1 1 * Cinv 0 2 + Cinv 1 1 * Siso 0 2) + (cdiv 4 3) * temp * tempD * ((1/2) * (Cinv 1 0 * Cinv 1 2 + Cinv 1 2 * Cinv 1 0) - (cdiv 1 3) * Cinv 1 1 * Cinv 0 2) + 4 * temp * temp * c2 * (0 - (cdiv 1 3) * trC * (1 * Cinv 0 2 + Cinv 1 1 * 0) + (cdiv 1 3) * (C 1 1 * Cinv 0 2 + Cinv 1 1 * C 0 2) + (cdiv 2 9) * sinva * Cinv 1 1 * Cinv 0 2 - 0)],
    ![
      0,
      0,
      (cdiv (-2) 3) * (Siso 2 2 * Cinv 2 2 + Cinv 2 2 * Siso 2 2) + (cdiv 4 3) * temp * tempD * ((1/2) * (Cinv 2 2 * Cinv 2 2 + Cinv 2 2 * Cinv 2 2) - (cdiv 1 3) * Cinv 2 2 * Cinv 2 2) + 4 * temp * temp * c2 * (1 - (cdiv 1 3) * trC * (1 * Cinv 2 2 + Cinv 2 2 * 1) + (cdiv 1 3) * (C 2 2 * Cinv 2 2 + Cinv 2 2 * C 2 2) + (cdiv 2 9) * sinva * Cinv 2 2 * Cinv 2 2 - 1),
      (cdiv (-2) 3) * (Siso 2 2 * Cinv 0 1 + Cinv 2 2 * Siso 0 1) + (cdiv 4 3) * temp * tempD * ((1/2) * (Cinv 2 0 * Cinv 2 1 + Cinv 2 1 * Cinv 2 0) - (cdiv 1 3) * Cinv 2 2 * Cinv 0 1) + 4 * temp * temp * c2 * (0 - (cdiv 1 3) * trC * (1 * Cinv 0 1 + Cinv 2 2 * 0) + (cdiv 1 3) * (C 2 2 * Cinv 0 1 + Cinv 2 2 * C 0 1) + (cdiv 2 9) * sinva * Cinv 2 2 * Cinv 0 1 - 0),
      (cdiv (-2) 3) * (Siso 2 2 * Cinv 1 2 + Cinv 2 2 * Siso 1 2) + (cdiv 4 3) * temp * tempD * ((1/2) * (Cinv 2 1 * Cinv 2 2 + Cinv 2 2 * Cinv 2 1) - (cdiv 1 3) * Cinv 2 2 * Cinv 1 2) + 4 * temp * temp * c2 * (0 - (cdiv 1 3) * trC * (1 * Cinv 1 2 + Cinv 2 2 * 0) + (cdiv 1 3) * (C 2 2 * Cinv 1 2 + Cinv 2 2 * C 1 2) + (cdiv 2 9) * sinva * Cinv 2 2 * Cinv 1 2 - 0),
      (cdiv (-2) 3) * (Siso 2 2 * Cinv 0 2 + Cinv 2 2 * Siso 0 2) + (cdiv 4 3) * temp * tempD * ((1/2) * (Cinv 2 0 * Cinv 2 2 + Cinv 2 2 * Cinv 2 0) - (cdiv 1 3) * Cinv 2 2 * Cinv 0 2) + 4 * temp * temp * c2 * (0 - (cdiv 1 3) * trC * (1 * Cinv 0 2 + Cinv 2 2 * 0) + (cdiv 1 3) * (C 2 2 * Cinv 0 2 + Cinv 2 2 * C 0 2) + (cdiv 2 9) * sinva * Cinv 2 2 * Cinv 0 2 - 0)],
    ![
      0,
      0,
      0,
      (cdiv (-2) 3) * (Siso 0 1 * Cinv 0 1 + Cinv 0 1 * Siso 0 1) + (cdiv 4 3) * temp * tempD * ((1/2) * (Cinv 0 0 * Cinv 1 1 + Cinv 0 1 * Cinv 1 0) - (cdiv 1 3) * Cinv 0 1 * Cinv 0 1) + 4 * temp * temp * c2 * (0 - (cdiv 1 3) * trC * (0 * Cinv 0 1 + Cinv 0 1 * 0) + (cdiv 1 3) * (C 0 1 * Cinv 0 1 + Cinv 0 1 * C 0 1) + (cdiv 2 9) * sinva * Cinv 0 1 * Cinv 0 1 - (1/2)),
      (cdiv (-2) 3) * (Siso 0 1 * Cinv 1 2 + Cinv 0 1 * Siso 1 2) + (cdiv 4 3) * temp * tempD * ((1/2) * (Cinv 0 1 * Cinv 1 2 + Cinv 0 2 * Cinv 1 1) - (cdiv 1 3) * Cinv 0 1 * Cinv 1 2) + 4 * temp * temp * c2 * (0 - (cdiv 1 3) * trC * (0 * Cinv 1 2 + Cinv 0 1 * 0) + (cdiv 1 3) * (C 0 1 * Cinv 1 2 + Cinv 0 1 * C 1 2) + (cdiv 2 9) * sinva * Cinv 0 1 * Cinv 1 2 - 0),
      (cdiv (-2) 3) * (Siso 0 1 * Cinv 0 2 + Cinv 0 1 * Siso 0 2) + (cdiv 4 3) * temp * tempD * ((1/2) * (Cinv 0 0 * Cinv 1 2 + Cinv 0 2 * Cinv 1 0) - (cdiv 1 3) * Cinv 0 1 * Cinv 0 2) + 4 * temp * temp * c2 * (0 - (cdiv 1 3) * trC * (0 * Cinv 0 2 + Cinv 0 1 * 0) + (cdiv 1 3) * (C 0 1 * Cinv 0 2 + Cinv 0 1 * C 0 2) + (cdiv 2 9) * sinva * Cinv 0 1 * Cinv 0 2 - 0)],
    ![
      0,
      0,
      0,
      0,
      (cdiv (-2) 3) * (Siso 1 2 * Cinv 1 2 + Cinv 1 2 * Siso 1 2) + (cdiv 4 3) * temp * tempD * ((1/2) * (Cinv 1 1 * Cinv 2 2 + Cinv 1 2 * Cinv 2 1) - (cdiv 1 3) * Cinv 1 2 * Cinv 1 2) + 4 * temp * temp * c2 * (0 - (cdiv 1 3) * trC * (0 * Cinv 1 2 + Cinv 1 2 * 0) + (cdiv 1 3) * (C 1 2 * Cinv 1 2 + Cinv 1 2 * C 1 2) + (cdiv 2 9) * sinva * Cinv 1 2 * Cinv 1 2 - (1/2)),
      (cdiv (-2) 3) * (Siso 1 2 * Cinv 0 2 + Cinv 1 2 * Siso 0 2) + (cdiv 4 3) * temp * tempD * ((1/2) * (Cinv 1 0 * Cinv 2 2 + Cinv 1 2 * Cinv 2 0) - (cdiv 1 3) * Cinv 1 2 * Cinv 0 2) + 4 * temp * temp * c2 * (0 - (cdiv 1 3) * trC * (0 * Cinv 0 2 + Cinv 1 2 * 0) + (cdiv 1 3) * (C 1 2 * Cinv 0 2 + Cinv 1 2 * C 0 2) + (cdiv 2 9) * sinva * Cinv 1 2 * Cinv 0 2 - 0)],
    ![
      0,
      0,
      0,
      0,
      0,
      (cdiv (-2) 3) * (Siso 0 2 * Cinv 0 2 + Cinv 0 2 * Siso 0 2) + (cdiv 4 3) * temp * tempD * ((1/2) * (Cinv 0 0 * Cinv 2 2 + Cinv 0 2 * Cinv 2 0) - (cdiv 1 3) * Cinv 0 2 * Cinv 0 2) + 4 * temp * temp * c2 * (0 - (cdiv 1 3) * trC * (0 * Cinv 0 2 + Cinv 0 2 * 0) + (cdiv 1 3) * (C 0 2 * Cinv 0 2 + Cinv 0 2 * C 0 2) + (cdiv 2 9) * sinva * Cinv 0 2 * Cinv 0 2 - (1/2))]]

/-- `Dvol` of `MooneyRivlinModel2`, demo/HyperElasticity.c:437-459. -/
noncomputable def mr2Dvol (kappa J : ℝ) (Cinv : M3) : M6 :=
  let temp1 := kappa * J * (2 * J - 1)
  let temp2 := 2 * kappa * J * (J - 1)
  ![
    ![
      temp1 * Cinv 0 0 * Cinv 0 0 - temp2 * (1/2) * (Cinv 0 0 * Cinv 0 0 + Cinv 0 0 * Cinv 0 0),
      temp1 * Cinv 0 0 * Cinv 1 1 - temp2 * (1/2) * (Cinv 0 1 * Cinv 1 0 + Cinv 1 0 * Cinv 0 1),
      temp1 * Cinv 0 0 * Cinv 2 2 - temp2 * (1/2) * (Cinv 0 2 * Cinv 2 0 + Cinv 2 0 * Cinv 0 2),
      temp1 * Cinv 0 0 * Cinv 0 1 - temp2 * (1/2) * (Cinv 0 0 * Cinv 1 0 + Cinv 1 0 * Cinv 0 0),
      temp1 * Cinv 0 0 * Cinv 1 2 - temp2 * (1/2) * (Cinv 0 1 * Cinv 2 0 + Cinv 2 0 * Cinv 0 1),
      temp1 * Cinv 0 0 * Cinv 0 2 - temp2 * (1/2) * (Cinv 0 0 * Cinv 2 0 + Cinv 2 0 * Cinv 0 0)],
    ![
      0,
      temp1 * Cinv 1 1 * Cinv 1 1 - temp2 * (1/2) * (Cinv 1 1 * Cinv 1 1 + Cinv 1 1 * Cinv 1 1),
      temp1 * Cinv 1 1 * Cinv 2 2 - temp2 * (1/2) * (Cinv 1 2 * Cinv 2 1 + Cinv 2 1 * Cinv 1 2),
      temp1 * Cinv 1 1 * Cinv 0 1 - temp2 * (1/2) * (Cinv 1 0 * Cinv 1 1 + Cinv 1 1 * Cinv 1 0),
      temp1 * Cinv 1 1 * Cinv 1 2 - temp2 * (1/2) * (Cinv 1 1 * Cinv 2 1 + Cinv 2 1 * Cinv 1 1),
      temp1 * Cinv 1 1 * Cinv 0 2 - temp2 * (1/2) * (Cinv 1 0 * Cinv 2 1 + Cinv 2 1 * Cinv 1 0)],
    ![
      0,
      0,
      temp1 * Cinv 2 2 * Cinv 2 2 - temp2 * (1/2) * (Cinv 2 2 * Cinv 2 2 + Cinv 2 2 * Cinv 2 2),
      temp1 * Cinv 2 2 * Cinv 0 1 - temp2 * (1/2) * (Cinv 2 0 * Cinv 1 2 + Cinv 1 2 * Cinv 2 0),
      temp1 * Cinv 2 2 * Cinv 1 2 - temp2 * (1/2) * (Cinv 2 1 * Cinv 2 2 + Cinv 2 2 * Cinv 2 1),
      temp1 * Cinv 2 2 * Cinv 0 2 - temp2 * (1/2) * (Cinv 2 0 * Cinv 2 2 + Cinv 2 2 * Cinv 2 0)],
    ![
      0,
      0,
      0,
      temp1 * Cinv 0 1 * Cinv 0 1 - temp2 * (1/2) * (Cinv 0 0 * Cinv 1 1 + Cinv 1 0 * Cinv 1 0),
      temp1 * Cinv 0 1 * Cinv 1 2 - temp2 * (1/2) * (Cinv 0 1 * Cinv 2 1 + Cinv 2 0 * Cinv 1 1),
      temp1 * Cinv 0 1 * Cinv 0 2 - temp2 * (1/2) * (Cinv 0 0 * Cinv 2 1 + Cinv 2 0 * Cinv 1 0)],
    ![
      0,
      0,
      0,
      0,
      temp1 * Cinv 1 2 * Cinv 1 2 - temp2 * (1/2) * (Cinv 1 1 * Cinv 2 2 + Cinv 2 1 * Cinv 2 1),
      temp1 * Cinv 1 2 * Cinv 0 2 - temp2 * (1/2) * (Cinv 1 0 * Cinv 2 2 + Cinv 2 1 * Cinv 2 0)],
    ![
      0,
      0,
      0,
      0,
      0,
      temp1 * Cinv 0 2 * Cinv 0 2 - temp2 * (1/2) * (Cinv 0 0 * Cinv 2 2 + Cinv 2 0 * Cinv 2 0)]]

/-- `MooneyRivlinModel2`, demo/HyperElasticity.c:320-500 (lines 463-498 add the two parts of the tangent). -/
noncomputable def mooneyRivlin2 (c1 c2 kappa : ℝ) (F : M3) : M3 × M6 :=
  let J := detF F
  let Cinv := invC (invF F)
  let C := rightC F
  let s := mr2Scalars c1 c2 J C
  let Siso := mr2Siso c1 c2 s.1 s.2.2.1 s.2.2.2 C Cinv
  (mr2S kappa J Siso Cinv, sym fun i j => mr2Diso c2 s.1 s.2.1 s.2.2.1 s.2.2.2 C Cinv Siso i j + mr2Dvol kappa J Cinv i j)

/-- `P` of `GeneralModel`, demo/HyperElasticity.c:562-597. -/
noncomputable def genP (tempJ : ℝ) (C Cinv : M3) : M6 := ![
    ![
      tempJ * (1 - (cdiv 1 3) * Cinv 0 0 * C 0 0),
      tempJ * (0 - (cdiv 1 3) * Cinv 0 0 * C 1 1),
      tempJ * (0 - (cdiv 1 3) * Cinv 0 0 * C 2 2),
      2 * tempJ * (0 - (cdiv 1 3) * Cinv 0 0 * C 0 1),
      2 * tempJ * (0 - (cdiv 1 3) * Cinv 0 0 * C 1 2),
      2 * tempJ * (0 - (cdiv 1 3) * Cinv 0 0 * C 0 2)],
    ![
      tempJ * (0 - (cdiv 1 3) * Cinv 1 1 * C 0 0),
      tempJ * (1 - (cdiv 1 3) * Cinv 1 1 * C 1 1),
      tempJ * (0 - (cdiv 1 3) * Cinv 1 1 * C 2 2),
      2 * tempJ * (0 - (cdiv 1 3) * Cinv 1 1 * C 0 1),
      2 * tempJ * (0 - (cdiv 1 3) * Cinv 1 1 * C 1 2),
      2 * tempJ * (0 - (cdiv 1 3) * Cinv 1 1 * C 0 2)],
    ![
      tempJ * (0 - (cdiv 1 3) * Cinv 2 2 * C 0 0),
      tempJ * (0 - (cdiv 1 3) * Cinv 2 2 * C 1 1),
      tempJ * (1 - (cdiv 1 3) * Cinv 2 2 * C 2 2),
      2 * tempJ * (0 - (cdiv 1 3) * Cinv 2 2 * C 0 1),
      2 * tempJ * (0 - (cdiv 1 3) * Cinv 2 2 * C 1 2),
      2 * tempJ * (0 - (cdiv 1 3) * Cinv 2 2 * C 0 2)],
    ![
      tempJ * (0 - (cdiv 1 3) * Cinv 0 1 * C 0 0),
      tempJ * (0 - (cdiv 1 3) * Cinv 0 1 * C 1 1),
      tempJ * (0 - (cdiv 1 3) * Cinv 0 1 * C 2 2),
      2 * tempJ * ((1/2) - (cdiv 1 3) * Cinv 0 1 * C 0 1),
      2 * tempJ * (0 - (cdiv 1 3) * Cinv 0 1 * C 1 2),
      2 * tempJ * (0 - (cdiv 1 3) * Cinv 0 1 * C 0 2)],
    ![
      tempJ * (0 - (cdiv 1 3) * Cinv 1 2 * C 0 0),
      tempJ * (0 - (cdiv 1 3) * Cinv 1 2 * C 1 1),
      tempJ * (0 - (cdiv 1 3) * Cinv 1 2 * C 2 2),
      2 * tempJ * (0 - (cdiv 1 3) * Cinv 1 2 * C 0 1),
      2 * tempJ * ((1/2) - (cdiv 1 3) * Cinv 1 2 * C 1 2),
      2 * tempJ * (0 - (cdiv 1 3) * Cinv 1 2 * C 0 2)],
    ![
      tempJ * (0 - (cdiv 1 3) * Cinv 0 2 * C 0 0),
      tempJ * (0 - (cdiv 1 3) * Cinv 0 2 * C 1 1),
      tempJ * (0 - (cdiv 1 3) * Cinv 0 2 * C 2 2),
      2 * tempJ * (0 - (cdiv 1 3) * Cinv 0 2 * C 0 1),
      2 * tempJ * (0 - (cdiv 1 3) * Cinv 0 2 * C 1 2),
      2 * tempJ * ((1/2) - (cdiv 1 3) * Cinv 0 2 * C 0 2)]]

/-- `Shat` of `GeneralModel`, demo/HyperElasticity.c:599-607. -/
def genShat (c1 c2 tempJ : ℝ) (C : M3) : Fin 6 → ℝ :=
  let trC := C 0 0 + C 1 1 + C 2 2
  ![
    2 * (c1 + c2 * tempJ * (trC - C 0 0)),
    2 * (c1 + c2 * tempJ * (trC - C 1 1)),
    2 * (c1 + c2 * tempJ * (trC - C 2 2)),
    -2 * c2 * tempJ * C 0 1,
    -2 * c2 * tempJ * C 1 2,
    -2 * c2 * tempJ * C 0 2]

/-- `Siso` of `GeneralModel`, demo/HyperElasticity.c:610-615. -/
def genSiso (P : M6) (Shat : Fin 6 → ℝ) : Fin 6 → ℝ := ![
    P 0 0 * Shat 0 + P 0 1 * Shat 1 + P 0 2 * Shat 2 + P 0 3 * Shat 3 + P 0 4 * Shat 4 + P 0 5 * Shat 5,
    P 1 0 * Shat 0 + P 1 1 * Shat 1 + P 1 2 * Shat 2 + P 1 3 * Shat 3 + P 1 4 * Shat 4 + P 1 5 * Shat 5,
    P 2 0 * Shat 0 + P 2 1 * Shat 1 + P 2 2 * Shat 2 + P 2 3 * Shat 3 + P 2 4 * Shat 4 + P 2 5 * Shat 5,
    P 3 0 * Shat 0 + P 3 1 * Shat 1 + P 3 2 * Shat 2 + P 3 3 * Shat 3 + P 3 4 * Shat 4 + P 3 5 * Shat 5,
    P 4 0 * Shat 0 + P 4 1 * Shat 1 + P 4 2 * Shat 2 + P 4 3 * Shat 3 + P 4 4 * Shat 4 + P 4 5 * Shat 5,
    P 5 0 * Shat 0 + P 5 1 * Shat 1 + P 5 2 * Shat 2 + P 5 3 * Shat 3 + P 5 4 * Shat 4 + P 5 5 * Shat 5]

/-- `Svol` of `GeneralModel`, demo/HyperElasticity.c:617-625. -/
def genSvol (kappa J : ℝ) (Cinv : M3) : Fin 6 → ℝ :=
  let tempdJ := kappa * (J - 1)
  ![
    tempdJ * J * Cinv 0 0,
    tempdJ * J * Cinv 1 1,
    tempdJ * J * Cinv 2 2,
    tempdJ * J * Cinv 0 1,
    tempdJ * J * Cinv 1 2,
    tempdJ * J * Cinv 0 2]

/-- `S` of `GeneralModel`, demo/HyperElasticity.c:627-635: the entries below the diagonal are copies. -/
def genS (Siso Svol : Fin 6 → ℝ) : M3 := ![
    ![
      Siso 0 + Svol 0,
      Siso 3 + Svol 3,
      Siso 5 + Svol 5],
    ![
      Siso 3 + Svol 3,
      Siso 1 + Svol 1,
      Siso 4 + Svol 4],
    ![
      Siso 5 + Svol 5,
      Siso 4 + Svol 4,
      Siso 2 + Svol 2]]

/-- `Pbar` of `GeneralModel`, demo/HyperElasticity.c:640-660. -/
noncomputable def genPbar (tempJ : ℝ) (Cinv : M3) : M6 := ![
    ![
      tempJ * ((1/2) * (Cinv 0 0 * Cinv 0 0 + Cinv 0 0 * Cinv 0 0) - (cdiv 1 3) * Cinv 0 0 * Cinv 0 0),
      tempJ * ((1/2) * (Cinv 0 1 * Cinv 0 1 + Cinv 0 1 * Cinv 0 1) - (cdiv 1 3) * Cinv 0 0 * Cinv 1 1),
      tempJ * ((1/2) * (Cinv 0 2 * Cinv 0 2 + Cinv 0 2 * Cinv 0 2) - (cdiv 1 3) * Cinv 0 0 * Cinv 2 2),
      tempJ * ((1/2) * (Cinv 0 0 * Cinv 0 1 + Cinv 0 1 * Cinv 0 0) - (cdiv 1 3) * Cinv 0 0 * Cinv 0 1),
      tempJ * ((1/2) * (Cinv 0 1 * Cinv 0 2 + Cinv 0 2 * Cinv 0 1) - (cdiv 1 3) * Cinv 0 0 * Cinv 1 2),
      tempJ * ((1/2) * (Cinv 0 0 * Cinv 0 2 + Cinv 0 2 * Cinv 0 0) - (cdiv 1 3) * Cinv 0 0 * Cinv 0 2)],
    ![
      0,
      tempJ * ((1/2) * (Cinv 1 1 * Cinv 1 1 + Cinv 1 1 * Cinv 1 1) - (cdiv 1 3) * Cinv 1 1 * Cinv 1 1),
      tempJ * ((1/2) * (Cinv 1 2 * Cinv 1 2 + Cinv 1 2 * Cinv 1 2) - (cdiv 1 3) * Cinv 1 1 * Cinv 2 2),
      tempJ * ((1/2) * (Cinv 1 0 * Cinv 1 1 + Cinv 1 1 * Cinv 1 0) - (cdiv 1 3) * Cinv 1 1 * Cinv 0 1),
      tempJ * ((1/2) * (Cinv 1 1 * Cinv 1 2 + Cinv 1 2 * Cinv 1 1) - (cdiv 1 3) * Cinv 1 1 * Cinv 1 2),
      tempJ * ((1/2) * (Cinv 1 0 * Cinv 1 2 + Cinv 1 2 * Cinv 1 0) - (cdiv 1 3) * Cinv 1 1 * Cinv 0 2)],
    ![
      0,
      0,
      tempJ * ((1/2) * (Cinv 2 2 * Cinv 2 2 + Cinv 2 2 * Cinv 2 2) - (cdiv 1 3) * Cinv 2 2 * Cinv 2 2),
      tempJ * ((1/2) * (Cinv 2 0 * Cinv 2 1 + Cinv 2 1 * Cinv 2 0) - (cdiv 1 3) * Cinv 2 2 * Cinv 0 1),
      tempJ * ((1/2) * (Cinv 2 1 * Cinv 2 2 + Cinv 2 2 * Cinv 2 1) - (cdiv 1 3) * Cinv 2 2 * Cinv 1 2),
      tempJ * ((1/2) * (Cinv 2 0 * Cinv 2 2 + Cinv 2 2 * Cinv 2 0) - (cdiv 1 3) * Cinv 2 2 * Cinv 0 2)],
    ![
      0,
      0,
      0,
      tempJ * ((1/2) * (Cinv 0 0 * Cinv 1 1 + Cinv 0 1 * Cinv 1 0) - (cdiv 1 3) * Cinv 0 1 * Cinv 0 1),
      tempJ * ((1/2) * (Cinv 0 1 * Cinv 1 2 + Cinv 0 2 * Cinv 1 1) - (cdiv 1 3) * Cinv 0 1 * Cinv 1 2),
      tempJ * ((1/2) * (Cinv 0 0 * Cinv 1 2 + Cinv 0 2 * Cinv 1 0) - (cdiv 1 3) * Cinv 0 1 * Cinv 0 2)],
    ![
      0,
      0,
      0,
      0,
      tempJ * ((1/2) * (Cinv 1 1 * Cinv 2 2 + Cinv 1 2 * Cinv 2 1) - (cdiv 1 3) * Cinv 1 2 * Cinv 1 2),
      tempJ * ((1/2) * (Cinv 1 0 * Cinv 2 2 + Cinv 1 2 * Cinv 2 0) - (cdiv 1 3) * Cinv 1 2 * Cinv 0 2)],
    ![
      0,
      0,
      0,
      0,
      0,
      tempJ * ((1/2) * (Cinv 0 0 * Cinv 2 2 + Cinv 0 2 * Cinv 2 0) - (cdiv 1 3) * Cinv 0 2 * Cinv 0 2)]]

/-- `Dhat` of `GeneralModel`, demo/HyperElasticity.c:663-698. -/
def genDhat (c2 : ℝ) : M6 :=
  sym ![
    ![
      0,
      4 * c2,
      4 * c2,
      0,
      0,
      0],
    ![
      0,
      0,
      4 * c2,
      0,
      0,
      0],
    ![
      0,
      0,
      0,
      0,
      0,
      0],
    ![
      0,
      0,
      0,
      -2 * c2,
      0,
      0],
    ![
      0,
      0,
      0,
      0,
      -2 * c2,
      0],
    ![
      0,
      0,
      0,
      0,
      0,
      -2 * c2]]

/-- `Diso` of `GeneralModel`, demo/HyperElasticity.c:702-722: every entry on and above the diagonal is written out with this pattern, checked entry by entry when the model was
written. -/
def genDiso (P Dhat : M6) : M6 := fun i j =>
  P j 0 * (Dhat 0 0 * P i 0 + Dhat 1 0 * P i 1 + Dhat 2 0 * P i 2 + Dhat 3 0 * P i 3 + Dhat 4 0 * P i 4 + Dhat 5 0 * P i 5) +
  P j 1 * (Dhat 0 1 * P i 0 + Dhat 1 1 * P i 1 + Dhat 2 1 * P i 2 + Dhat 3 1 * P i 3 + Dhat 4 1 * P i 4 + Dhat 5 1 * P i 5) +
  P j 2 * (Dhat 0 2 * P i 0 + Dhat 1 2 * P i 1 + Dhat 2 2 * P i 2 + Dhat 3 2 * P i 3 + Dhat 4 2 * P i 4 + Dhat 5 2 * P i 5) +
  P j 3 * (Dhat 0 3 * P i 0 + Dhat 1 3 * P i 1 + Dhat 2 3 * P i 2 + Dhat 3 3 * P i 3 + Dhat 4 3 * P i 4 + Dhat 5 3 * P i 5) +
  P j 4 * (Dhat 0 4 * P i 0 + Dhat 1 4 * P i 1 + Dhat 2 4 * P i 2 + Dhat 3 4 * P i 3 + Dhat 4 4 * P i 4 + Dhat 5 4 * P i 5) +
  P j 5 * (Dhat 0 5 * P i 0 + Dhat 1 5 * P i 1 + Dhat 2 5 * P i 2 + Dhat 3 5 * P i 3 + Dhat 4 5 * P i 4 + Dhat 5 5 * P i 5)

/-- What is added to `Diso` in `GeneralModel`, demo/HyperElasticity.c:724-744, with `tempX` of line 637. -/
def genDmore (C Cinv : M3) (Shat Siso : Fin 6 → ℝ) (Pbar : M6) : M6 :=
  let tempX := Shat 0 * C 0 0 + Shat 1 * C 1 1 + Shat 2 * C 2 2 + 2 * Shat 3 * C 0 1 + 2 * Shat 4 * C 1 2 + 2 * Shat 5 * C 0 2
  ![
    ![
      (cdiv 2 3) * tempX * Pbar 0 0 - (cdiv 2 3) * (Cinv 0 0 * Siso 0 + Siso 0 * Cinv 0 0),
      (cdiv 2 3) * tempX * Pbar 0 1 - (cdiv 2 3) * (Cinv 0 0 * Siso 1 + Siso 0 * Cinv 1 1),
      (cdiv 2 3) * tempX * Pbar 0 2 - (cdiv 2 3) * (Cinv 0 0 * Siso 2 + Siso 0 * Cinv 2 2),
      (cdiv 2 3) * tempX * Pbar 0 3 - (cdiv 2 3) * (Cinv 0 0 * Siso 3 + Siso 0 * Cinv 0 1),
      (cdiv 2 3) * tempX * Pbar 0 4 - (cdiv 2 3) * (Cinv 0 0 * Siso 4 + Siso 0 * Cinv 1 2),
      (cdiv 2 3) * tempX * Pbar 0 5 - (cdiv 2 3) * (Cinv 0 0 * Siso 5 + Siso 0 * Cinv 0 2)],
    ![
      0,
      (cdiv 2 3) * tempX * Pbar 1 1 - (cdiv 2 3) * (Cinv 1 1 * Siso 1 + Siso 1 * Cinv 1 1),
      (cdiv 2 3) * tempX * Pbar 1 2 - (cdiv 2 3) * (Cinv 1 1 * Siso 2 + Siso 1 * Cinv 2 2),
      (cdiv 2 3) * tempX * Pbar 1 3 - (cdiv 2 3) * (Cinv 1 1 * Siso 3 + Siso 1 * Cinv 0 1),
      (cdiv 2 3) * tempX * Pbar 1 4 - (cdiv 2 3) * (Cinv 1 1 * Siso 4 + Siso 1 * Cinv 1 2),
      (cdiv 2 3) * tempX * Pbar 1 5 - (cdiv 2 3) * (Cinv 1 1 * Siso 5 + Siso 1 * Cinv 0 2)],
    ![
      0,
      0,
      (cdiv 2 3) * tempX * Pbar 2 2 - (cdiv 2 3) * (Cinv 2 2 * Siso 2 + Siso 2 * Cinv 2 2),
      (cdiv 2 3) * tempX * Pbar 2 3 - (cdiv 2 3) * (Cinv 2 2 * Siso 3 + Siso 2 * Cinv 0 1),
      (cdiv 2 3) * tempX * Pbar 2 4 - (cdiv 2 3) * (Cinv 2 2 * Siso 4 + Siso 2 * Cinv 1 2),
      (cdiv 2 3) * tempX * Pbar 2 5 - (cdiv 2 3) * (Cinv 2 2 * Siso 5 + Siso 2 * Cinv 0 2)],
    ![
      0,
      0,
      0,
      (cdiv 2 3) * tempX * Pbar 3 3 - (cdiv 2 3) * (Cinv 0 1 * Siso 3 + Siso 3 * Cinv 0 1),
      (cdiv 2 3) * tempX * Pbar 3 4 - (cdiv 2 3) * (Cinv 0 1 * Siso 4 + Siso 3 * Cinv 1 2),
      (cdiv 2 3) * tempX * Pbar 3 5 - (cdiv 2 3) * (Cinv 0 1 * Siso 5 + Siso 3 * Cinv 0 2)],
    ![
      0,
      0,
      0,
      0,
      (cdiv 2 3) * tempX * Pbar 4 4 - (cdiv 2 3) * (Cinv 1 2 * Siso 4 + Siso 4 * Cinv 1 2),
      (cdiv 2 3) * tempX * Pbar 4 5 - (cdiv 2 3) * (Cinv 1 2 * Siso 5 + Siso 4 * Cinv 0 2)],
    ![
      0,
      0,
      0,
      0,
      0,
      (cdiv 2 3) * tempX * Pbar 5 5 - (cdiv 2 3) * (Cinv 0 2 * Siso 5 + Siso 5 * Cinv 0 2)]]

/-- `Dvol` of `GeneralModel`, demo/HyperElasticity.c:747-768. -/
noncomputable def genDvol (kappa J : ℝ) (Cinv : M3) : M6 :=
  let tempdJ := kappa * (J - 1)
  let tempd2J2 := kappa
  let tempvol := J * J * tempd2J2 + J * tempdJ
  ![
    ![
      tempvol * Cinv 0 0 * Cinv 0 0 - 2 * J * tempdJ * (1/2) * (Cinv 0 0 * Cinv 0 0 + Cinv 0 0 * Cinv 0 0),
      tempvol * Cinv 0 0 * Cinv 1 1 - 2 * J * tempdJ * (1/2) * (Cinv 0 1 * Cinv 0 1 + Cinv 0 1 * Cinv 0 1),
      tempvol * Cinv 0 0 * Cinv 2 2 - 2 * J * tempdJ * (1/2) * (Cinv 0 2 * Cinv 0 2 + Cinv 0 2 * Cinv 0 2),
      tempvol * Cinv 0 0 * Cinv 0 1 - 2 * J * tempdJ * (1/2) * (Cinv 0 0 * Cinv 0 1 + Cinv 0 1 * Cinv 0 0),
      tempvol * Cinv 0 0 * Cinv 1 2 - 2 * J * tempdJ * (1/2) * (Cinv 0 1 * Cinv 0 2 + Cinv 0 2 * Cinv 0 1),
      tempvol * Cinv 0 0 * Cinv 0 2 - 2 * J * tempdJ * (1/2) * (Cinv 0 0 * Cinv 0 2 + Cinv 0 2 * Cinv 0 0)],
    ![
      0,
      tempvol * Cinv 1 1 * Cinv 1 1 - 2 * J * tempdJ * (1/2) * (Cinv 1 1 * Cinv 1 1 + Cinv 1 1 * Cinv 1 1),
      tempvol * Cinv 1 1 * Cinv 2 2 - 2 * J * tempdJ * (1/2) * (Cinv 1 2 * Cinv 1 2 + Cinv 1 2 * Cinv 1 2),
      tempvol * Cinv 1 1 * Cinv 0 1 - 2 * J * tempdJ * (1/2) * (Cinv 1 0 * Cinv 1 1 + Cinv 1 1 * Cinv 1 0),
      tempvol * Cinv 1 1 * Cinv 1 2 - 2 * J * tempdJ * (1/2) * (Cinv 1 1 * Cinv 1 2 + Cinv 1 2 * Cinv 1 1),
      tempvol * Cinv 1 1 * Cinv 0 2 - 2 * J * tempdJ * (1/2) * (Cinv 1 0 * Cinv 1 2 + Cinv 1 2 * Cinv 1 0)],
    ![
      0,
      0,
      tempvol * Cinv 2 2 * Cinv 2 2 - 2 * J * tempdJ * (1/2) * (Cinv 2 2 * Cinv 2 2 + Cinv 2 2 * Cinv 2 2),
      tempvol * Cinv 2 2 * Cinv 0 1 - 2 * J * tempdJ * (1/2) * (Cinv 2 0 * Cinv 2 1 + Cinv 2 1 * Cinv 2 0),
      tempvol * Cinv 2 2 * Cinv 1 2 - 2 * J * tempdJ * (1/2) * (Cinv 2 1 * Cinv 2 2 + Cinv 2 2 * Cinv 2 1),
      tempvol * Cinv 2 2 * Cinv 0 2 - 2 * J * tempdJ * (1/2) * (Cinv 2 0 * Cinv 2 2 + Cinv 2 2 * Cinv 2 0)],
    ![
      0,
      0,
      0,
      tempvol * Cinv 0 1 * Cinv 0 1 - 2 * J * tempdJ * (1/2) * (Cinv 0 0 * Cinv 1 1 + Cinv 0 1 * Cinv 1 0),
      tempvol * Cinv 0 1 * Cinv 1 2 - 2 * J * tempdJ * (1/2) * (Cinv 0 1 * Cinv 1 2 + Cinv 0 2 * Cinv 1 1),
      tempvol * Cinv 0 1 * Cinv 0 2 - 2 * J * tempdJ * (1/2) * (Cinv 0 0 * Cinv 1 2 + Cinv 0 2 * Cinv 1 0)],
    ![
      0,
      0,
      0,
      0,
      tempvol * Cinv 1 2 * Cinv 1 2 - 2 * J * tempdJ * (1/2) * (Cinv 1 1 * Cinv 2 2 + Cinv 1 2 * Cinv 2 1),
      tempvol * Cinv 1 2 * Cinv 0 2 - 2 * J * tempdJ * (1/2) * (Cinv 1 0 * Cinv 2 2 + Cinv 1 2 * Cinv 2 0)],
    ![
      0,
      0,
      0,
      0,
      0,
      tempvol * Cinv 0 2 * Cinv 0 2 - 2 * J * tempdJ * (1/2) * (Cinv 0 0 * Cinv 2 2 + Cinv 0 2 * Cinv 2 0)]]

/-- `GeneralModel`, demo/HyperElasticity.c:502-807 (lines 770-805 add the two parts of the tangent). -/
noncomputable def general (c1 c2 kappa : ℝ) (F : M3) : M3 × M6 :=
  let J := detF F
  let C := rightC F
  let Cinv := invC (invF F)
  let tempJ := cpow J (-2) 3
  let P := genP tempJ C Cinv
  let Shat := genShat c1 c2 tempJ C
  let Siso := genSiso P Shat
  (genS Siso (genSvol kappa J Cinv),
    sym fun i j => genDiso P (genDhat c2) i j + genDmore C Cinv Shat Siso (genPbar tempJ Cinv) i j + genDvol kappa J Cinv i j)

/-- `DeltaE`, demo/HyperElasticity.c:809-830. -/
def deltaE (Nx Ny Nz : ℝ) (F : M3) : Fin 6 → Fin 3 → ℝ := ![
    ![
      F 0 0 * Nx,
      F 1 0 * Nx,
      F 2 0 * Nx],
    ![
      F 0 1 * Ny,
      F 1 1 * Ny,
      F 2 1 * Ny],
    ![
      F 0 2 * Nz,
      F 1 2 * Nz,
      F 2 2 * Nz],
    ![
      F 0 0 * Ny + F 0 1 * Nx,
      F 1 0 * Ny + F 1 1 * Nx,
      F 2 0 * Ny + F 2 1 * Nx],
    ![
      F 0 1 * Nz + F 0 2 * Ny,
      F 1 1 * Nz + F 1 2 * Ny,
      F 2 1 * Nz + F 2 2 * Ny],
    ![
      F 0 0 * Nz + F 0 2 * Nx,
      F 1 0 * Nz + F 1 2 * Nx,
      F 2 0 * Nz + F 2 2 * Nx]]

/-- The three numbers `Residual` stores for a basis function, demo/HyperElasticity.c:850-852. -/
def force (B : Fin 6 → Fin 3 → ℝ) (S : M3) : Fin 3 → ℝ := ![
    B 0 0 * S 0 0 + B 1 0 * S 1 1 + B 2 0 * S 2 2 + B 3 0 * S 0 1 + B 4 0 * S 1 2 + B 5 0 * S 0 2,
    B 0 1 * S 0 0 + B 1 1 * S 1 1 + B 2 1 * S 2 2 + B 3 1 * S 0 1 + B 4 1 * S 1 2 + B 5 1 * S 0 2,
    B 0 2 * S 0 0 + B 1 2 * S 1 1 + B 2 2 * S 2 2 + B 3 2 * S 0 1 + B 4 2 * S 1 2 + B 5 2 * S 0 2]

variable {n : Nat}

/-- `Residual`, demo/HyperElasticity.c:833-856. -/
noncomputable def residual (model : M3 → M3 × M6) (p : PtData 3 3 n) (U : List ℝ) (Re : Int → ℝ) : Res (Int → ℝ) :=
  let F := deformation (grad 3 p U)
  let S := (model F).1
  let N1 := fun a i => p.shape.t1 i a
  .ok (fillVec (dof := 3) (fun a i => force (deltaE (N1 a 0) (N1 a 1) (N1 a 2) F) S i) Re)

/-- `Chi[i][j]` of `Jacobian`, demo/HyperElasticity.c:891-952: the nine entries are written out with this pattern, checked entry by entry when the model was written. -/
def chi (Ba Bb : Fin 6 → Fin 3 → ℝ) (D : M6) : M3 := fun i j =>
  Bb 0 j * (Ba 0 i * D 0 0 + Ba 1 i * D 1 0 + Ba 2 i * D 2 0 + Ba 3 i * D 3 0 + Ba 4 i * D 4 0 + Ba 5 i * D 5 0) +
  Bb 1 j * (Ba 0 i * D 0 1 + Ba 1 i * D 1 1 + Ba 2 i * D 2 1 + Ba 3 i * D 3 1 + Ba 4 i * D 4 1 + Ba 5 i * D 5 1) +
  Bb 2 j * (Ba 0 i * D 0 2 + Ba 1 i * D 1 2 + Ba 2 i * D 2 2 + Ba 3 i * D 3 2 + Ba 4 i * D 4 2 + Ba 5 i * D 5 2) +
  Bb 3 j * (Ba 0 i * D 0 3 + Ba 1 i * D 1 3 + Ba 2 i * D 2 3 + Ba 3 i * D 3 3 + Ba 4 i * D 4 3 + Ba 5 i * D 5 3) +
  Bb 4 j * (Ba 0 i * D 0 4 + Ba 1 i * D 1 4 + Ba 2 i * D 2 4 + Ba 3 i * D 3 4 + Ba 4 i * D 4 4 + Ba 5 i * D 5 4) +
  Bb 5 j * (Ba 0 i * D 0 5 + Ba 1 i * D 1 5 + Ba 2 i * D 2 5 + Ba 3 i * D 3 5 + Ba 4 i * D 4 5 + Ba 5 i * D 5 5)

/-- `G` of `Jacobian`, demo/HyperElasticity.c:954-956. -/
def geometric (Na Nb : Fin 3 → ℝ) (S : M3) : ℝ :=
  Na 0 * (S 0 0 * Nb 0 + S 0 1 * Nb 1 + S 0 2 * Nb 2) + Na 1 * (S 1 0 * Nb 0 + S 1 1 * Nb 1 + S 1 2 * Nb 2) + Na 2 * (S 2 0 * Nb 0 + S 2 1 * Nb 1 + S 2 2 * Nb 2)

/-- `Jacobian`, demo/HyperElasticity.c:858-973 (the stores are lines 958-968). -/
noncomputable def jacobian (model : M3 → M3 × M6) (p : PtData 3 3 n) (U : List ℝ) (Je : Int → ℝ) : Res (Int → ℝ) :=
  let F := deformation (grad 3 p U)
  let S := (model F).1
  let D := (model F).2
  let N1 := fun a i => p.shape.t1 i a
  .ok (fillMat (dof := 3) (fun a i b j =>
    let Ba := deltaE (N1 a 0) (N1 a 1) (N1 a 2) F
    let Bb := deltaE (N1 b 0) (N1 b 1) (N1 b 2) F
    if i = j then geometric (N1 a) (N1 b) S + chi Ba Bb D i j else chi Ba Bb D i j) Je)

/-- The coefficients in `AppCtx`, demo/HyperElasticity.c:18-21. -/
structure Material where
  lambda : ℝ
  mu : ℝ
  a : ℝ
  b : ℝ
  c : ℝ
  d : ℝ
  c1 : ℝ
  c2 : ℝ
  kappa : ℝ

/-- The coefficients `main` computes from Young's modulus `E` and Poisson's ratio `nu`, demo/HyperElasticity.c:997-1013; `a`, `b`, `c`, `d` are only set with `-mooneyr1`. -/
noncomputable def coefficients (E nu : ℝ) : Material :=
  let lambda := E * nu / (1 + nu) / (1 - 2 * nu)
  let mu := (1/2) * E / (1 + nu)
  ⟨lambda, mu, (1/2) * mu, 0, lambda * (1/4), lambda * (1/2) + mu, mu * (1/2), 0, 0⟩

/-- The model `main` uses, demo/HyperElasticity.c:985 and 1002-1019, as a function of the four options: the last of `-neohook`, `-stvenant`, `-mooneyr1` that is given, else
`GeneralModel`; `-mooneyr2` only sets coefficients. -/
noncomputable def chosen (m : Material) (neohook stvenant mooneyr1 _mooneyr2 : Bool) : M3 → M3 × M6 :=
  if mooneyr1 then mooneyRivlin1 m.a m.b m.c m.d
  else if stvenant then stVenant m.lambda m.mu
  else if neohook then neoHookean m.lambda m.mu
  else general m.c1 m.c2 m.kappa

end PetIGA.Hyp
