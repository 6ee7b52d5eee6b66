import Verif.Model.Demo
import Mathlib.Analysis.SpecialFunctions.Exp
import Mathlib.Analysis.SpecialFunctions.Log.Basic
import Mathlib.Algebra.BigOperators.Fin
/-
Model of the nonlinear demo programs that register both a residual and a Jacobian: demo/BratuFJ.F90, demo/ElasticRodFJ.F90,
demo/CahnHilliard2D.c, demo/CahnHilliard3D.c, demo/PatternFormation.c and demo/NavierStokesKorteweg2D.c (demo/HyperElasticity.c is in
Model/HyperElastic.lean).  Each callback is the function from what it reads (the shape functions at the point, the values of the
fields on the element) and the array it is given to the array it leaves.

Simplifications: exact real arithmetic (`PetscScalar` real); nested loops over nodes and components run over the list of the index tuples in
the same order; several `+=` on the same entry are one `+=` of the sum.  The parts of the arrays of `IGAPoint` that a callback reads are those of
`PtData`.  Not modelled: initial conditions, monitors, options, adaptivity.
-/
namespace PetIGA.Frm
open PetIGA.Itg PetIGA.Ker PetIGA.Demo

variable {d nsd n dof : Nat}

/-! ### The arrays -/

/-- Component `c` of node `a` in an array laid out as `U[nen][dof]` (C) or `U(dof,nen)` (Fortran). -/
def fld (U : List ℝ) : Fin dof → Fin n → ℝ := fun c a => U.getD ((a:Nat) * dof + (c:Nat)) 0

/-- `IGAPointFormValue`, src/petigapoint.c:327-335, and `IGA_Value` of src/petigaftn.F90. -/
noncomputable def value (dof : Nat) (p : PtData d nsd n) (U : List ℝ) : Fin dof → ℝ := Ker.evaluate (fun _ : Unit => p.shape.t0) (fld U) ()

/-- `IGAPointFormGrad`, src/petigapoint.c:337-345: `u[c][i]`. -/
noncomputable def grad (dof : Nat) (p : PtData d nsd n) (U : List ℝ) (c : Fin dof) (i : Fin d) : ℝ := Ker.evaluate p.shape.t1 (fld U) i c

/-- `IGAPointFormHess`, src/petigapoint.c:347-355: `u[c][i][j]`. -/
noncomputable def hess (dof : Nat) (p : PtData d nsd n) (U : List ℝ) (c : Fin dof) (i j : Fin d) : ℝ :=
  Ker.evaluate (fun ij : Fin d × Fin d => p.shape.t2 ij.1 ij.2) (fld U) (i, j) c

/-- `IGAPointFormDel2`, src/petigapoint.c:357-365. -/
noncomputable def del2 (dof : Nat) (p : PtData d nsd n) (U : List ℝ) : Fin dof → ℝ := Ker.getDel2 p.shape.t2 (fld U)

/-- The indices of `for (a) for (i) R[a][i]`. -/
def slots (n dof : Nat) : List (Fin n × Fin dof) := (List.finRange n).product (List.finRange dof)

/-- The indices of `for (a) for (b) for (i) for (j) K[a][i][b][j]`. -/
def pairs (n dof : Nat) : List (Fin n × Fin n × Fin dof × Fin dof) :=
  (List.finRange n).product ((List.finRange n).product ((List.finRange dof).product (List.finRange dof)))

/-- Offset of `R[a][i]` in `R[nen][dof]`. -/
def at1 (dof : Nat) (a : Fin n) (i : Fin dof) : Nat := (a:Nat) * dof + (i:Nat)

/-- Offset of `K[a][i][b][j]` in `K[nen][dof][nen][dof]`; in Fortran `K(j,b,i,a)`. -/
def at2 (dof : Nat) (a : Fin n) (i : Fin dof) (b : Fin n) (j : Fin dof) : Nat := (((a:Nat) * dof + (i:Nat)) * n + (b:Nat)) * dof + (j:Nat)

/-- `for (a) for (i) R[a][i] = r`. -/
def fillVec (r : Fin n → Fin dof → ℝ) (R : Int → ℝ) : Int → ℝ :=
  (slots n dof).foldl (fun R x => put R (at1 dof x.1 x.2) (r x.1 x.2)) R

/-- `for (a) for (b) for (i) for (j) K[a][i][b][j] = k`. -/
def fillMat (k : Fin n → Fin dof → Fin n → Fin dof → ℝ) (K : Int → ℝ) : Int → ℝ :=
  (pairs n dof).foldl (fun K x => put K (at2 dof x.1 x.2.2.1 x.2.1 x.2.2.2) (k x.1 x.2.2.1 x.2.1 x.2.2.2)) K

/-- `for (a) for (b) for (i) for (j) K[a][i][b][j] += k`. -/
def addMat (k : Fin n → Fin dof → Fin n → Fin dof → ℝ) (K : Int → ℝ) : Int → ℝ :=
  (pairs n dof).foldl (fun K x => put K (at2 dof x.1 x.2.2.1 x.2.1 x.2.2.2)
    (K (at2 dof x.1 x.2.2.1 x.2.1 x.2.2.2) + k x.1 x.2.2.1 x.2.1 x.2.2.2)) K

/-! ### Bratu -/

/-- `Bratu_Function`, demo/BratuFJ.F90:23-60: `neq` is 1 with collocation. -/
noncomputable def bratuFunction (lambda : ℝ) (neq : Nat) (p : PtData d nsd n) (U : List ℝ) (R : Int → ℝ) : Res (Int → ℝ) :=
  let u := value 1 p U 0
  let grad_u := grad 1 p U 0
  let del2_u := del2 1 p U 0
  if neq = 1 then .ok (put R 0 (-del2_u - lambda * Real.exp u))
  else .ok (fillVec (dof := 1) (fun a _ => dot (fun i => p.shape.t1 i a) grad_u - p.shape.t0 a * lambda * Real.exp u) R)

/-- `Bratu_Jacobian`, demo/BratuFJ.F90:62-107. -/
noncomputable def bratuJacobian (lambda : ℝ) (neq : Nat) (p : PtData d nsd n) (U : List ℝ) (K : Int → ℝ) : Res (Int → ℝ) :=
  let u := value 1 p U 0
  if neq = 1 then
    .ok ((List.finRange n).foldl (fun K (a : Fin n) =>
      let del2_N := (List.finRange d).foldl (fun s i => s + p.shape.t2 i i a) 0
      put K ((a:Nat) : Int) (-del2_N - p.shape.t0 a * lambda * Real.exp u)) K)
  else .ok (fillMat (dof := 1) (fun a _ b _ =>
    dot (fun i => p.shape.t1 i a) (fun i => p.shape.t1 i b) - p.shape.t0 a * p.shape.t0 b * lambda * Real.exp u) K)

/-- `Bratu_IFunction`, demo/BratuFJ.F90:111-141. -/
noncomputable def bratuIFunction (lambda : ℝ) (p : PtData d nsd n) (_shift : ℝ) (V : List ℝ) (_t : ℝ) (U : List ℝ) (R : Int → ℝ) : Res (Int → ℝ) :=
  let v := value 1 p V 0
  let u := value 1 p U 0
  let grad_u := grad 1 p U 0
  .ok (fillVec (dof := 1) (fun a _ => p.shape.t0 a * v + dot (fun i => p.shape.t1 i a) grad_u - p.shape.t0 a * lambda * Real.exp u) R)

/-- `Bratu_IJacobian`, demo/BratuFJ.F90:143-175. -/
noncomputable def bratuIJacobian (lambda : ℝ) (p : PtData d nsd n) (shift : ℝ) (_V : List ℝ) (_t : ℝ) (U : List ℝ) (K : Int → ℝ) : Res (Int → ℝ) :=
  let u := value 1 p U 0
  .ok (fillMat (dof := 1) (fun a _ b _ => shift * p.shape.t0 a * p.shape.t0 b + dot (fun i => p.shape.t1 i a) (fun i => p.shape.t1 i b)
    - p.shape.t0 a * p.shape.t0 b * lambda * Real.exp u) K)

/-! ### Elastic rod -/

/-- `ElasticRod_IFunction`, demo/ElasticRodFJ.F90:20-53, with `p%dof == 1`. -/
noncomputable def rodFunction (rho E : ℝ) (p : PtData d nsd n) (_shiftA : ℝ) (A : List ℝ) (_shiftV : ℝ) (_V : List ℝ) (_t : ℝ) (U : List ℝ)
    (R : Int → ℝ) : Res (Int → ℝ) :=
  let acc := value 1 p A 0
  let grad_U := grad 1 p U 0
  .ok (fillVec (dof := 1) (fun a _ => p.shape.t0 a * rho * acc + E * dot (fun i => p.shape.t1 i a) grad_U) R)

/-- `ElasticRod_IJacobian`, demo/ElasticRodFJ.F90:55-90. -/
noncomputable def rodJacobian (rho E : ℝ) (p : PtData d nsd n) (shiftA : ℝ) (_A : List ℝ) (_shiftV : ℝ) (_V : List ℝ) (_t : ℝ) (_U : List ℝ)
    (K : Int → ℝ) : Res (Int → ℝ) :=
  .ok (fillMat (dof := 1) (fun a _ b _ => shiftA * rho * p.shape.t0 a * p.shape.t0 b
    + E * dot (fun i => p.shape.t1 i a) (fun i => p.shape.t1 i b)) K)

/-! ### Cahn-Hilliard -/

/-- `Mobility`, demo/CahnHilliard2D.c:9-14, demo/CahnHilliard3D.c:11-16: `M`. -/
noncomputable def mobM (c : ℝ) : ℝ := c * (1 - c)
/-- `Mobility`: `dM`. -/
noncomputable def mobD (c : ℝ) : ℝ := 1 - 2 * c
/-- `Mobility`: `d2M`. -/
noncomputable def mobD2 (_c : ℝ) : ℝ := -2

/-- `ChemicalPotential`, demo/CahnHilliard2D.c:16-32: `mu`. -/
noncomputable def chemMu2D (alpha theta c : ℝ) : ℝ := (0.5 / theta * Real.log (c / (1 - c)) + 1 - 2 * c) * (3 * alpha)
/-- `ChemicalPotential`, demo/CahnHilliard2D.c:16-32: `dmu`. -/
noncomputable def chem2D (alpha theta c : ℝ) : ℝ := (0.5 / theta * 1 / (c * (1 - c)) - 2) * (3 * alpha)
/-- `ChemicalPotential`, demo/CahnHilliard2D.c:16-32: `d2mu`. -/
noncomputable def chemD2D (alpha theta c : ℝ) : ℝ := (0.5 / theta * (2 * c - 1) / (c * c * (1 - c) * (1 - c))) * (3 * alpha)

/-- `ChemicalPotential`, demo/CahnHilliard3D.c:39-53: `mu`. -/
noncomputable def chemMu3D (theta L0 lambda c : ℝ) : ℝ := (0.5 / theta * Real.log (c / (1 - c)) + 1 - 2 * c) * (L0 * L0 / lambda)
/-- `ChemicalPotential`, demo/CahnHilliard3D.c:39-53: `dmu`. -/
noncomputable def chem3D (theta L0 lambda c : ℝ) : ℝ := (0.5 / theta * 1 / (c * (1 - c)) - 2) * (L0 * L0 / lambda)
/-- `ChemicalPotential`, demo/CahnHilliard3D.c:39-53: `d2mu`. -/
noncomputable def chemD3D (theta L0 lambda c : ℝ) : ℝ := (-0.5 / theta * (1 - 2 * c) / (c * c * (1 - c) * (1 - c))) * (L0 * L0 / lambda)

/-- `Residual`, demo/CahnHilliard2D.c:84-133. -/
noncomputable def ch2Residual (alpha theta : ℝ) (p : PtData 2 nsd n) (_shift : ℝ) (V : List ℝ) (_t : ℝ) (U : List ℝ) (R : Int → ℝ) : Res (Int → ℝ) :=
  let c_t := value 1 p V 0
  let c := value 1 p U 0
  let M := mobM c
  let dM := mobD c
  let dmu := chem2D alpha theta c
  let c_x := grad 1 p U 0 0
  let c_y := grad 1 p U 0 1
  let del2_c := del2 1 p U 0
  let t1 := M * dmu + dM * del2_c
  .ok (fillVec (dof := 1) (fun a _ => 0 + p.shape.t0 a * c_t + (p.shape.t1 0 a * c_x + p.shape.t1 1 a * c_y) * t1
    + (p.shape.t2 0 0 a + p.shape.t2 1 1 a) * M * del2_c) R)

/-- `Tangent`, demo/CahnHilliard2D.c:135-197. -/
noncomputable def ch2Tangent (alpha theta : ℝ) (p : PtData 2 nsd n) (shift : ℝ) (_V : List ℝ) (_t : ℝ) (U : List ℝ) (K : Int → ℝ) : Res (Int → ℝ) :=
  let c := value 1 p U 0
  let M := mobM c
  let dM := mobD c
  let d2M := mobD2 c
  let dmu := chem2D alpha theta c
  let d2mu := chemD2D alpha theta c
  let c_x := grad 1 p U 0 0
  let c_y := grad 1 p U 0 1
  let del2_c := del2 1 p U 0
  let t1 := M * dmu + dM * del2_c
  let t2 := dM * dmu + M * d2mu + d2M * del2_c
  .ok (fillMat (dof := 1) (fun a _ b _ =>
    let del2_Na := p.shape.t2 0 0 a + p.shape.t2 1 1 a
    let del2_Nb := p.shape.t2 0 0 b + p.shape.t2 1 1 b
    let t3 := t2 * p.shape.t0 b + dM * del2_Nb
    0 + shift * p.shape.t0 a * p.shape.t0 b
      + (p.shape.t1 0 a * p.shape.t1 0 b + p.shape.t1 1 a * p.shape.t1 1 b) * t1
      + (p.shape.t1 0 a * c_x + p.shape.t1 1 a * c_y) * t3
      + del2_Na * (dM * del2_c * p.shape.t0 b + M * del2_Nb)) K)

/-- `Residual`, demo/CahnHilliard3D.c:55-109. -/
noncomputable def ch3Residual (theta L0 lambda : ℝ) (p : PtData 3 nsd n) (_shift : ℝ) (V : List ℝ) (_t : ℝ) (U : List ℝ) (R : Int → ℝ) : Res (Int → ℝ) :=
  let c_t := value 1 p V 0
  let c := value 1 p U 0
  let M := mobM c
  let dM := mobD c
  let dmu := chem3D theta L0 lambda c
  let c_x := grad 1 p U 0 0
  let c_y := grad 1 p U 0 1
  let c_z := grad 1 p U 0 2
  let c_xx := hess 1 p U 0 0 0
  let c_yy := hess 1 p U 0 1 1
  let c_zz := hess 1 p U 0 2 2
  .ok (fillVec (dof := 1) (fun a _ =>
    let t1 := M * dmu + dM * (c_xx + c_yy + c_zz)
    0 + p.shape.t0 a * c_t + p.shape.t1 0 a * t1 * c_x + p.shape.t1 1 a * t1 * c_y + p.shape.t1 2 a * t1 * c_z
      + (p.shape.t2 0 0 a + p.shape.t2 1 1 a + p.shape.t2 2 2 a) * M * (c_xx + c_yy + c_zz)) R)

/-- `Tangent`, demo/CahnHilliard3D.c:111-179. -/
noncomputable def ch3Tangent (theta L0 lambda : ℝ) (p : PtData 3 nsd n) (shift : ℝ) (_V : List ℝ) (_t : ℝ) (U : List ℝ) (K : Int → ℝ) : Res (Int → ℝ) :=
  let c := value 1 p U 0
  let M := mobM c
  let dM := mobD c
  let d2M := mobD2 c
  let dmu := chem3D theta L0 lambda c
  let d2mu := chemD3D theta L0 lambda c
  let c_x := grad 1 p U 0 0
  let c_y := grad 1 p U 0 1
  let c_z := grad 1 p U 0 2
  let c_xx := hess 1 p U 0 0 0
  let c_yy := hess 1 p U 0 1 1
  let c_zz := hess 1 p U 0 2 2
  .ok (fillMat (dof := 1) (fun a _ b _ =>
    let t1 := M * dmu + dM * (c_xx + c_yy + c_zz)
    let t2 := (dM * dmu + M * d2mu + d2M * (c_xx + c_yy + c_zz)) * p.shape.t0 b
      + dM * (p.shape.t2 0 0 b + p.shape.t2 1 1 b + p.shape.t2 2 2 b)
    0 + shift * p.shape.t0 a * p.shape.t0 b
      + p.shape.t1 0 a * t1 * p.shape.t1 0 b + p.shape.t1 1 a * t1 * p.shape.t1 1 b + p.shape.t1 2 a * t1 * p.shape.t1 2 b
      + p.shape.t1 0 a * t2 * c_x + p.shape.t1 1 a * t2 * c_y + p.shape.t1 2 a * t2 * c_z
      + (p.shape.t2 0 0 a + p.shape.t2 1 1 a + p.shape.t2 2 2 a)
        * (dM * (c_xx + c_yy + c_zz) * p.shape.t0 b + M * (p.shape.t2 0 0 b + p.shape.t2 1 1 b + p.shape.t2 2 2 b))) K)

/-! ### Pattern formation -/

/-- `AppCtx`, demo/PatternFormation.c:15-24. -/
structure Pattern where
  implicit : Bool
  delta : ℝ
  D1 : ℝ
  D2 : ℝ
  alpha : ℝ
  beta : ℝ
  gamma : ℝ
  tau1 : ℝ
  tau2 : ℝ

/-- `Function`, demo/PatternFormation.c:26-76. -/
noncomputable def patFunction (w : Pattern) (p : PtData 2 nsd n) (_shift : ℝ) (V : List ℝ) (_t : ℝ) (U1 : List ℝ) (_t0 : ℝ) (U0 : List ℝ)
    (R : Int → ℝ) : Res (Int → ℝ) :=
  let uv_t := value 2 p V
  let uv := if w.implicit then value 2 p U1 else value 2 p U0
  let g1 := grad 2 p U1
  let u := uv 0
  let v := uv 1
  let f := w.alpha * u * (1 - w.tau1 * v * v) + v * (1 - w.tau2 * u)
  let g := w.beta * v * (1 + w.alpha * w.tau1 / w.beta * u * v) + u * (w.gamma + w.tau2 * v)
  .ok (fillVec (dof := 2) (fun a i =>
    if i = 0 then p.shape.t0 a * uv_t 0 + w.delta * w.D1 * (p.shape.t1 0 a * g1 0 0 + p.shape.t1 1 a * g1 0 1) - p.shape.t0 a * f
    else p.shape.t0 a * uv_t 1 + w.delta * w.D2 * (p.shape.t1 0 a * g1 1 0 + p.shape.t1 1 a * g1 1 1) - p.shape.t0 a * g) R)

/-- `Jacobian`, demo/PatternFormation.c:78-141; without `IMPLICIT` the off-diagonal entries are left alone, which is `+= 0`. -/
noncomputable def patJacobian (w : Pattern) (p : PtData 2 nsd n) (shift : ℝ) (_V : List ℝ) (_t : ℝ) (U1 : List ℝ) (_t0 : ℝ) (_U0 : List ℝ)
    (K : Int → ℝ) : Res (Int → ℝ) :=
  let u := value 2 p U1 0
  let v := value 2 p U1 1
  let f_u := w.alpha * (1 - w.tau1 * v * v) - w.tau2 * v
  let f_v := -2 * w.alpha * w.tau1 * u * v + (1 - w.tau2 * u)
  let g_u := w.alpha * w.tau1 * v * v + (w.gamma + w.tau2 * v)
  let g_v := (w.beta + 2 * w.alpha * w.tau1 * u * v) + w.tau2 * u
  .ok (addMat (dof := 2) (fun a i b j =>
    let Na := p.shape.t0 a
    let Nb := p.shape.t0 b
    let k00 := shift * Na * Nb + w.delta * w.D1 * (p.shape.t1 0 a * p.shape.t1 0 b + p.shape.t1 1 a * p.shape.t1 1 b)
    let k11 := shift * Na * Nb + w.delta * w.D2 * (p.shape.t1 0 a * p.shape.t1 0 b + p.shape.t1 1 a * p.shape.t1 1 b)
    if w.implicit then
      if i = 0 then (if j = 0 then k00 - Na * f_u * Nb else 0 - Na * f_v * Nb)
      else (if j = 0 then 0 - Na * g_u * Nb else k11 - Na * g_v * Nb)
    else if i = 0 then (if j = 0 then k00 else 0) else (if j = 0 then 0 else k11)) K)

/-! ### Navier-Stokes-Korteweg -/

/-- `Residual`, demo/NavierStokesKorteweg2D.c:26-95. -/
noncomputable def nskResidual (Ca Re theta : ℝ) (p : PtData 2 nsd n) (_shift : ℝ) (V : List ℝ) (_t : ℝ) (U : List ℝ) (R : Int → ℝ) : Res (Int → ℝ) :=
  let Ca2 := Ca * Ca
  let rRe := 1 / Re
  let sol_t := value 3 p V
  let sol := value 3 p U
  let grad_sol := grad 3 p U
  let hess_sol := hess 3 p U
  let rho := sol 0
  let rho_t := sol_t 0
  let grad_rho := grad_sol 0
  let div_rho := hess_sol 0 0 0 + hess_sol 0 1 1
  let u : Fin 2 → ℝ := fun i => sol i.succ
  let u_t : Fin 2 → ℝ := fun i => sol_t i.succ
  let grad_u : Fin 2 → Fin 2 → ℝ := fun i j => grad_sol i.succ j
  let pr := 8 / 27 * theta * rho / (1 - rho) - rho * rho
  .ok (fillVec (dof := 3) (fun a => Fin.cons
    (p.shape.t0 a * rho_t - rho * (p.shape.t1 0 a * u 0 + p.shape.t1 1 a * u 1))
    (fun i : Fin 2 =>
      p.shape.t0 a * (rho_t * u i + rho * u_t i)
      + -rho * u i * (p.shape.t1 0 a * u 0 + p.shape.t1 1 a * u 1)
      + -p.shape.t1 i a * pr
      + rRe * (p.shape.t1 0 a * grad_u i 0 + p.shape.t1 1 a * grad_u i 1)
      + rRe * (p.shape.t1 0 a * grad_u 0 i + p.shape.t1 1 a * grad_u 1 i)
      + -(2 / 3) * rRe * p.shape.t1 i a * (grad_u 0 0 + grad_u 1 1)
      + Ca2 * p.shape.t1 i a * rho * div_rho
      + 0.5 * Ca2 * p.shape.t1 i a * (grad_rho 0 * grad_rho 0 + grad_rho 1 * grad_rho 1)
      + -Ca2 * grad_rho i * (p.shape.t1 0 a * grad_rho 0 + p.shape.t1 1 a * grad_rho 1))) R)

/-- `Jacobian`, demo/NavierStokesKorteweg2D.c:97-175. -/
noncomputable def nskJacobian (Ca Re theta : ℝ) (p : PtData 2 nsd n) (shift : ℝ) (V : List ℝ) (_t : ℝ) (U : List ℝ) (K : Int → ℝ) : Res (Int → ℝ) :=
  let Ca2 := Ca * Ca
  let rRe := 1 / Re
  let sol_t := value 3 p V
  let sol := value 3 p U
  let grad_sol := grad 3 p U
  let hess_sol := hess 3 p U
  let rho := sol 0
  let rho_t := sol_t 0
  let grad_rho := grad_sol 0
  let div_rho := hess_sol 0 0 0 + hess_sol 0 1 1
  let u : Fin 2 → ℝ := fun i => sol i.succ
  let u_t : Fin 2 → ℝ := fun i => sol_t i.succ
  let dp := 8 / 27 * theta / (1 - rho) * (rho / (1 - rho) + 1) - 2 * rho
  .ok (addMat (dof := 3) (fun a i b j =>
    let Na := p.shape.t0 a
    let Nb := p.shape.t0 b
    let ga : Fin 2 → ℝ := fun i => p.shape.t1 i a
    let gb : Fin 2 → ℝ := fun i => p.shape.t1 i b
    let divN := p.shape.t2 0 0 b + p.shape.t2 1 1 b
    Fin.cons (α := fun _ => ℝ)
      (Fin.cons (α := fun _ => ℝ) (shift * Na * Nb + (-ga 0 * Nb * u 0) + (-ga 1 * Nb * u 1)) (fun i : Fin 2 => -ga i * rho * Nb) j)
      (fun i : Fin 2 => Fin.cons (α := fun _ => ℝ)
        (shift * Na * Nb * u i + Na * Nb * u_t i + -Nb * u i * (ga 0 * u 0 + ga 1 * u 1) + -ga i * dp * Nb
          + Ca2 * ga i * (Nb * div_rho + rho * divN) + Ca2 * ga i * (grad_rho 0 * gb 0 + grad_rho 1 * gb 1)
          + -Ca2 * gb i * (grad_rho 0 * ga 0 + grad_rho 1 * ga 1) + -Ca2 * grad_rho i * (ga 0 * gb 0 + ga 1 * gb 1))
        (fun j : Fin 2 =>
          (if i = j then shift * Na * rho * Nb + Na * rho_t * Nb + -rho * Nb * (ga 0 * u 0 + ga 1 * u 1) + rRe * (ga 0 * gb 0 + ga 1 * gb 1) else 0)
          + -ga j * rho * u i * Nb + rRe * ga j * gb i + -2 / 3 * rRe * ga i * gb j) j) i) K)

end PetIGA.Frm
