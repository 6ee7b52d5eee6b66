import Verif.Model.HyperElastic
import Verif.Props.DemoForms
import Mathlib.LinearAlgebra.Matrix.NonsingularInverse
import Mathlib.LinearAlgebra.Matrix.Determinant.Basic
import Mathlib.Algebra.BigOperators.Field
import Mathlib.Tactic.FieldSimp
import Mathlib.Tactic.Ring
/-
C105: demo/HyperElasticity.c.
-/
set_option linter.unusedSectionVars false
namespace PetIGA.Hyp
open PetIGA.Itg PetIGA.Ker PetIGA.Demo PetIGA.Frm PetIGA.Drv PetIGA.Spec PetIGA.Ax PetIGA.Lay PetIGA.Asm PetIGA.Rule PetIGA.Grid PetIGA.Part

variable {n : Nat}

/-! ### Specification -/

/-- The deformation gradient `F` displaced by `s` times `G`. -/
def line (F G : M3) (s : ℝ) : M3 := fun i j => F i j + s * G i j

/-- The change of `FᵀF` in the direction `G`. -/
def strainRate (F G : M3) : M3 := fun i j => ∑ k, (F k i * G k j + G k i * F k j)

/-- The components 11, 22, 33, 12, 23, 13 of a symmetric stress. -/
def stress6 (S : M3) : Fin 6 → ℝ := ![S 0 0, S 1 1, S 2 2, S 0 1, S 1 2, S 0 2]

/-- The components of the rate of the Green strain `(FᵀF - I) / 2`, the shear components doubled, from the rate of `FᵀF`. -/
noncomputable def strain6 (E : M3) : Fin 6 → ℝ := ![E 0 0 / 2, E 1 1 / 2, E 2 2 / 2, E 0 1, E 1 2, E 0 2]

/-- A constitutive model is consistent at `F`: its stress is symmetric, and its tangent times the rate of strain is the rate of stress, in every direction. -/
def Consistent (model : M3 → M3 × M6) (F : M3) : Prop :=
  (∀ i j, (model F).1 i j = (model F).1 j i) ∧
  ∀ G I, HasDerivAt (fun s => stress6 (model (line F G s)).1 I) (∑ J, (model F).2 I J * strain6 (strainRate F G) J) 0

/-! ### Kinematics -/

theorem line_zero (F G : M3) : line F G 0 = F := by
  funext i j; simp [line]

theorem three {P : Fin 3 → Prop} (h0 : P 0) (h1 : P 1) (h2 : P 2) : ∀ i, P i := by
  intro i; fin_cases i <;> assumption

/-- The derivative of the determinant at `F` in the direction `G`. -/
def detRate (F G : M3) : ℝ :=
  G 0 0 * (F 1 1 * F 2 2 - F 1 2 * F 2 1) + F 0 0 * (G 1 1 * F 2 2 + F 1 1 * G 2 2 - (G 1 2 * F 2 1 + F 1 2 * G 2 1))
    - (G 0 1 * (F 1 0 * F 2 2 - F 1 2 * F 2 0) + F 0 1 * (G 1 0 * F 2 2 + F 1 0 * G 2 2 - (G 1 2 * F 2 0 + F 1 2 * G 2 0)))
    + (G 0 2 * (F 1 0 * F 2 1 - F 1 1 * F 2 0) + F 0 2 * (G 1 0 * F 2 1 + F 1 0 * G 2 1 - (G 1 1 * F 2 0 + F 1 1 * G 2 0)))

theorem detF_line (F G : M3) : HasDerivAt (fun s => detF (line F G s)) (detRate F G) 0 := by
  unfold detF line detRate
  apply HasDerivAt.congr_deriv
  · line_derivative
  · ring

theorem invF_line (F G : M3) (hF : detF F ≠ 0) (i j : Fin 3) : HasDerivAt (fun s => invF (line F G s) i j)
    (-∑ k, ∑ l, invF F i k * G k l * invF F l j) 0 := by
  have hd := detF_line F G
  have h0 : detF (line F G 0) ≠ 0 := by rw [line_zero]; exact hF
  obtain ⟨dJ, hdJ⟩ : ∃ x, x = detRate F G := ⟨_, rfl⟩
  rw [← hdJ] at hd
  have hi : HasDerivAt (fun s => 1 / detF (line F G s)) (-dJ / detF F ^ 2) 0 := by
    have := hd.fun_inv h0
    simpa only [one_div, line_zero] using this
  simp only [Fin.sum_univ_three]
  unfold invF
  revert i j
  refine three (three ?_ ?_ ?_) (three ?_ ?_ ?_) (three ?_ ?_ ?_)
  all_goals
    simp only [Matrix.cons_val, line]
    apply HasDerivAt.congr_deriv
    · repeat' first
        | exact hi
        | exact hasDerivAt_const _ _
        | exact line_deriv _ _
        | apply HasDerivAt.fun_add
        | apply HasDerivAt.fun_sub
        | apply HasDerivAt.fun_mul
        | apply HasDerivAt.fun_neg
    · simp only [line_zero, zero_mul, add_zero]
      have e : detF F = F 0 0 * (F 1 1 * F 2 2 - F 1 2 * F 2 1) - F 0 1 * (F 1 0 * F 2 2 - F 1 2 * F 2 0) + F 0 2 * (F 1 0 * F 2 1 - F 1 1 * F 2 0) := rfl
      field_simp
      rw [e, hdJ, detRate]
      ring

/-- An array as a matrix. -/
abbrev mat (F : M3) : Matrix (Fin 3) (Fin 3) ℝ := Matrix.of F

theorem mul_invF (F : M3) (hF : detF F ≠ 0) : mat F * mat (invF F) = 1 := by
  ext i j
  rw [Matrix.mul_apply, Fin.sum_univ_three]
  have e : detF F = F 0 0 * (F 1 1 * F 2 2 - F 1 2 * F 2 1) - F 0 1 * (F 1 0 * F 2 2 - F 1 2 * F 2 0) + F 0 2 * (F 1 0 * F 2 1 - F 1 1 * F 2 0) := rfl
  simp only [mat, Matrix.of_apply]
  unfold invF
  revert i j
  refine three (three ?_ ?_ ?_) (three ?_ ?_ ?_) (three ?_ ?_ ?_)
  all_goals
    simp only [Matrix.cons_val, Matrix.one_apply, Fin.isValue, if_true, reduceIte, Fin.reduceEq]
    field_simp
    try rw [e]
    ring

theorem invF_eq (F : M3) (hF : detF F ≠ 0) : mat (invF F) = (mat F)⁻¹ := (Matrix.inv_eq_right_inv (mul_invF F hF)).symm

theorem invC_eq (A : M3) : mat (invC A) = mat A * (mat A).transpose := by
  ext i j
  rw [Matrix.mul_apply, Fin.sum_univ_three]
  unfold mat invC
  revert i j
  refine three (three ?_ ?_ ?_) (three ?_ ?_ ?_) (three ?_ ?_ ?_)
  all_goals rfl

theorem rightC_eq (F : M3) : mat (rightC F) = (mat F).transpose * mat F := by
  ext i j
  rw [Matrix.mul_apply, Fin.sum_univ_three]
  unfold mat rightC
  revert i j
  refine three (three ?_ ?_ ?_) (three ?_ ?_ ?_) (three ?_ ?_ ?_)
  all_goals rfl

theorem strainRate_eq (F G : M3) : mat (strainRate F G) = (mat F).transpose * mat G + (mat G).transpose * mat F := by
  ext i j
  simp only [Matrix.add_apply, Matrix.mul_apply, Matrix.transpose_apply, mat, Matrix.of_apply, strainRate, Finset.sum_add_distrib]

theorem strainRate_symm (F G : M3) (i j : Fin 3) : strainRate F G i j = strainRate F G j i := by
  simp only [strainRate]
  exact Finset.sum_congr rfl fun k _ => by ring

theorem invC_symm (A : M3) (i j : Fin 3) : invC A i j = invC A j i := by
  have h := invC_eq A
  have : (mat (invC A)).transpose = mat (invC A) := by rw [h, Matrix.transpose_mul, Matrix.transpose_transpose]
  exact congrFun (congrFun this j) i

/-- The derivative of `(FᵀF)⁻¹`. -/
theorem invC_line (F G : M3) (hF : detF F ≠ 0) (i j : Fin 3) : HasDerivAt (fun s => invC (invF (line F G s)) i j)
    (-∑ k, ∑ l, invC (invF F) i k * strainRate F G k l * invC (invF F) l j) 0 := by
  have h := invF_line F G hF
  have e : ∀ s, invC (invF (line F G s)) i j = ∑ k, invF (line F G s) i k * invF (line F G s) j k := by
    intro s
    have := congrFun (congrFun (invC_eq (invF (line F G s))) i) j
    rw [Matrix.mul_apply] at this
    exact this
  simp only [e]
  have hsum := HasDerivAt.fun_sum (u := Finset.univ) (fun k _ => (h i k).fun_mul (h j k))
  refine hsum.congr_deriv ?_
  simp only [line_zero]
  have key : -(mat (invC (invF F)) * mat (strainRate F G) * mat (invC (invF F))) =
      -(mat (invF F) * mat G * mat (invF F)) * (mat (invF F)).transpose + mat (invF F) * (-(mat (invF F) * mat G * mat (invF F))).transpose := by
    have h1 := mul_invF F hF
    have h2 : (mat (invF F)).transpose * (mat F).transpose = 1 := by rw [← Matrix.transpose_mul, h1, Matrix.transpose_one]
    rw [invC_eq, strainRate_eq]
    generalize mat (invF F) = A at *
    generalize mat F = B at *
    generalize mat G = D at *
    have e1 : A * A.transpose * (B.transpose * D + D.transpose * B) * (A * A.transpose) =
        A * (A.transpose * B.transpose) * D * A * A.transpose + A * A.transpose * D.transpose * (B * A) * A.transpose := by
      simp only [Matrix.mul_add, Matrix.add_mul, Matrix.mul_assoc]
    rw [e1, h1, h2]
    simp only [Matrix.transpose_neg, Matrix.transpose_mul, Matrix.mul_one, Matrix.neg_mul, Matrix.mul_neg, Matrix.mul_assoc, neg_add]
  have hk := congrFun (congrFun key i) j
  simp only [Matrix.neg_apply, Matrix.add_apply, Matrix.mul_apply, Matrix.transpose_apply, mat, Matrix.of_apply] at hk
  have c1 : ∀ (f : Fin 3 → Fin 3 → ℝ), (∑ k, ∑ l, f k l) = ∑ l, ∑ k, f k l := fun f => Finset.sum_comm
  calc _ = (∑ k, (-∑ l, (∑ m, invF F i m * G m l) * invF F l k) * invF F j k) + ∑ k, invF F i k * (-∑ l, (∑ m, invF F j m * G m l) * invF F l k) := by
        rw [← Finset.sum_add_distrib]
        refine Finset.sum_congr rfl fun k _ => ?_
        have ex : ∀ a : Fin 3, (∑ k_1, ∑ l, invF F a k_1 * G k_1 l * invF F l k) = ∑ l, (∑ m, invF F a m * G m l) * invF F l k := by
          intro a
          rw [c1]
          exact Finset.sum_congr rfl fun l _ => by rw [Finset.sum_mul]
        rw [ex, ex]
    _ = _ := hk.symm
    _ = _ := by
        congr 1
        rw [c1 (fun k l => invC (invF F) i k * strainRate F G k l * invC (invF F) l j)]
        exact Finset.sum_congr rfl fun l _ => by rw [Finset.sum_mul]

/-- The derivative of `FᵀF`. -/
theorem rightC_line (F G : M3) (i j : Fin 3) : HasDerivAt (fun s => rightC (line F G s) i j) (strainRate F G i j) 0 := by
  have e : ∀ s, rightC (line F G s) i j = ∑ k, (F k i + s * G k i) * (F k j + s * G k j) := by
    intro s
    have := congrFun (congrFun (rightC_eq (line F G s)) i) j
    rw [Matrix.mul_apply] at this
    exact this
  simp only [e]
  have hsum := HasDerivAt.fun_sum (u := Finset.univ) (fun k _ => (line_deriv (F k i) (G k i)).fun_mul (line_deriv (F k j) (G k j)))
  refine hsum.congr_deriv ?_
  unfold strainRate
  exact Finset.sum_congr rfl fun k _ => by ring

/-- The derivative of the determinant, with the strain rate. -/
theorem detRate_eq (F G : M3) (hF : detF F ≠ 0) : detRate F G = detF F / 2 * ∑ k, ∑ l, invC (invF F) k l * strainRate F G k l := by
  have h1 : detRate F G = detF F * ∑ k, ∑ l, invF F k l * G l k := by
    simp only [Fin.sum_univ_three]
    unfold invF
    simp only [Matrix.cons_val]
    field_simp
    unfold detRate
    ring
  have h2 : (∑ k, ∑ l, invC (invF F) k l * strainRate F G k l) = 2 * ∑ k, ∑ l, invF F k l * G l k := by
    have t1 : (∑ k, ∑ l, invC (invF F) k l * strainRate F G k l) = (mat (invC (invF F)) * mat (strainRate F G)).trace := by
      simp only [Matrix.trace, Matrix.diag, Matrix.mul_apply, mat, Matrix.of_apply]
      exact Finset.sum_congr rfl fun k _ => Finset.sum_congr rfl fun l _ => by rw [strainRate_symm F G k l]
    have t2 : (∑ k, ∑ l, invF F k l * G l k) = (mat (invF F) * mat G).trace := by
      simp only [Matrix.trace, Matrix.diag, Matrix.mul_apply, mat, Matrix.of_apply]
    rw [t1, t2, invC_eq, strainRate_eq]
    have h1 := mul_invF F hF
    have h2 : (mat (invF F)).transpose * (mat F).transpose = 1 := by rw [← Matrix.transpose_mul, h1, Matrix.transpose_one]
    generalize mat (invF F) = A at *
    generalize mat F = B at *
    generalize mat G = D at *
    have e1 : A * A.transpose * (B.transpose * D + D.transpose * B) = A * (A.transpose * B.transpose) * D + A * A.transpose * D.transpose * B := by
      simp only [Matrix.mul_add, Matrix.mul_assoc]
    rw [e1, h2, Matrix.mul_one, Matrix.trace_add]
    have e2 : (A * A.transpose * D.transpose * B).trace = (A * D).trace := by
      rw [Matrix.trace_mul_comm, ← Matrix.mul_assoc, ← Matrix.mul_assoc, h1, Matrix.one_mul, ← Matrix.transpose_mul, Matrix.trace_transpose, Matrix.trace_mul_comm]
    rw [e2]
    ring
  rw [h1, h2]
  ring

/-- The quantities the models use, along a direction: `j` the determinant, `a` the inverse of `FᵀF`, `c` is `FᵀF`, `E` the rate of `c`. -/
structure Kin (j : ℝ → ℝ) (a c : ℝ → M3) (E : M3) : Prop where
  hj : HasDerivAt j (j 0 / 2 * ∑ k, ∑ l, a 0 k l * E k l) 0
  ha : ∀ i m, HasDerivAt (fun s => a s i m) (-∑ k, ∑ l, a 0 i k * E k l * a 0 l m) 0
  hc : ∀ i m, HasDerivAt (fun s => c s i m) (E i m) 0
  sa : ∀ i m, a 0 i m = a 0 m i
  sc : ∀ i m, c 0 i m = c 0 m i
  sE : ∀ i m, E i m = E m i

theorem rightC_symm (F : M3) (i j : Fin 3) : rightC F i j = rightC F j i := by
  have h := rightC_eq F
  have : (mat (rightC F)).transpose = mat (rightC F) := by rw [h, Matrix.transpose_mul, Matrix.transpose_transpose]
  exact congrFun (congrFun this j) i

theorem kin (F G : M3) (hF : detF F ≠ 0) : Kin (fun s => detF (line F G s)) (fun s => invC (invF (line F G s))) (fun s => rightC (line F G s)) (strainRate F G) where
  hj := by
    have := detF_line F G
    rw [detRate_eq F G hF] at this
    simpa only [line_zero] using this
  ha i m := by simpa only [line_zero] using invC_line F G hF i m
  hc i m := rightC_line F G i m
  sa i m := invC_symm _ i m
  sc i m := rightC_symm _ i m
  sE i m := strainRate_symm F G i m

theorem six {P : Fin 6 → Prop} (h0 : P 0) (h1 : P 1) (h2 : P 2) (h3 : P 3) (h4 : P 4) (h5 : P 5) : ∀ i, P i := by
  intro i; fin_cases i <;> assumption

/-- Derivatives of polynomials in the quantities of `Kin`. -/
theorem neo_rate {j : ℝ → ℝ} {a c : ℝ → M3} {E : M3} (k : Kin j a c E) (lambda mu : ℝ) (I : Fin 6) :
    HasDerivAt (fun s => stress6 (neoS lambda mu (j s) (a s)) I) (∑ J, neoD lambda mu (j 0) (a 0) I J * strain6 E J) 0 := by
  have hj := k.hj
  have ha := k.ha
  have s10 := k.sa 1 0
  have s20 := k.sa 2 0
  have s21 := k.sa 2 1
  have e10 := k.sE 1 0
  have e20 := k.sE 2 0
  have e21 := k.sE 2 1
  simp only [Fin.sum_univ_three] at hj ha
  rw [Fin.sum_univ_six]
  unfold stress6 strain6 neoS neoD sym
  revert I
  refine six ?_ ?_ ?_ ?_ ?_ ?_
  all_goals
    simp only [Matrix.cons_val, reduceIte, Fin.reduceLE, Fin.isValue]
    apply HasDerivAt.congr_deriv
    · repeat' first
        | exact hasDerivAt_const _ _
        | exact hj
        | exact ha _ _
        | apply HasDerivAt.fun_add
        | apply HasDerivAt.fun_sub
        | apply HasDerivAt.fun_mul
        | apply HasDerivAt.fun_neg
    · simp only [s10, s20, s21, e10, e20, e21]
      ring

theorem stv_rate {j : ℝ → ℝ} {a c : ℝ → M3} {E : M3} (k : Kin j a c E) (lambda mu : ℝ) (I : Fin 6) :
    HasDerivAt (fun s => stress6 (stvS lambda mu (c s)) I) (∑ J, stvD lambda mu I J * strain6 E J) 0 := by
  have hj := k.hj
  have ha := k.ha
  have hc := k.hc
  have s10 := k.sa 1 0
  have s20 := k.sa 2 0
  have s21 := k.sa 2 1
  have c10 := k.sc 1 0
  have c20 := k.sc 2 0
  have c21 := k.sc 2 1
  have e10 := k.sE 1 0
  have e20 := k.sE 2 0
  have e21 := k.sE 2 1
  simp only [Fin.sum_univ_three] at hj ha
  rw [Fin.sum_univ_six]
  unfold stress6 strain6 stvS stvD sym
  revert I
  refine six ?_ ?_ ?_ ?_ ?_ ?_
  all_goals
    simp only [Matrix.cons_val, reduceIte, Fin.reduceLE, Fin.isValue]
    apply HasDerivAt.congr_deriv
    · repeat' first
        | exact hasDerivAt_const _ _
        | exact hj
        | exact ha _ _
        | exact hc _ _
        | apply HasDerivAt.fun_add
        | apply HasDerivAt.fun_sub
        | apply HasDerivAt.fun_mul
        | apply HasDerivAt.fun_neg
    · try simp only [s10, s20, s21, c10, c20, c21, e10, e20, e21]
      ring

theorem mr1_rate {j : ℝ → ℝ} {a c : ℝ → M3} {E : M3} (k : Kin j a c E) (a₀ b₀ c₀ d₀ : ℝ) (I : Fin 6) :
    HasDerivAt (fun s => stress6 (mr1S a₀ b₀ c₀ d₀ (j s) (a s) (squareC (a s))) I)
      (∑ J, mr1D b₀ c₀ d₀ (j 0) (a 0) (squareC (a 0)) I J * strain6 E J) 0 := by
  have hj := k.hj
  have ha := k.ha
  have hc := k.hc
  have s10 := k.sa 1 0
  have s20 := k.sa 2 0
  have s21 := k.sa 2 1
  have c10 := k.sc 1 0
  have c20 := k.sc 2 0
  have c21 := k.sc 2 1
  have e10 := k.sE 1 0
  have e20 := k.sE 2 0
  have e21 := k.sE 2 1
  simp only [Fin.sum_univ_three] at hj ha
  rw [Fin.sum_univ_six]
  unfold stress6 strain6 mr1S mr1D squareC sym
  revert I
  refine six ?_ ?_ ?_ ?_ ?_ ?_
  all_goals
    simp only [Matrix.cons_val, reduceIte, Fin.reduceLE, Fin.isValue]
    apply HasDerivAt.congr_deriv
    · repeat' first
        | exact hasDerivAt_const _ _
        | exact hj
        | exact ha _ _
        | exact hc _ _
        | apply HasDerivAt.fun_add
        | apply HasDerivAt.fun_sub
        | apply HasDerivAt.fun_mul
        | apply HasDerivAt.fun_neg
    · simp only [s10, s20, s21, c10, c20, c21, e10, e20, e21]
      ring

theorem cdiv_13 : cdiv 1 3 = 0 := by simp [cdiv]

theorem cdiv_23 : cdiv 2 3 = 0 := by simp [cdiv]

theorem cpow_zero (x : ℝ) : cpow x (-2) 3 = 1 := by
  have : (-2 : Int).tdiv 3 = 0 := by decide
  simp [cpow, this]

/-- In `GeneralModel` the projection is the identity, because `1/3` is 0 in C. -/
theorem genP_one (C Cinv : M3) (i j : Fin 6) : genP 1 C Cinv i j = if i = j then 1 else 0 := by
  unfold genP
  revert i j
  refine six (six ?_ ?_ ?_ ?_ ?_ ?_) (six ?_ ?_ ?_ ?_ ?_ ?_) (six ?_ ?_ ?_ ?_ ?_ ?_) (six ?_ ?_ ?_ ?_ ?_ ?_) (six ?_ ?_ ?_ ?_ ?_ ?_) (six ?_ ?_ ?_ ?_ ?_ ?_)
  all_goals simp [cdiv_13]

theorem genSiso_one (C Cinv : M3) (v : Fin 6 → ℝ) : genSiso (genP 1 C Cinv) v = v := by
  funext i
  unfold genSiso
  revert i
  refine six ?_ ?_ ?_ ?_ ?_ ?_
  all_goals simp [genP_one]

theorem genDiso_one (C Cinv : M3) (D : M6) (i j : Fin 6) : genDiso (genP 1 C Cinv) D i j = D i j := by
  unfold genDiso
  simp only [genP_one]
  revert i j
  refine six (six ?_ ?_ ?_ ?_ ?_ ?_) (six ?_ ?_ ?_ ?_ ?_ ?_) (six ?_ ?_ ?_ ?_ ?_ ?_) (six ?_ ?_ ?_ ?_ ?_ ?_) (six ?_ ?_ ?_ ?_ ?_ ?_) (six ?_ ?_ ?_ ?_ ?_ ?_)
  all_goals simp

theorem genDmore_zero (C Cinv : M3) (v w : Fin 6 → ℝ) (P : M6) (i j : Fin 6) : genDmore C Cinv v w P i j = 0 := by
  unfold genDmore
  revert i j
  refine six (six ?_ ?_ ?_ ?_ ?_ ?_) (six ?_ ?_ ?_ ?_ ?_ ?_) (six ?_ ?_ ?_ ?_ ?_ ?_) (six ?_ ?_ ?_ ?_ ?_ ?_) (six ?_ ?_ ?_ ?_ ?_ ?_) (six ?_ ?_ ?_ ?_ ?_ ?_)
  all_goals simp [cdiv_23]

/-- What `GeneralModel` computes: the stress of the energy `c1 tr C + c2 II(C) + kappa/2 (J - 1)²`. -/
theorem general_eq (c1 c2 kappa : ℝ) (F : M3) : general c1 c2 kappa F =
    (genS (genShat c1 c2 1 (rightC F)) (genSvol kappa (detF F) (invC (invF F))),
      sym fun i j => genDhat c2 i j + genDvol kappa (detF F) (invC (invF F)) i j) := by
  unfold general
  simp only [cpow_zero, genSiso_one, genDiso_one, genDmore_zero, add_zero]

theorem gen_rate {j : ℝ → ℝ} {a c : ℝ → M3} {E : M3} (k : Kin j a c E) (c1 c2 kappa : ℝ) (I : Fin 6) :
    HasDerivAt (fun s => stress6 (genS (genShat c1 c2 1 (c s)) (genSvol kappa (j s) (a s))) I)
      (∑ J, sym (fun i l => genDhat c2 i l + genDvol kappa (j 0) (a 0) i l) I J * strain6 E J) 0 := by
  have hj := k.hj
  have ha := k.ha
  have hc := k.hc
  have s10 := k.sa 1 0
  have s20 := k.sa 2 0
  have s21 := k.sa 2 1
  have c10 := k.sc 1 0
  have c20 := k.sc 2 0
  have c21 := k.sc 2 1
  have e10 := k.sE 1 0
  have e20 := k.sE 2 0
  have e21 := k.sE 2 1
  simp only [Fin.sum_univ_three] at hj ha
  rw [Fin.sum_univ_six]
  unfold stress6 strain6 genS genShat genSvol genDhat genDvol sym
  revert I
  refine six ?_ ?_ ?_ ?_ ?_ ?_
  all_goals
    simp only [Matrix.cons_val, reduceIte, Fin.reduceLE, Fin.isValue]
    apply HasDerivAt.congr_deriv
    · repeat' first
        | exact hasDerivAt_const _ _
        | exact hj
        | exact ha _ _
        | exact hc _ _
        | apply HasDerivAt.fun_add
        | apply HasDerivAt.fun_sub
        | apply HasDerivAt.fun_mul
        | apply HasDerivAt.fun_neg
    · simp only [s10, s20, s21, c10, c20, c21, e10, e20, e21]
      ring

/-! ### The models are consistent -/

theorem neo_consistent (lambda mu : ℝ) (F : M3) (hF : detF F ≠ 0) : Consistent (neoHookean lambda mu) F := by
  refine ⟨?_, fun G I => ?_⟩
  · have s10 := invC_symm (invF F) 1 0
    have s20 := invC_symm (invF F) 2 0
    have s21 := invC_symm (invF F) 2 1
    unfold neoHookean neoS
    refine three (three ?_ ?_ ?_) (three ?_ ?_ ?_) (three ?_ ?_ ?_)
    all_goals simp [s10, s20, s21]
  · have := neo_rate (kin F G hF) lambda mu I
    simp only [line_zero] at this
    exact this

theorem stv_consistent (lambda mu : ℝ) (F : M3) (hF : detF F ≠ 0) : Consistent (stVenant lambda mu) F := by
  refine ⟨?_, fun G I => ?_⟩
  · have s10 := rightC_symm F 1 0
    have s20 := rightC_symm F 2 0
    have s21 := rightC_symm F 2 1
    unfold stVenant stvS
    refine three (three ?_ ?_ ?_) (three ?_ ?_ ?_) (three ?_ ?_ ?_)
    all_goals simp [s10, s20, s21]
  · exact stv_rate (kin F G hF) lambda mu I

theorem mr1_consistent (a b c d : ℝ) (F : M3) (hF : detF F ≠ 0) : Consistent (mooneyRivlin1 a b c d) F := by
  refine ⟨?_, fun G I => ?_⟩
  · have s10 := invC_symm (invF F) 1 0
    have s20 := invC_symm (invF F) 2 0
    have s21 := invC_symm (invF F) 2 1
    unfold mooneyRivlin1 mr1S squareC
    refine three (three ?_ ?_ ?_) (three ?_ ?_ ?_) (three ?_ ?_ ?_)
    all_goals
      simp only [Matrix.cons_val, s10, s20, s21]
      try ring
  · have := mr1_rate (kin F G hF) a b c d I
    simp only [line_zero] at this
    exact this

theorem gen_consistent (c1 c2 kappa : ℝ) (F : M3) (hF : detF F ≠ 0) : Consistent (general c1 c2 kappa) F := by
  refine ⟨?_, fun G I => ?_⟩
  · rw [general_eq]
    unfold genS
    refine three (three ?_ ?_ ?_) (three ?_ ?_ ?_) (three ?_ ?_ ?_)
    all_goals simp
  · have := gen_rate (kin F G hF) c1 c2 kappa I
    simp only [general_eq]
    simpa only [line_zero] using this

/-! ### Residual and Jacobian -/

theorem deformation_eq (g : M3) (i j : Fin 3) : deformation g i j = (if i = j then 1 else 0) + g i j := by
  unfold deformation
  revert i j
  refine three (three ?_ ?_ ?_) (three ?_ ?_ ?_) (three ?_ ?_ ?_)
  all_goals simp

theorem deformation_axpy {U W : List ℝ} (h : U.length = W.length) (s : ℝ) (p : PtData 3 3 n) :
    deformation (grad 3 p (axpy U s W)) = line (deformation (grad 3 p U)) (grad 3 p W) s := by
  funext i j
  simp only [line, deformation_eq, grad_axpy h]
  ring

/-- If the constitutive model is consistent at the deformation gradient of the point, the array `Jacobian` leaves is the derivative of the array `Residual` leaves. -/
theorem consistent_jacobian (model : M3 → M3 × M6) (p : PtData 3 3 n) (U W : List ℝ) (hU : U.length = n * 3) (hW : W.length = n * 3)
    (hM : Consistent model (deformation (grad 3 p U))) (i : Nat) (hi : i < n * 3) :
    HasDerivAt (fun s => outcome (residual model p (axpy U s W)) i) (rowTimes (n * 3) (outcome (jacobian model p U)) i W) 0 := by
  have hl : U.length = W.length := hU.trans hW.symm
  refine deriv_of (dof := 3) _ _ _ _ (fun s A => rfl) (Or.inl fun A => rfl) W (fun a c => ?_) i hi
  simp only [deformation_axpy hl]
  obtain ⟨F, hF⟩ : ∃ F, F = deformation (grad 3 p U) := ⟨_, rfl⟩
  rw [← hF] at hM ⊢
  obtain ⟨hs, hd⟩ := hM
  have hd := hd (grad 3 p W)
  have d0 := hd 0
  have d1 := hd 1
  have d2 := hd 2
  have d3 := hd 3
  have d4 := hd 4
  have d5 := hd 5
  simp only [stress6, Matrix.cons_val] at d0 d1 d2 d3 d4 d5
  have z0 : line F (grad 3 p W) 0 = F := line_zero _ _
  have s10 := hs 1 0
  have s20 := hs 2 0
  have s21 := hs 2 1
  unfold force deltaE
  revert c
  refine three ?_ ?_ ?_
  all_goals
    simp only [Matrix.cons_val]
    apply HasDerivAt.congr_deriv
    · repeat' first
        | exact hasDerivAt_const _ _
        | exact d0
        | exact d1
        | exact d2
        | exact d3
        | exact d4
        | exact d5
        | exact line_deriv _ _
        | apply HasDerivAt.fun_add
        | apply HasDerivAt.fun_mul
    · simp only [z0, zero_mul, add_zero, strain6, strainRate, Fin.sum_univ_six, Fin.sum_univ_three, Matrix.cons_val, geometric, chi, s10, s20, s21, reduceIte, Fin.reduceEq, Fin.isValue]
      generalize (model F).1 = S at *
      generalize (model F).2 = D at *
      clear d0 d1 d2 d3 d4 d5 hd hs
      simp only [mul_zero, zero_add, add_zero]
      simp only [grad, Ker.evaluate, Finset.mul_sum, Finset.sum_mul, Finset.sum_div, ← Finset.sum_add_distrib]
      refine Finset.sum_congr rfl fun b _ => ?_
      ring

end PetIGA.Hyp
