import Verif.Props.HyperElastic
import Verif.Props.Energy
import Mathlib.Analysis.SpecialFunctions.Log.Deriv
import Mathlib.Tactic.NormNum
import Mathlib.Tactic.Linarith
/-
C105: demo/HyperElasticity.c, the theorems.  The program solves a nonlinear problem with the callbacks `Residual` and `Jacobian` and a constitutive model chosen by options.
-/
set_option linter.unusedSectionVars false
namespace PetIGA.Hyp
open PetIGA.Itg PetIGA.Ker PetIGA.Demo PetIGA.Frm PetIGA.Drv PetIGA.Spec PetIGA.Ax PetIGA.Lay PetIGA.Asm PetIGA.Rule PetIGA.Grid PetIGA.Part

variable {n : Nat}

/-! ### Specification -/

/-- The deformation gradient at a point of the body displaced by the field with nodal values `U`, as a matrix: the identity plus the gradient of the displacement. -/
noncomputable def gradientOf (p : PtData 3 3 n) (U : List ℝ) : Matrix (Fin 3) (Fin 3) ℝ := 1 + Matrix.of (grad 3 p U)

/-- The force on node `a` in direction `i`: what the residual callback of the program adds at this point. -/
noncomputable def forceAt (model : M3 → M3 × M6) (p : PtData 3 3 n) (U : List ℝ) (a : Fin n) (i : Fin 3) : ℝ :=
  outcome (residual model p U) (((a : Nat) * 3 + (i : Nat) : Nat) : Int)

/-- The entry of the tangent: row node `a` direction `i`, column node `b` direction `j`. -/
noncomputable def stiffAt (model : M3 → M3 × M6) (p : PtData 3 3 n) (U : List ℝ) (a : Fin n) (i : Fin 3) (b : Fin n) (j : Fin 3) : ℝ :=
  outcome (jacobian model p U) ((((a : Nat) * 3 + (i : Nat)) * (n * 3) + ((b : Nat) * 3 + (j : Nat)) : Nat) : Int)

/-- The right Cauchy-Green tensor. -/
def cauchyGreen (F : Matrix (Fin 3) (Fin 3) ℝ) : Matrix (Fin 3) (Fin 3) ℝ := F.transpose * F

/-- The Green strain. -/
noncomputable def greenStrain (F : Matrix (Fin 3) (Fin 3) ℝ) : Matrix (Fin 3) (Fin 3) ℝ := (1/2 : ℝ) • (cauchyGreen F - 1)

/-- Stored energy of a compressible neo-Hookean solid. -/
noncomputable def neoEnergy (lambda mu : ℝ) (F : Matrix (Fin 3) (Fin 3) ℝ) : ℝ :=
  lambda / 4 * (F.det ^ 2 - 1) - (lambda / 2 + mu) * Real.log F.det + mu / 2 * ((cauchyGreen F).trace - 3)

/-- Stored energy of a St. Venant-Kirchhoff solid. -/
noncomputable def stvEnergy (lambda mu : ℝ) (F : Matrix (Fin 3) (Fin 3) ℝ) : ℝ :=
  lambda / 2 * (greenStrain F).trace ^ 2 + mu * (greenStrain F * greenStrain F).trace

/-- Stored energy of a compressible Mooney-Rivlin solid; `J² tr C⁻¹` is the second invariant of `C`. -/
noncomputable def mr1Energy (a b c d : ℝ) (F : Matrix (Fin 3) (Fin 3) ℝ) : ℝ :=
  a * (cauchyGreen F).trace + b / 2 * (F.det ^ 2 * (cauchyGreen F)⁻¹.trace) + c * F.det ^ 2 - d * Real.log F.det

/-- Stored energy `c1 I₁ + c2 I₂ + κ/2 (J - 1)²`. -/
noncomputable def generalEnergy (c1 c2 kappa : ℝ) (F : Matrix (Fin 3) (Fin 3) ℝ) : ℝ :=
  c1 * (cauchyGreen F).trace + c2 * (((cauchyGreen F).trace ^ 2 - (cauchyGreen F * cauchyGreen F).trace) / 2) + kappa / 2 * (F.det - 1) ^ 2

/-- The energy of the material the options choose. -/
noncomputable def energyOf (m : Material) (neohook stvenant mooneyr1 _mooneyr2 : Bool) : Matrix (Fin 3) (Fin 3) ℝ → ℝ :=
  if mooneyr1 then mr1Energy m.a m.b m.c m.d
  else if stvenant then stvEnergy m.lambda m.mu
  else if neohook then neoEnergy m.lambda m.mu
  else generalEnergy m.c1 m.c2 m.kappa

/-! ### Bridges -/

theorem det_mat (F : M3) : (mat F).det = detF F := by
  rw [Matrix.det_fin_three]
  simp only [mat, Matrix.of_apply, detF]
  ring

theorem gradientOf_eq (p : PtData 3 3 n) (U : List ℝ) : gradientOf p U = mat (deformation (grad 3 p U)) := by
  ext i j
  simp only [gradientOf, Matrix.add_apply, Matrix.one_apply, Matrix.of_apply, mat, deformation_eq]

theorem forceAt_eq (model : M3 → M3 × M6) (p : PtData 3 3 n) (U : List ℝ) (a : Fin n) (i : Fin 3) : forceAt model p U a i =
    force (deltaE (p.shape.t1 0 a) (p.shape.t1 1 a) (p.shape.t1 2 a) (deformation (grad 3 p U))) (model (deformation (grad 3 p U))).1 i :=
  fillVec_at (dof := 3) (fun a i => force (deltaE (p.shape.t1 0 a) (p.shape.t1 1 a) (p.shape.t1 2 a) (deformation (grad 3 p U)))
    (model (deformation (grad 3 p U))).1 i) (fun _ => 0) a i

theorem stiffAt_eq (model : M3 → M3 × M6) (p : PtData 3 3 n) (U : List ℝ) (a : Fin n) (i : Fin 3) (b : Fin n) (j : Fin 3) : stiffAt model p U a i b j =
    (if i = j then geometric (fun k => p.shape.t1 k a) (fun k => p.shape.t1 k b) (model (deformation (grad 3 p U))).1 else 0) +
      chi (deltaE (p.shape.t1 0 a) (p.shape.t1 1 a) (p.shape.t1 2 a) (deformation (grad 3 p U)))
        (deltaE (p.shape.t1 0 b) (p.shape.t1 1 b) (p.shape.t1 2 b) (deformation (grad 3 p U))) (model (deformation (grad 3 p U))).2 i j := by
  have h := fillMat_at (n := n) (dof := 3) (fun a i b j =>
    let Ba := deltaE (p.shape.t1 0 a) (p.shape.t1 1 a) (p.shape.t1 2 a) (deformation (grad 3 p U))
    let Bb := deltaE (p.shape.t1 0 b) (p.shape.t1 1 b) (p.shape.t1 2 b) (deformation (grad 3 p U))
    if i = j then geometric (fun k => p.shape.t1 k a) (fun k => p.shape.t1 k b) (model (deformation (grad 3 p U))).1 + chi Ba Bb (model (deformation (grad 3 p U))).2 i j
      else chi Ba Bb (model (deformation (grad 3 p U))).2 i j) (fun _ => 0) a i b j
  have e : ((a : Nat) * 3 + (i : Nat)) * (n * 3) + ((b : Nat) * 3 + (j : Nat)) = at2 3 a i b j := (at2_eq a i b j).symm
  unfold stiffAt
  rw [e]
  refine (Eq.trans rfl h : _ = _).trans ?_
  by_cases hij : i = j <;> simp [hij]

theorem force_eq (N : Fin 3 → ℝ) (F S : M3) (hS : ∀ i j, S i j = S j i) (i : Fin 3) :
    force (deltaE (N 0) (N 1) (N 2) F) S i = ∑ j, ∑ k, F i j * S j k * N k := by
  have s10 := hS 1 0
  have s20 := hS 2 0
  have s21 := hS 2 1
  simp only [Fin.sum_univ_three]
  unfold force deltaE
  revert i
  refine three ?_ ?_ ?_
  all_goals
    simp only [Matrix.cons_val, s10, s20, s21]
    ring

/-! ### The models -/

theorem chosen_consistent (m : Material) (neohook stvenant mooneyr1 mooneyr2 : Bool) (F : M3) (hF : detF F ≠ 0) :
    Consistent (chosen m neohook stvenant mooneyr1 mooneyr2) F := by
  cases mooneyr1
  · cases stvenant
    · cases neohook
      · exact gen_consistent _ _ _ F hF
      · exact neo_consistent _ _ F hF
    · exact stv_consistent _ _ F hF
  · exact mr1_consistent _ _ _ _ F hF

theorem sym_symm (D : M6) (i j : Fin 6) : sym D i j = sym D j i := by
  unfold sym
  rcases lt_trichotomy i j with h | h | h
  · rw [if_pos h.le, if_neg (not_le.2 h)]
  · rw [h]
  · rw [if_neg (not_le.2 h), if_pos h.le]

theorem three_sym {S : M3} (h10 : S 1 0 = S 0 1) (h20 : S 2 0 = S 0 2) (h21 : S 2 1 = S 1 2) : ∀ i j, S i j = S j i := by
  refine three (three rfl h10.symm h20.symm) (three h10 rfl h21.symm) (three h20 h21 rfl)

theorem chosen_symm (m : Material) (neohook stvenant mooneyr1 mooneyr2 : Bool) (F : M3) :
    (∀ i j, (chosen m neohook stvenant mooneyr1 mooneyr2 F).1 i j = (chosen m neohook stvenant mooneyr1 mooneyr2 F).1 j i) ∧
    ∀ i j, (chosen m neohook stvenant mooneyr1 mooneyr2 F).2 i j = (chosen m neohook stvenant mooneyr1 mooneyr2 F).2 j i := by
  have a10 := invC_symm (invF F) 1 0
  have a20 := invC_symm (invF F) 2 0
  have a21 := invC_symm (invF F) 2 1
  have c10 := rightC_symm F 1 0
  have c20 := rightC_symm F 2 0
  have c21 := rightC_symm F 2 1
  cases mooneyr1
  · cases stvenant
    · cases neohook
      · refine ⟨?_, ?_⟩
        · show ∀ i j, (general m.c1 m.c2 m.kappa F).1 i j = (general m.c1 m.c2 m.kappa F).1 j i
          rw [general_eq]
          unfold genS
          exact three_sym (by simp) (by simp) (by simp)
        · exact sym_symm _
      · refine ⟨?_, sym_symm _⟩
        show ∀ i j, neoS m.lambda m.mu (detF F) (invC (invF F)) i j = neoS m.lambda m.mu (detF F) (invC (invF F)) j i
        unfold neoS
        exact three_sym (by simp [a10]) (by simp [a20]) (by simp [a21])
    · refine ⟨?_, sym_symm _⟩
      show ∀ i j, stvS m.lambda m.mu (rightC F) i j = stvS m.lambda m.mu (rightC F) j i
      unfold stvS
      exact three_sym (by simp [c10]) (by simp [c20]) (by simp [c21])
  · refine ⟨?_, sym_symm _⟩
    show ∀ i j, mr1S m.a m.b m.c m.d (detF F) (invC (invF F)) (squareC (invC (invF F))) i j = mr1S m.a m.b m.c m.d (detF F) (invC (invF F)) (squareC (invC (invF F))) j i
    unfold mr1S squareC
    refine three_sym ?_ ?_ ?_
    all_goals
      simp only [Matrix.cons_val, a10, a20, a21]
      ring

/-! ### The tangent -/

/-- **C105**: for every choice of the options and every material, the tangent at a point is the derivative of the residual, at every displacement whose deformation gradient
is regular there. -/
theorem C105_tangent (m : Material) (neohook stvenant mooneyr1 mooneyr2 : Bool) (p : PtData 3 3 n) (U W : List ℝ) (hU : U.length = n * 3) (hW : W.length = n * 3)
    (hF : (gradientOf p U).det ≠ 0) (i : Nat) (hi : i < n * 3) :
    HasDerivAt (fun s => outcome (residual (chosen m neohook stvenant mooneyr1 mooneyr2) p (axpy U s W)) i)
      (rowTimes (n * 3) (outcome (jacobian (chosen m neohook stvenant mooneyr1 mooneyr2) p U)) i W) 0 :=
  consistent_jacobian _ p U W hU hW (chosen_consistent m _ _ _ _ _ (by rw [← det_mat, ← gradientOf_eq]; exact hF)) i hi

/-- **C105**: the Newton matrix of the program is the derivative of its residual, on any number of processes, at every displacement whose deformation gradient is regular at
the quadrature points. -/
theorem C105_tangent_assembled {K : Type} [Field K] [LinearOrder K] [IsStrictOrderedRing K] (axes axs : List (Axis K)) (m : Material)
    (neohook stvenant mooneyr1 mooneyr2 : Bool) (elt : List Int → Elt ℝ (PtData 3 3 (nodes axs))) (hE : Elements axs 3 elt) :
    NewtonF axes axs 3 elt (residual (chosen m neohook stvenant mooneyr1 mooneyr2)) (jacobian (chosen m neohook stvenant mooneyr1 mooneyr2))
      (fun p U => (gradientOf p U).det ≠ 0) :=
  C78_function_at axes axs 3 elt hE _ _ (fun p U => outcome (residual (chosen m neohook stvenant mooneyr1 mooneyr2) p U))
    (fun p U => outcome (jacobian (chosen m neohook stvenant mooneyr1 mooneyr2) p U))
    (fun U => fills_vec (dof := 3) _ _ fun p A => rfl) (fun U => fills_mat (dof := 3) _ _ fun p A => rfl)
    (fun p U => (gradientOf p U).det ≠ 0) fun p U W hg hU hW i hi => C105_tangent m _ _ _ _ p U W hU hW hg i hi

/-- **C105**: the tangent is symmetric, at every displacement. -/
theorem C105_symmetric (m : Material) (neohook stvenant mooneyr1 mooneyr2 : Bool) (p : PtData 3 3 n) (U : List ℝ) (a : Fin n) (i : Fin 3) (b : Fin n) (j : Fin 3) :
    stiffAt (chosen m neohook stvenant mooneyr1 mooneyr2) p U a i b j = stiffAt (chosen m neohook stvenant mooneyr1 mooneyr2) p U b j a i := by
  rw [stiffAt_eq, stiffAt_eq]
  obtain ⟨hS, hD⟩ := chosen_symm m neohook stvenant mooneyr1 mooneyr2 (deformation (grad 3 p U))
  generalize (chosen m neohook stvenant mooneyr1 mooneyr2 (deformation (grad 3 p U))).1 = S at *
  generalize (chosen m neohook stvenant mooneyr1 mooneyr2 (deformation (grad 3 p U))).2 = D at *
  have hc : ∀ (A B : Fin 6 → Fin 3 → ℝ), chi A B D i j = chi B A D j i := by
    intro A B
    have : ∀ (A B : Fin 6 → Fin 3 → ℝ) i j, chi A B D i j = ∑ k, ∑ l, B k j * A l i * D l k := by
      intro A B i j
      simp only [chi, Fin.sum_univ_six]
      ring
    rw [this, this, Finset.sum_comm]
    refine Finset.sum_congr rfl fun k _ => Finset.sum_congr rfl fun l _ => ?_
    rw [hD k l]; ring
  rw [hc]
  congr 1
  by_cases h : i = j
  · rw [if_pos h, if_pos h.symm]
    simp only [geometric, hS 1 0, hS 2 0, hS 2 1]
    ring
  · rw [if_neg h, if_neg (Ne.symm h)]

/-! ### Objectivity -/

theorem rotate_detF (Q : Matrix (Fin 3) (Fin 3) ℝ) (hd : Q.det = 1) (F G : M3) (h : mat G = Q * mat F) : detF G = detF F := by
  rw [← det_mat, ← det_mat, h, Matrix.det_mul, hd, one_mul]

theorem rotate_rightC (Q : Matrix (Fin 3) (Fin 3) ℝ) (hQ : Q.transpose * Q = 1) (F G : M3) (h : mat G = Q * mat F) : rightC G = rightC F := by
  have : mat (rightC G) = mat (rightC F) := by
    rw [rightC_eq, rightC_eq, h, Matrix.transpose_mul, Matrix.mul_assoc, ← Matrix.mul_assoc Q.transpose, hQ, Matrix.one_mul]
  exact this

theorem rotate_invC (Q : Matrix (Fin 3) (Fin 3) ℝ) (hQ : Q.transpose * Q = 1) (hd : Q.det = 1) (F G : M3) (hF : detF F ≠ 0) (h : mat G = Q * mat F) :
    invC (invF G) = invC (invF F) := by
  have hG : detF G ≠ 0 := by rw [rotate_detF Q hd F G h]; exact hF
  have e : mat (invF G) = mat (invF F) * Q.transpose := by
    rw [invF_eq G hG, h]
    apply Matrix.inv_eq_right_inv
    rw [Matrix.mul_assoc, ← Matrix.mul_assoc (mat F), mul_invF F hF, Matrix.one_mul]
    exact mul_eq_one_comm.1 hQ
  have : mat (invC (invF G)) = mat (invC (invF F)) := by
    rw [invC_eq, invC_eq, e, Matrix.transpose_mul, Matrix.transpose_transpose, Matrix.mul_assoc, ← Matrix.mul_assoc Q.transpose, hQ, Matrix.one_mul]
  exact this

theorem chosen_rotate (m : Material) (neohook stvenant mooneyr1 mooneyr2 : Bool) (Q : Matrix (Fin 3) (Fin 3) ℝ) (hQ : Q.transpose * Q = 1) (hd : Q.det = 1)
    (F G : M3) (hF : detF F ≠ 0) (h : mat G = Q * mat F) : chosen m neohook stvenant mooneyr1 mooneyr2 G = chosen m neohook stvenant mooneyr1 mooneyr2 F := by
  have e1 := rotate_detF Q hd F G h
  have e2 := rotate_rightC Q hQ F G h
  have e3 := rotate_invC Q hQ hd F G hF h
  cases mooneyr1
  · cases stvenant
    · cases neohook
      · show general _ _ _ G = general _ _ _ F
        rw [general_eq, general_eq, e1, e2, e3]
      · show (neoS _ _ _ _, neoD _ _ _ _) = (neoS _ _ _ _, neoD _ _ _ _)
        rw [e1, e3]
    · show (stvS _ _ _, stvD _ _) = (stvS _ _ _, stvD _ _)
      rw [e2]
  · show (mr1S _ _ _ _ _ _ _, mr1D _ _ _ _ _ _) = (mr1S _ _ _ _ _ _ _, mr1D _ _ _ _ _ _)
    rw [e1, e3]

/-- **C105**: when the body is rotated rigidly on top of a deformation, the nodal forces rotate with it. -/
theorem C105_objective (m : Material) (neohook stvenant mooneyr1 mooneyr2 : Bool) (p : PtData 3 3 n) (U V : List ℝ) (Q : Matrix (Fin 3) (Fin 3) ℝ)
    (hQ : Q.transpose * Q = 1) (hd : Q.det = 1) (hF : (gradientOf p U).det ≠ 0) (hV : gradientOf p V = Q * gradientOf p U) (a : Fin n) (i : Fin 3) :
    forceAt (chosen m neohook stvenant mooneyr1 mooneyr2) p V a i = ∑ k, Q i k * forceAt (chosen m neohook stvenant mooneyr1 mooneyr2) p U a k := by
  simp only [forceAt_eq]
  rw [gradientOf_eq] at hF hV
  rw [gradientOf_eq] at hV
  rw [det_mat] at hF
  have hr := chosen_rotate m neohook stvenant mooneyr1 mooneyr2 Q hQ hd _ _ hF hV
  have hs := (chosen_symm m neohook stvenant mooneyr1 mooneyr2 (deformation (grad 3 p U))).1
  rw [hr]
  generalize deformation (grad 3 p U) = F at *
  generalize deformation (grad 3 p V) = G at *
  generalize (chosen m neohook stvenant mooneyr1 mooneyr2 F).1 = S at *
  have e : ∀ i j, G i j = ∑ k, Q i k * F k j := by
    intro i j
    have := congrFun (congrFun hV i) j
    rw [Matrix.mul_apply] at this
    exact this
  have hf : ∀ i, force (deltaE (p.shape.t1 0 a) (p.shape.t1 1 a) (p.shape.t1 2 a) F) S i = ∑ j, ∑ k, F i j * S j k * p.shape.t1 k a :=
    force_eq (fun k => p.shape.t1 k a) F S hs
  have hg : ∀ i, force (deltaE (p.shape.t1 0 a) (p.shape.t1 1 a) (p.shape.t1 2 a) G) S i = ∑ j, ∑ k, G i j * S j k * p.shape.t1 k a :=
    force_eq (fun k => p.shape.t1 k a) G S hs
  rw [hg]
  simp only [hf, e, Fin.sum_univ_three]
  ring

/-! ### The rest state -/

/-- The material coefficients for which the undeformed body is free of stress. -/
theorem rest_stress (E nu : ℝ) (neohook stvenant mooneyr1 mooneyr2 : Bool) (hopt : neohook = true ∨ stvenant = true ∨ mooneyr1 = true) (F : M3)
    (hF : ∀ i j, F i j = if i = j then 1 else 0) : (chosen (coefficients E nu) neohook stvenant mooneyr1 mooneyr2 F).1 = fun _ _ => 0 := by
  have hm : mat F = 1 := by ext i j; simp [mat, hF, Matrix.one_apply]
  have hd : detF F = 1 := by rw [← det_mat, hm, Matrix.det_one]
  have hinv : mat (invF F) = 1 := by rw [invF_eq F (by rw [hd]; exact one_ne_zero), hm, inv_one]
  have hC : ∀ i j, invC (invF F) i j = if i = j then 1 else 0 := by
    intro i j
    have : mat (invC (invF F)) = 1 := by rw [invC_eq, hinv, Matrix.transpose_one, Matrix.one_mul]
    have := congrFun (congrFun this i) j
    rw [Matrix.one_apply] at this
    exact this
  have hR : ∀ i j, rightC F i j = if i = j then 1 else 0 := by
    intro i j
    have : mat (rightC F) = 1 := by rw [rightC_eq, hm, Matrix.transpose_one, Matrix.one_mul]
    have := congrFun (congrFun this i) j
    rw [Matrix.one_apply] at this
    exact this
  funext i j
  cases mooneyr1
  · cases stvenant
    · cases neohook
      · simp at hopt
      · show neoS _ _ (detF F) (invC (invF F)) i j = 0
        rw [hd]
        unfold neoS
        revert i j
        refine three (three ?_ ?_ ?_) (three ?_ ?_ ?_) (three ?_ ?_ ?_)
        all_goals simp [hC]
    · show stvS _ _ (rightC F) i j = 0
      unfold stvS
      revert i j
      refine three (three ?_ ?_ ?_) (three ?_ ?_ ?_) (three ?_ ?_ ?_)
      all_goals
        simp [hR]
        try norm_num
  · show mr1S _ _ _ _ (detF F) (invC (invF F)) (squareC (invC (invF F))) i j = 0
    rw [hd]
    unfold mr1S squareC
    revert i j
    refine three (three ?_ ?_ ?_) (three ?_ ?_ ?_) (three ?_ ?_ ?_)
    all_goals
      simp [hC, coefficients]
      try ring

/-- **C105**: with `-neohook`, `-stvenant` or `-mooneyr1` a body that is moved and rotated rigidly feels no force, for all values of Young's modulus and Poisson's ratio. -/
theorem C105_rigid_partial (E nu : ℝ) (neohook stvenant mooneyr1 mooneyr2 : Bool) (hopt : neohook = true ∨ stvenant = true ∨ mooneyr1 = true)
    (p : PtData 3 3 n) (V : List ℝ) (Q : Matrix (Fin 3) (Fin 3) ℝ) (hQ : Q.transpose * Q = 1) (hd : Q.det = 1) (hV : gradientOf p V = Q) (a : Fin n) (i : Fin 3) :
    forceAt (chosen (coefficients E nu) neohook stvenant mooneyr1 mooneyr2) p V a i = 0 := by
  rw [forceAt_eq]
  rw [gradientOf_eq] at hV
  obtain ⟨F, hF⟩ : ∃ F : M3, F = fun i j => if i = j then 1 else 0 := ⟨_, rfl⟩
  have hm : mat F = 1 := by ext i j; simp [mat, hF, Matrix.one_apply]
  have h1 : detF F ≠ 0 := by rw [← det_mat, hm, Matrix.det_one]; exact one_ne_zero
  rw [chosen_rotate _ _ _ _ _ Q hQ hd F _ h1 (by rw [hV, hm, Matrix.mul_one]), rest_stress E nu _ _ _ _ hopt F (fun i j => by rw [hF])]
  unfold force
  revert i
  refine three ?_ ?_ ?_
  all_goals simp

/-! ### Stored energy -/

theorem trace_C (F : M3) : (cauchyGreen (mat F)).trace = rightC F 0 0 + rightC F 1 1 + rightC F 2 2 := by
  rw [cauchyGreen, ← rightC_eq]
  simp [Matrix.trace, Fin.sum_univ_three]

theorem trace_CC (F : M3) : (cauchyGreen (mat F) * cauchyGreen (mat F)).trace = ∑ i, ∑ j, rightC F i j * rightC F j i := by
  rw [cauchyGreen, ← rightC_eq]
  simp [Matrix.trace, Matrix.mul_apply]

theorem trace_invC (F : M3) (hF : detF F ≠ 0) : (cauchyGreen (mat F))⁻¹.trace = invC (invF F) 0 0 + invC (invF F) 1 1 + invC (invF F) 2 2 := by
  have : (cauchyGreen (mat F))⁻¹ = mat (invC (invF F)) := by
    rw [cauchyGreen, invC_eq]
    apply Matrix.inv_eq_right_inv
    have h1 := mul_invF F hF
    have h2 : (mat F).transpose * (mat (invF F)).transpose = 1 := by
      rw [← Matrix.transpose_mul, mul_eq_one_comm.1 h1, Matrix.transpose_one]
    rw [Matrix.mul_assoc, ← Matrix.mul_assoc (mat F), h1, Matrix.one_mul, h2]
  rw [this]
  simp [Matrix.trace, Fin.sum_univ_three]

/-- The stress power. -/
noncomputable def power (S E : M3) : ℝ := ∑ I, stress6 S I * strain6 E I

theorem neo_energy (lambda mu : ℝ) (F G : M3) (hF : detF F ≠ 0) :
    HasDerivAt (fun s => neoEnergy lambda mu (mat (line F G s))) (power (neoHookean lambda mu F).1 (strainRate F G)) 0 := by
  simp only [neoEnergy, det_mat, trace_C]
  have k := kin F G hF
  have h0 : detF (line F G 0) ≠ 0 := by rw [line_zero]; exact hF
  have hj := k.hj
  have hc := k.hc
  have hl := hj.log h0
  have s10 := invC_symm (invF F) 1 0
  have s20 := invC_symm (invF F) 2 0
  have s21 := invC_symm (invF F) 2 1
  have e10 := k.sE 1 0
  have e20 := k.sE 2 0
  have e21 := k.sE 2 1
  simp only [line_zero, Fin.sum_univ_three] at hj hl
  simp only [pow_two]
  apply HasDerivAt.congr_deriv
  · repeat' first
      | exact hasDerivAt_const _ _
      | exact hj
      | exact hl
      | exact hc _ _
      | apply HasDerivAt.fun_add
      | apply HasDerivAt.fun_sub
      | apply HasDerivAt.fun_mul
      | apply HasDerivAt.fun_neg
  · show _ = ∑ I, stress6 (neoS lambda mu (detF F) (invC (invF F))) I * strain6 (strainRate F G) I
    rw [Fin.sum_univ_six]
    unfold stress6 strain6 neoS
    simp only [Matrix.cons_val, line_zero, s10, s20, s21, e10, e20, e21]
    field_simp
    ring

theorem stv_energy (lambda mu : ℝ) (F G : M3) :
    HasDerivAt (fun s => stvEnergy lambda mu (mat (line F G s))) (power (stVenant lambda mu F).1 (strainRate F G)) 0 := by
  have e : ∀ F : M3, stvEnergy lambda mu (mat F) = lambda / 2 * (1/2 * (rightC F 0 0 + rightC F 1 1 + rightC F 2 2 - 3)) ^ 2 +
      mu / 4 * ((∑ i, ∑ j, rightC F i j * rightC F j i) - 2 * (rightC F 0 0 + rightC F 1 1 + rightC F 2 2) + 3) := by
    intro F
    have h1 : (greenStrain (mat F)).trace = 1/2 * (rightC F 0 0 + rightC F 1 1 + rightC F 2 2 - 3) := by
      rw [greenStrain, Matrix.trace_smul, Matrix.trace_sub, trace_C, Matrix.trace_one]
      simp
    have h2 : (greenStrain (mat F) * greenStrain (mat F)).trace = 1/4 * ((∑ i, ∑ j, rightC F i j * rightC F j i) - 2 * (rightC F 0 0 + rightC F 1 1 + rightC F 2 2) + 3) := by
      rw [← trace_CC, ← trace_C, greenStrain, Matrix.smul_mul, Matrix.mul_smul, Matrix.trace_smul, Matrix.trace_smul, Matrix.sub_mul, Matrix.mul_sub, Matrix.mul_sub,
        Matrix.trace_sub, Matrix.trace_sub, Matrix.trace_sub, Matrix.mul_one, Matrix.one_mul, Matrix.mul_one, Matrix.trace_one]
      simp only [smul_eq_mul, Fintype.card_fin]
      push_cast
      ring
    rw [stvEnergy, h1, h2]
    ring
  simp only [e, Fin.sum_univ_three]
  have hc := rightC_line F G
  have c10 := rightC_symm F 1 0
  have c20 := rightC_symm F 2 0
  have c21 := rightC_symm F 2 1
  have e10 := strainRate_symm F G 1 0
  have e20 := strainRate_symm F G 2 0
  have e21 := strainRate_symm F G 2 1
  simp only [pow_two]
  apply HasDerivAt.congr_deriv
  · repeat' first
      | exact hasDerivAt_const _ _
      | exact hc _ _
      | apply HasDerivAt.fun_add
      | apply HasDerivAt.fun_sub
      | apply HasDerivAt.fun_mul
      | apply HasDerivAt.fun_neg
  · show _ = ∑ I, stress6 (stvS lambda mu (rightC F)) I * strain6 (strainRate F G) I
    rw [Fin.sum_univ_six]
    unfold stress6 strain6 stvS
    simp only [Matrix.cons_val, line_zero, c10, c20, c21, e10, e20, e21]
    ring

theorem mr1_energy (a b c d : ℝ) (F G : M3) (hF : detF F ≠ 0) :
    HasDerivAt (fun s => mr1Energy a b c d (mat (line F G s))) (power (mooneyRivlin1 a b c d F).1 (strainRate F G)) 0 := by
  have h0 : detF (line F G 0) ≠ 0 := by rw [line_zero]; exact hF
  have k := kin F G hF
  have hj := k.hj
  have hc := k.hc
  have ha := k.ha
  have hl := hj.log h0
  have s10 := invC_symm (invF F) 1 0
  have s20 := invC_symm (invF F) 2 0
  have s21 := invC_symm (invF F) 2 1
  have e10 := k.sE 1 0
  have e20 := k.sE 2 0
  have e21 := k.sE 2 1
  simp only [line_zero, Fin.sum_univ_three] at hj hl ha
  have main : HasDerivAt (fun s => a * (rightC (line F G s) 0 0 + rightC (line F G s) 1 1 + rightC (line F G s) 2 2) +
      b / 2 * (detF (line F G s) * detF (line F G s) * (invC (invF (line F G s)) 0 0 + invC (invF (line F G s)) 1 1 + invC (invF (line F G s)) 2 2)) +
      c * (detF (line F G s) * detF (line F G s)) - d * Real.log (detF (line F G s))) (power (mooneyRivlin1 a b c d F).1 (strainRate F G)) 0 := by
    apply HasDerivAt.congr_deriv
    · repeat' first
        | exact hasDerivAt_const _ _
        | exact hj
        | exact hl
        | exact hc _ _
        | exact ha _ _
        | apply HasDerivAt.fun_add
        | apply HasDerivAt.fun_sub
        | apply HasDerivAt.fun_mul
        | apply HasDerivAt.fun_neg
    · show _ = ∑ I, stress6 (mr1S a b c d (detF F) (invC (invF F)) (squareC (invC (invF F)))) I * strain6 (strainRate F G) I
      rw [Fin.sum_univ_six]
      unfold stress6 strain6 mr1S squareC
      simp only [Matrix.cons_val, line_zero, s10, s20, s21, e10, e20, e21]
      field_simp
      ring
  refine main.congr_of_eventuallyEq ?_
  have hev := hj.continuousAt.eventually_ne h0
  filter_upwards [hev] with s hs
  simp only [mr1Energy, det_mat, trace_C, trace_invC _ hs, pow_two]

theorem gen_energy (c1 c2 kappa : ℝ) (F G : M3) (hF : detF F ≠ 0) :
    HasDerivAt (fun s => generalEnergy c1 c2 kappa (mat (line F G s))) (power (general c1 c2 kappa F).1 (strainRate F G)) 0 := by
  simp only [generalEnergy, det_mat, trace_C, trace_CC, Fin.sum_univ_three]
  have k := kin F G hF
  have hj := k.hj
  have hc := k.hc
  have s10 := invC_symm (invF F) 1 0
  have s20 := invC_symm (invF F) 2 0
  have s21 := invC_symm (invF F) 2 1
  have c10 := rightC_symm F 1 0
  have c20 := rightC_symm F 2 0
  have c21 := rightC_symm F 2 1
  have e10 := k.sE 1 0
  have e20 := k.sE 2 0
  have e21 := k.sE 2 1
  simp only [line_zero, Fin.sum_univ_three] at hj
  simp only [pow_two, div_eq_mul_inv _ (2:ℝ)]
  rw [general_eq]
  apply HasDerivAt.congr_deriv
  · repeat' first
      | exact hasDerivAt_const _ _
      | exact hj
      | exact hc _ _
      | apply HasDerivAt.fun_add
      | apply HasDerivAt.fun_sub
      | apply HasDerivAt.fun_mul
      | apply HasDerivAt.fun_neg
  · show _ = ∑ I, stress6 (genS (genShat c1 c2 1 (rightC F)) (genSvol kappa (detF F) (invC (invF F)))) I * strain6 (strainRate F G) I
    rw [Fin.sum_univ_six]
    unfold stress6 strain6 genS genShat genSvol
    simp only [Matrix.cons_val, line_zero, s10, s20, s21, c10, c20, c21, e10, e20, e21]
    ring

theorem chosen_energy (m : Material) (neohook stvenant mooneyr1 mooneyr2 : Bool) (F G : M3) (hF : detF F ≠ 0) :
    HasDerivAt (fun s => energyOf m neohook stvenant mooneyr1 mooneyr2 (mat (line F G s)))
      (power (chosen m neohook stvenant mooneyr1 mooneyr2 F).1 (strainRate F G)) 0 := by
  cases mooneyr1
  · cases stvenant
    · cases neohook
      · exact gen_energy _ _ _ F G hF
      · exact neo_energy _ _ F G hF
    · exact stv_energy _ _ F G
  · exact mr1_energy _ _ _ _ F G hF

/-- **C105**: the nodal forces are the gradient of the stored energy: along every displacement `W` the energy at the point changes by the work of the forces. -/
theorem C105_energy (m : Material) (neohook stvenant mooneyr1 mooneyr2 : Bool) (p : PtData 3 3 n) (U W : List ℝ) (hUW : U.length = W.length)
    (hF : (gradientOf p U).det ≠ 0) :
    HasDerivAt (fun s => energyOf m neohook stvenant mooneyr1 mooneyr2 (gradientOf p (axpy U s W)))
      (∑ a : Fin n, ∑ i : Fin 3, forceAt (chosen m neohook stvenant mooneyr1 mooneyr2) p U a i * W.getD ((a : Nat) * 3 + (i : Nat)) 0) 0 := by
  rw [gradientOf_eq, det_mat] at hF
  simp only [gradientOf_eq, deformation_axpy hUW]
  refine (chosen_energy m _ _ _ _ _ (grad 3 p W) hF).congr_deriv ?_
  have hs := (chosen_symm m neohook stvenant mooneyr1 mooneyr2 (deformation (grad 3 p U))).1
  simp only [forceAt_eq]
  generalize deformation (grad 3 p U) = F at *
  generalize (chosen m neohook stvenant mooneyr1 mooneyr2 F).1 = S at *
  have s10 := hs 1 0
  have s20 := hs 2 0
  have s21 := hs 2 1
  rw [power, Fin.sum_univ_six]
  simp only [stress6, strain6, strainRate, Fin.sum_univ_three, Matrix.cons_val, force, deltaE, grad, Ker.evaluate, Finset.mul_sum, Finset.sum_mul, Finset.sum_div,
    ← Finset.sum_add_distrib]
  refine Finset.sum_congr rfl fun a _ => ?_
  simp only [fld, s10, s20, s21]
  ring

/-- **C105**: the residual of the program is the gradient of the stored energy of the body plus the energy of the boundary data, on any number of processes, at every
displacement whose deformation gradient is regular at the quadrature points. -/
theorem C105_energy_assembled {K : Type} [Field K] [LinearOrder K] [IsStrictOrderedRing K] (axes axs : List (Axis K)) (m : Material)
    (neohook stvenant mooneyr1 mooneyr2 : Bool) (elt : List Int → Elt ℝ (PtData 3 3 (nodes axs))) (hE : Elements axs 3 elt) :
    ∃ f : (List Int → Nat → ℝ) → List Int → Nat → ℝ,
      ∀ {g2 : Guess2} {g3 : Guess3} {size : Int} {procs : List Int} {Ls : List (Layout K)},
        Setup g2 g3 false size procs axes axs Ls →
        (∀ hist pw w vecU junk u, Represents axs Ls 3 vecU u →
          ∃ F, computeFunction Ls hist 3 ⟨elt, pw, w⟩ (residual (chosen m neohook stvenant mooneyr1 mooneyr2)) vecU junk = .ok F ∧ Represents axs Ls 3 F (f u)) ∧
        ∀ u, AtPoints axs elt (fun e p => (gradientOf p (withValues (elt e) (valuesOf false axs 3 u e))).det ≠ 0) →
          ∀ w, HasDerivAt (fun s => totalEnergy axs 3 elt (fun p U => energyOf m neohook stvenant mooneyr1 mooneyr2 (gradientOf p U)) (along u s w))
            ((indices (axs.map Axis.nnp)).map fun z => ((List.range 3).map fun c => f u z c * w z c).sum).sum 0 := by
  refine C106_gradient axes axs 3 elt hE (residual (chosen m neohook stvenant mooneyr1 mooneyr2))
    (fun p U => outcome (residual (chosen m neohook stvenant mooneyr1 mooneyr2) p U))
    (fun U => fills_vec (dof := 3) _ _ fun p A => rfl) (fun p U => energyOf m neohook stvenant mooneyr1 mooneyr2 (gradientOf p U))
    (fun p U => (gradientOf p U).det ≠ 0) fun p U W hg hU hW => ?_
  refine (C105_energy m neohook stvenant mooneyr1 mooneyr2 p U W (hU.trans hW.symm) hg).congr_deriv ?_
  exact (sum_at1 (n := nodes axs) (dof := 3) fun (j : Nat) => outcome (residual (chosen m neohook stvenant mooneyr1 mooneyr2) p U) j * W.getD j 0).symm

/-! ### Small strains -/

theorem rest_kin (F : M3) (hF : ∀ i j, F i j = if i = j then 1 else 0) :
    detF F = 1 ∧ (∀ i j, invC (invF F) i j = if i = j then 1 else 0) ∧ ∀ i j, rightC F i j = if i = j then 1 else 0 := by
  have hm : mat F = 1 := by ext i j; simp [mat, hF, Matrix.one_apply]
  have hd : detF F = 1 := by rw [← det_mat, hm, Matrix.det_one]
  have hinv : mat (invF F) = 1 := by rw [invF_eq F (by rw [hd]; exact one_ne_zero), hm, inv_one]
  refine ⟨hd, fun i j => ?_, fun i j => ?_⟩
  · have : mat (invC (invF F)) = 1 := by rw [invC_eq, hinv, Matrix.transpose_one, Matrix.one_mul]
    have := congrFun (congrFun this i) j
    rw [Matrix.one_apply] at this
    exact this
  · have : mat (rightC F) = 1 := by rw [rightC_eq, hm, Matrix.transpose_one, Matrix.one_mul]
    have := congrFun (congrFun this i) j
    rw [Matrix.one_apply] at this
    exact this

/-- The tangent of linear isotropic elasticity. -/
def hooke (lambda mu : ℝ) : M6 := stvD lambda mu

theorem rest_tangent (E nu : ℝ) (neohook stvenant mooneyr1 mooneyr2 : Bool) (hopt : neohook = true ∨ stvenant = true ∨ mooneyr1 = true) (F : M3)
    (hF : ∀ i j, F i j = if i = j then 1 else 0) :
    (chosen (coefficients E nu) neohook stvenant mooneyr1 mooneyr2 F).2 = hooke (coefficients E nu).lambda (coefficients E nu).mu := by
  obtain ⟨hd, hC, hR⟩ := rest_kin F hF
  have h01 : (0 : Fin 3) ≠ 1 := by decide
  have h02 : (0 : Fin 3) ≠ 2 := by decide
  have h12 : (1 : Fin 3) ≠ 2 := by decide
  funext i j
  cases mooneyr1
  · cases stvenant
    · cases neohook
      · simp at hopt
      · show neoD _ _ (detF F) (invC (invF F)) i j = _
        rw [hd]
        unfold neoD hooke stvD sym
        revert i j
        refine six (six ?_ ?_ ?_ ?_ ?_ ?_) (six ?_ ?_ ?_ ?_ ?_ ?_) (six ?_ ?_ ?_ ?_ ?_ ?_) (six ?_ ?_ ?_ ?_ ?_ ?_) (six ?_ ?_ ?_ ?_ ?_ ?_) (six ?_ ?_ ?_ ?_ ?_ ?_)
        all_goals
          simp only [Matrix.cons_val, reduceIte, Fin.reduceLE, Fin.isValue, hC, h01, h02, h12, Ne.symm h01, Ne.symm h02, Ne.symm h12]
          try ring
    · rfl
  · show mr1D _ _ _ (detF F) (invC (invF F)) (squareC (invC (invF F))) i j = _
    rw [hd]
    unfold mr1D squareC hooke stvD sym
    revert i j
    refine six (six ?_ ?_ ?_ ?_ ?_ ?_) (six ?_ ?_ ?_ ?_ ?_ ?_) (six ?_ ?_ ?_ ?_ ?_ ?_) (six ?_ ?_ ?_ ?_ ?_ ?_) (six ?_ ?_ ?_ ?_ ?_ ?_) (six ?_ ?_ ?_ ?_ ?_ ?_)
    all_goals
      simp only [Matrix.cons_val, reduceIte, Fin.reduceLE, Fin.isValue, hC, h01, h02, h12, Ne.symm h01, Ne.symm h02, Ne.symm h12, coefficients]
      try ring

/-- **C105**: linearised about the undeformed body, `-neohook`, `-stvenant` and `-mooneyr1` are linear isotropic elasticity with the given Young's modulus and Poisson's
ratio. -/
theorem C105_small_strain_partial (E nu : ℝ) (neohook stvenant mooneyr1 mooneyr2 : Bool) (hopt : neohook = true ∨ stvenant = true ∨ mooneyr1 = true)
    (p : PtData 3 3 n) (U : List ℝ) (hU : gradientOf p U = 1) (a : Fin n) (i : Fin 3) (b : Fin n) (j : Fin 3) :
    stiffAt (chosen (coefficients E nu) neohook stvenant mooneyr1 mooneyr2) p U a i b j =
      E * nu / ((1 + nu) * (1 - 2 * nu)) * (p.shape.t1 i a * p.shape.t1 j b) +
      E / (2 * (1 + nu)) * (p.shape.t1 j a * p.shape.t1 i b + if i = j then ∑ k, p.shape.t1 k a * p.shape.t1 k b else 0) := by
  rw [gradientOf_eq] at hU
  have hF : ∀ i j, deformation (grad 3 p U) i j = if i = j then 1 else 0 := by
    intro i j
    have := congrFun (congrFun hU i) j
    rw [Matrix.one_apply] at this
    exact this
  rw [stiffAt_eq, rest_tangent E nu _ _ _ _ hopt _ hF, rest_stress E nu _ _ _ _ hopt _ hF]
  have e1 : E * nu / ((1 + nu) * (1 - 2 * nu)) = (coefficients E nu).lambda := by
    show _ = E * nu / (1 + nu) / (1 - 2 * nu)
    rw [div_div]
  have e2 : E / (2 * (1 + nu)) = (coefficients E nu).mu := by
    show _ = (1/2) * E / (1 + nu)
    rw [mul_comm (1/2 : ℝ), mul_one_div, div_div]
  rw [e1, e2]
  generalize (coefficients E nu).lambda = l
  generalize (coefficients E nu).mu = m
  have g0 : geometric (fun k => p.shape.t1 k a) (fun k => p.shape.t1 k b) (fun _ _ => 0) = 0 := by simp [geometric]
  rw [g0, ite_self, zero_add]
  generalize deformation (grad 3 p U) = F at *
  unfold chi deltaE hooke stvD sym
  have h01 : (0 : Fin 3) ≠ 1 := by decide
  have h02 : (0 : Fin 3) ≠ 2 := by decide
  have h12 : (1 : Fin 3) ≠ 2 := by decide
  simp only [Fin.sum_univ_three]
  revert i j
  refine three (three ?_ ?_ ?_) (three ?_ ?_ ?_) (three ?_ ?_ ?_)
  all_goals
    simp only [Matrix.cons_val, reduceIte, Fin.reduceLE, Fin.isValue, hF, h01, h02, h12, Ne.symm h01, Ne.symm h02, Ne.symm h12]
    ring

/-! ### What fails -/

/-- The default model: in C `1/3` is 0, so nothing is projected, and the stress is a multiple of the identity. -/
theorem default_stress (E nu : ℝ) (mooneyr2 : Bool) (F : M3) (i j : Fin 3) :
    (chosen (coefficients E nu) false false false mooneyr2 F).1 i j = if i = j then (coefficients E nu).mu else 0 := by
  show (general (coefficients E nu).c1 (coefficients E nu).c2 (coefficients E nu).kappa F).1 i j = _
  rw [general_eq]
  have h01 : (0 : Fin 3) ≠ 1 := by decide
  have h02 : (0 : Fin 3) ≠ 2 := by decide
  have h12 : (1 : Fin 3) ≠ 2 := by decide
  unfold genS genShat genSvol
  revert i j
  refine three (three ?_ ?_ ?_) (three ?_ ?_ ?_) (three ?_ ?_ ?_)
  all_goals
    simp only [Matrix.cons_val, reduceIte, Fin.isValue, h01, h02, h12, Ne.symm h01, Ne.symm h02, Ne.symm h12, coefficients]
    ring

/-- **C105, refuted for the default model**: without options (or with `-mooneyr2`) the undeformed body is under stress, for every material of positive stiffness: there are
nodal forces at zero displacement. -/
theorem C105_rigid_refuted (E nu : ℝ) (mooneyr2 : Bool) (hE : 0 < E) (hnu : -1 < nu) (p : PtData 3 3 n) (U : List ℝ) (hU : gradientOf p U = 1) (a : Fin n) (i : Fin 3)
    (ha : p.shape.t1 i a ≠ 0) : forceAt (chosen (coefficients E nu) false false false mooneyr2) p U a i ≠ 0 := by
  rw [forceAt_eq]
  rw [gradientOf_eq] at hU
  have hF : ∀ i j, deformation (grad 3 p U) i j = if i = j then 1 else 0 := by
    intro i j
    have := congrFun (congrFun hU i) j
    rw [Matrix.one_apply] at this
    exact this
  have hmu : (coefficients E nu).mu ≠ 0 := by
    show (1/2) * E / (1 + nu) ≠ 0
    have : 0 < 1 + nu := by linarith
    positivity
  have hs := (chosen_symm (coefficients E nu) false false false mooneyr2 (deformation (grad 3 p U))).1
  have hf := force_eq (fun k => p.shape.t1 k a) (deformation (grad 3 p U)) _ hs i
  have e : force (deltaE (p.shape.t1 0 a) (p.shape.t1 1 a) (p.shape.t1 2 a) (deformation (grad 3 p U)))
      (chosen (coefficients E nu) false false false mooneyr2 (deformation (grad 3 p U))).1 i = (coefficients E nu).mu * p.shape.t1 i a := by
    refine hf.trans ?_
    simp [hF, default_stress]
  rw [e]
  exact mul_ne_zero hmu ha

/-- The option `-mooneyr2` has no effect on the model: `main` asks for it but never selects `MooneyRivlinModel2`. -/
theorem C105_mooneyr2_ignored_refuted (m : Material) (neohook stvenant mooneyr1 : Bool) :
    chosen m neohook stvenant mooneyr1 true = chosen m neohook stvenant mooneyr1 false := rfl

/-- `MooneyRivlinModel2` with `c1 = 1`, `c2 = kappa = 0`: the stress does not depend on the deformation. -/
theorem mr2_stress (F : M3) (i j : Fin 3) : (mooneyRivlin2 1 0 0 F).1 i j = if i = j then 2 else 0 := by
  have h01 : (0 : Fin 3) ≠ 1 := by decide
  have h02 : (0 : Fin 3) ≠ 2 := by decide
  have h12 : (1 : Fin 3) ≠ 2 := by decide
  show mr2S 0 (detF F) (mr2Siso 1 0 _ (cpow (detF F) (-2) 3) _ (rightC F) (invC (invF F))) (invC (invF F)) i j = _
  rw [cpow_zero]
  unfold mr2S mr2Siso
  revert i j
  refine three (three ?_ ?_ ?_) (three ?_ ?_ ?_) (three ?_ ?_ ?_)
  all_goals
    simp only [Matrix.cons_val, reduceIte, Fin.isValue, h01, h02, h12, Ne.symm h01, Ne.symm h02, Ne.symm h12, cdiv_13]
    ring

theorem mr2_tangent (F : M3) (hF : ∀ i j, F i j = if i = j then 1 else 0) (I J : Fin 6) (hI : I = 0 ∨ I = 3 ∨ I = 5) (hJ : J = 0 ∨ J = 3 ∨ J = 5) :
    (mooneyRivlin2 1 0 0 F).2 I J = if I = J then (if I = 0 then 3 else 3/2) else 0 := by
  obtain ⟨hd, hC, hR⟩ := rest_kin F hF
  show sym (fun i j => mr2Diso 0 (mr2Scalars 1 0 (detF F) (rightC F)).1 _ (cpow (detF F) (-2) 3) _ (rightC F) (invC (invF F)) _ i j + mr2Dvol 0 (detF F) (invC (invF F)) i j) I J = _
  have h1 : cdiv (-2) 3 = 0 := by simp [cdiv]
  have h2 : cdiv 4 3 = 1 := by simp [cdiv]
  have h3 : cdiv 2 9 = 0 := by simp [cdiv]
  rcases hI with rfl | rfl | rfl <;> rcases hJ with rfl | rfl | rfl
  all_goals
    simp [sym, mr2Diso, mr2Dvol, mr2Scalars, cpow_zero, hC, hR, h1, h2, h3, cdiv_13]
    try norm_num

/-- The stress of `MooneyRivlinModel2` with the tangent 0. -/
noncomputable def mr2Fixed (F : M3) : M3 × M6 := ((mooneyRivlin2 1 0 0 F).1, fun _ _ => 0)

theorem mr2Fixed_consistent (F : M3) : Consistent mr2Fixed F := by
  refine ⟨fun i j => ?_, fun G I => ?_⟩
  · simp only [mr2Fixed, mr2_stress, eq_comm]
  · have e : ∀ s, stress6 (mr2Fixed (line F G s)).1 I = stress6 (fun i j => if i = j then 2 else 0) I := by
      intro s
      congr 1
      funext i j
      exact mr2_stress _ i j
    simp only [e]
    simpa [mr2Fixed] using hasDerivAt_const (0 : ℝ) (stress6 (fun i j => if i = j then (2 : ℝ) else 0) I)

/-- **C105, refuted for `MooneyRivlinModel2`**: the tangent it computes is not the derivative of the residual, because `4/3` is 1 and `2/3` is 0 in C. -/
theorem C105_tangent_refuted : ∃ (p : PtData 3 3 3) (U W : List ℝ) (c1 c2 kappa : ℝ) (i : Nat), U.length = 3 * 3 ∧ W.length = 3 * 3 ∧ (gradientOf p U).det ≠ 0 ∧ i < 3 * 3 ∧
    ¬ HasDerivAt (fun s => outcome (residual (mooneyRivlin2 c1 c2 kappa) p (axpy U s W)) i) (rowTimes (3 * 3) (outcome (jacobian (mooneyRivlin2 c1 c2 kappa) p U)) i W) 0 := by
  obtain ⟨U, hU⟩ : ∃ U : List ℝ, U = [0, 0, 0, 0, 0, 0, 0, 0, 0] := ⟨_, rfl⟩
  obtain ⟨W, hW⟩ : ∃ W : List ℝ, W = [1, 0, 0, 0, 0, 0, 0, 0, 0] := ⟨_, rfl⟩
  have hU' : U.length = 3 * 3 := by rw [hU]; rfl
  have hW' : W.length = 3 * 3 := by rw [hW]; rfl
  have hg : ∀ i j, grad 3 (exPoint 3) U i j = 0 := by
    refine three (three ?_ ?_ ?_) (three ?_ ?_ ?_) (three ?_ ?_ ?_)
    all_goals simp [grad, Ker.evaluate, fld, hU, Fin.sum_univ_three]
  have hF : ∀ i j, deformation (grad 3 (exPoint 3) U) i j = if i = j then 1 else 0 := fun i j => by rw [deformation_eq, hg, add_zero]
  refine ⟨exPoint 3, U, W, 1, 0, 0, 0, hU', hW', ?_, by decide, fun h => ?_⟩
  · rw [gradientOf_eq, det_mat, (rest_kin _ hF).1]; exact one_ne_zero
  · have h2 := consistent_jacobian mr2Fixed (exPoint 3) U W hU' hW' (mr2Fixed_consistent _) 0 (by decide)
    have hu := HasDerivAt.unique h h2
    have r : ∀ model : M3 → M3 × M6, rowTimes (3 * 3) (outcome (jacobian model (exPoint 3) U)) 0 W = stiffAt model (exPoint 3) U 0 0 0 0 := by
      intro model
      rw [hW]
      simp [rowTimes, List.range_succ, stiffAt]
    rw [r, r, stiffAt_eq, stiffAt_eq] at hu
    have hu := add_left_cancel hu
    have hD := mr2_tangent _ hF
    have ht : ∀ k, (exPoint 3).shape.t1 k 0 = -1 := fun k => rfl
    simp only [ht] at hu
    generalize deformation (grad 3 (exPoint 3) U) = F at *
    simp [chi, mr2Fixed, deltaE, hF, hD] at hu
    norm_num at hu

/-! ### The hypotheses can be met -/

/-- A displacement of the example point that shears and stretches: gradient `-W₀ + W₂` in every direction. -/
theorem exPoint_gradient : gradientOf (exPoint 3) [0, 0, 0, 0, 0, 0, 1, 0, 0] = !![2, 1, 1; 0, 1, 0; 0, 0, 1] := by
  ext i j
  revert i j
  refine three (three ?_ ?_ ?_) (three ?_ ?_ ?_) (three ?_ ?_ ?_)
  all_goals
    simp [gradientOf, grad, Ker.evaluate, fld, exPoint, Fin.sum_univ_three]
    try norm_num

theorem exPoint_regular : (gradientOf (exPoint 3) [0, 0, 0, 0, 0, 0, 1, 0, 0]).det = 2 := by
  rw [exPoint_gradient, Matrix.det_fin_three]
  simp

/-- `C105_tangent`, with a stretched body. -/
example (i : Nat) (hi : i < 3 * 3) (W : List ℝ) (hW : W.length = 3 * 3) :
    HasDerivAt (fun s => outcome (residual (chosen (coefficients 1 (1/4)) true false false false) (exPoint 3) (axpy [0, 0, 0, 0, 0, 0, 1, 0, 0] s W)) i)
      (rowTimes (3 * 3) (outcome (jacobian (chosen (coefficients 1 (1/4)) true false false false) (exPoint 3) [0, 0, 0, 0, 0, 0, 1, 0, 0])) i W) 0 :=
  C105_tangent _ _ _ _ _ _ _ W rfl hW (by rw [exPoint_regular]; norm_num) i hi

/-- The force there is not zero. -/
example : forceAt (chosen ⟨1, 1, 0, 0, 0, 0, 0, 0, 0⟩ false true false false) (exPoint 3) [0, 0, 0, 0, 0, 0, 1, 0, 0] 2 0 ≠ 0 := by
  rw [forceAt_eq]
  have h : deformation (grad 3 (exPoint 3) [0, 0, 0, 0, 0, 0, 1, 0, 0]) = ![![2, 1, 1], ![0, 1, 0], ![0, 0, 1]] := by
    have := (gradientOf_eq (exPoint 3) [0, 0, 0, 0, 0, 0, 1, 0, 0]).symm.trans exPoint_gradient
    exact this
  rw [h]
  simp [chosen, stVenant, stvS, rightC, force, deltaE, exPoint]
  norm_num

/-- `C105_energy` there. -/
example (W : List ℝ) (hW : W.length = 9) (m : Material) : HasDerivAt (fun s => energyOf m true false false false (gradientOf (exPoint 3) (axpy [0, 0, 0, 0, 0, 0, 1, 0, 0] s W)))
    (∑ a : Fin 3, ∑ i : Fin 3, forceAt (chosen m true false false false) (exPoint 3) [0, 0, 0, 0, 0, 0, 1, 0, 0] a i * W.getD ((a : Nat) * 3 + (i : Nat)) 0) 0 :=
  C105_energy m true false false false (exPoint 3) _ W hW.symm (by rw [exPoint_regular]; norm_num)

/-- A quarter turn about the third axis. -/
def quarter : Matrix (Fin 3) (Fin 3) ℝ := !![0, -1, 0; 1, 0, 0; 0, 0, 1]

theorem quarter_rotation : quarter.transpose * quarter = 1 ∧ quarter.det = 1 := by
  refine ⟨?_, by simp [quarter, Matrix.det_fin_three]⟩
  ext i j
  revert i j
  refine three (three ?_ ?_ ?_) (three ?_ ?_ ?_) (three ?_ ?_ ?_)
  all_goals simp [quarter, Matrix.mul_apply, Fin.sum_univ_three]

/-- A point of an element with four functions whose slopes are the coordinate directions. -/
noncomputable def exTet : PtData 3 3 4 where
  u := []
  shape := ⟨fun _ => 1/4, fun i a => if a = 0 then -1 else if (a : Nat) = (i : Nat) + 1 then 1 else 0, fun _ _ _ => 0, fun _ _ _ _ => 0, fun _ _ _ _ _ => 0⟩
  arrays := ⟨⟨fun _ => 0, fun _ _ => 0, fun _ _ _ => 0, fun _ _ _ _ => 0, fun _ _ _ _ _ => 0⟩,
    ⟨fun _ => 0, fun _ _ => 0, fun _ _ _ => 0, fun _ _ _ _ => 0, fun _ _ _ _ _ => 0⟩, 0,
    ⟨fun _ => 0, fun _ _ => 0, fun _ _ _ => 0, fun _ _ _ _ => 0, fun _ _ _ _ _ => 0⟩,
    ⟨fun _ => 0, fun _ _ => 0, fun _ _ _ => 0, fun _ _ _ _ => 0, fun _ _ _ _ _ => 0⟩, 0, fun _ => 0, 0⟩

/-- Every displacement gradient occurs at this point. -/
theorem exTet_gradient (G : Matrix (Fin 3) (Fin 3) ℝ) :
    gradientOf exTet [0, 0, 0, G 0 0, G 1 0, G 2 0, G 0 1, G 1 1, G 2 1, G 0 2, G 1 2, G 2 2] = 1 + G := by
  ext i j
  revert i j
  refine three (three ?_ ?_ ?_) (three ?_ ?_ ?_) (three ?_ ?_ ?_)
  all_goals simp [gradientOf, grad, Ker.evaluate, fld, exTet, Fin.sum_univ_four]

/-- `C105_objective` and `C105_rigid_partial`: displacements that are rotated by a quarter turn exist. -/
example (m : Material) (G : Matrix (Fin 3) (Fin 3) ℝ) (hG : (1 + G).det ≠ 0) : ∃ U V, gradientOf exTet U = 1 + G ∧ gradientOf exTet V = quarter * (1 + G) ∧
    ∀ a i, forceAt (chosen m true false false false) exTet V a i = ∑ k, quarter i k * forceAt (chosen m true false false false) exTet U a k := by
  obtain ⟨H, hH⟩ : ∃ H, H = quarter * (1 + G) - 1 := ⟨_, rfl⟩
  have h1 := exTet_gradient G
  have h2 := exTet_gradient H
  have e : 1 + H = quarter * (1 + G) := by rw [hH]; abel
  rw [e] at h2
  refine ⟨_, _, h1, h2, fun a i => ?_⟩
  exact C105_objective m true false false false exTet _ _ quarter quarter_rotation.1 quarter_rotation.2 (by rw [h1]; exact hG) (by rw [h1, h2]) a i

example (E nu : ℝ) : ∃ V, gradientOf exTet V = quarter ∧ ∀ a i, forceAt (chosen (coefficients E nu) true false false false) exTet V a i = 0 := by
  obtain ⟨H, hH⟩ : ∃ H, H = quarter - 1 := ⟨_, rfl⟩
  have h2 := exTet_gradient H
  have e : 1 + H = quarter := by rw [hH]; abel
  rw [e] at h2
  exact ⟨_, h2, fun a i => C105_rigid_partial E nu _ _ _ _ (Or.inl rfl) exTet _ quarter quarter_rotation.1 quarter_rotation.2 h2 a i⟩

/-- `C105_rigid_refuted`: steel at rest. -/
example : forceAt (chosen (coefficients 200 (3/10)) false false false false) exTet [0, 0, 0, 0, 0, 0, 0, 0, 0, 0, 0, 0] 1 0 ≠ 0 :=
  C105_rigid_refuted 200 (3/10) false (by norm_num) (by norm_num) exTet _ (by simpa using exTet_gradient 0) 1 0 (by simp [exTet])

/-- `C105_small_strain_partial` there: the entry is `λ + 2μ`. -/
example : stiffAt (chosen (coefficients 200 (1/4)) true false false false) exTet [0, 0, 0, 0, 0, 0, 0, 0, 0, 0, 0, 0] 1 0 1 0 = 240 := by
  rw [C105_small_strain_partial 200 (1/4) _ _ _ _ (Or.inl rfl) exTet _ (by simpa using exTet_gradient 0)]
  simp [exTet, Fin.sum_univ_three]
  norm_num

end PetIGA.Hyp
