import Verif.Props.Point
import Mathlib.Analysis.Calculus.Deriv.Inv
/-
Concrete cases for C61, C70 and C71: the rational line `x = y/(1+y)` with the functions `1/(1+y)`, `y/(1+y)`.
-/
namespace PetIGA.Ker
open PetIGA.Spec Finset
open scoped ContDiff

/-- Weights one and control points `0`, `1`. -/
noncomputable def exPt (b : Option (Fin 1 × Int)) : PtIn 1 1 (Fin 2) where
  order := 3
  rational := some fun _ => 1
  geometry := some fun _ a => if a = 0 then 0 else 1
  boundary := b
  collocation := false
  debug := true

theorem exMap (y : Fin 1 → ℝ) : field (elemFuns (exPt none).rational exN) (fun a => if a = 0 then 0 else 1) y
    = y 0 / (1 + y 0) := by
  unfold field elemFuns exPt quotient
  dsimp only
  rw [Fin.sum_univ_two, exN_sum]
  simp [exN]

theorem exFun (a : Fin 2) (y : Fin 1 → ℝ) : elemFuns (exPt none).rational exN a y = (if a = 0 then 1 else y 0) / (1 + y 0) := by
  unfold elemFuns exPt quotient
  dsimp only
  rw [exN_sum, one_mul]
  rfl

theorem exD : (Matrix.of fun (a _ : Fin 1) =>
    pd a (field (elemFuns (exPt none).rational exN) (fun a => if a = 0 then 0 else 1)) (fun _ => 0)).det = 1 := by
  rw [Matrix.det_fin_one]
  unfold pd
  simp only [Matrix.of_apply, exMap, Function.update_self]
  have h := HasDerivAt.div (hasDerivAt_id (0:ℝ)) (HasDerivAt.const_add 1 (hasDerivAt_id (0:ℝ))) (by norm_num)
  refine (HasDerivAt.deriv h).trans ?_
  norm_num

/-- Non-vacuity of C71: all hypotheses hold for the rational line, in a build with error checking, and the measure is
the parametric one. -/
example (mem : PtOut 1 1 (Fin 2)) : ∃ o, tabulate (exPt none) (tabOf exN (fun _ => 0)) 5 mem = .ok o ∧
    Holds 3 (pointShape (exPt none) o) (fun a z => if a = 0 then 1 - z 0 else z 0) (fun _ => 0) ∧ o.detJac = 5 := by
  obtain ⟨o, h1, h2, _, h4, _⟩ := C71_mapped_partial (ι := Fin 2) (n := 0) (by omega) exΩ_open (Ω' := Set.univ) isOpen_univ
    (exPt none) _ rfl exN (exN_smooth _)
    (by intro W h; obtain rfl := Option.some.inj h; exact exΩ_ne)
    (fun a z => if a = 0 then 1 - z 0 else z 0)
    (by
      intro a
      split_ifs
      · exact ContDiffOn.sub contDiffOn_const (contDiff_apply ℝ ℝ (0 : Fin 1)).contDiffOn
      · exact (contDiff_apply ℝ ℝ (0 : Fin 1)).contDiffOn)
    (fun _ _ => Set.mem_univ _)
    (by
      intro a y hy
      have hy : (1:ℝ) + y 0 ≠ 0 := ne_of_gt hy
      dsimp only
      rw [exMap, exFun]
      split_ifs
      · field_simp; ring
      · rfl)
    (fun _ => 0) (by simp [exΩ]) 1 exD.symm one_ne_zero (fun _ => one_pos) 3 (by omega) (by omega) (by simp [exPt])
    (tabOf exN (fun _ => 0)) (holds_tabOf _ _ _) 5 mem
  refine ⟨o, h1, ?_, ?_⟩
  · convert h2 using 2
    rw [exMap]; simp
  · rw [h4 rfl]; simp [exPt]

/-- Non-vacuity of C61 and C70: the same line; the second derivative of the field with coefficients `2`, `3` on `1`,
`x` is read from the tables, and the gradient of the map is invertible. -/
example : ∃ V, pointEvaluate (dof := 1) 0 2 (tabOf exN (fun _ => 0)) (fun _ a => if a = 0 then 2 else 3) (fun _ _ => 0) = .ok V ∧
    ∀ l c, (l.length : Int) = 2 → V l c = pdl l (field exN (fun a => if a = 0 then 2 else 3)) (fun _ => 0) :=
  (C61_evaluate exΩ_open exN (exN_smooth _) (fun _ => 0) (by simp [exΩ]) 2 _ (holds_tabOf _ _ _) 0 2 _ _).1
    (by omega) (by omega) (by omega) (by omega)

example (mem o : PtOut 1 1 (Fin 2)) (h : tabulate (exPt none) (tabOf exN (fun _ => 0)) 5 mem = .ok o) (m : Nat → ℝ) :
    pointGradGeomMap (exPt none) o (fun _ => 5) m 0 * pointInvGradGeomMap (exPt none) o (fun _ => 5) m 0 = 1 := by
  have ht : tangent o (fun _ a => if a = 0 then 0 else 1) 0 0 = 1 := by
    have hB := holds_elemFuns exΩ_open (exPt none).rational exN (exN_smooth exΩ)
      (by intro W h; obtain rfl := Option.some.inj h; exact exΩ_ne) (fun _ => 0) (by simp [exΩ]) 3 3 (by omega) (by omega)
      (tabOf exN (fun _ => 0)) (holds_tabOf _ _ _)
    have e := (tabulate_geometry _ _ rfl _ _ _ _ h).1
    have hb : Holds 3 o.basis (elemFuns (exPt none).rational exN) (fun _ => 0) := by rw [e]; exact hB
    have hf := pd_field exΩ_open (smooth_elemFuns (exPt none).rational exN (exN_smooth exΩ)
      (by intro W h; obtain rfl := Option.some.inj h; exact exΩ_ne)) (fun a => if a = 0 then 0 else 1) 0
      (show (fun _ => 0) ∈ exΩ by simp [exΩ])
    have d1 := exD
    rw [Matrix.det_fin_one] at d1
    have d2 : pd 0 (field (elemFuns (exPt none).rational exN) fun a => if a = 0 then 0 else 1) (fun _ => 0) = 1 := d1
    rw [hf] at d2
    refine Eq.trans ?_ d2
    unfold tangent
    exact Finset.sum_congr rfl fun n _ => by rw [hb.2.1 (by omega), mul_comm]
  have := (C70_inverse (by omega) (exPt none) _ rfl (by simp [exPt]) _ _ _ o h (fun _ => 5) m m
    (fun _ _ => by norm_num) (by
      rw [Matrix.det_fin_one]
      simp only [Matrix.of_apply]
      rw [Fin.sum_univ_one, ht]
      norm_num)).1 0 0
  simpa using this

end PetIGA.Ker
