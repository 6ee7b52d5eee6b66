import Verif.Props.Mapped
import Mathlib.Analysis.Calculus.Deriv.Pow
/-
C41: failure at order 4, and a concrete case.
-/
namespace PetIGA.Ker
open PetIGA.Spec Finset
open scoped ContDiff

theorem pd_mono (c : ℝ) (n : Nat) :
    pd (0 : Fin 1) (fun y => c * y 0 ^ (n+1)) = fun y => (c * (n+1)) * y 0 ^ n := by
  funext y
  unfold pd
  simp only [Function.update_self]
  have h := ((hasDerivAt_pow (n+1) (y 0)).const_mul c).deriv
  rw [h]
  simp only [Nat.add_sub_cancel, Nat.cast_add, Nat.cast_one]
  ring

/-- `φ(x) = x⁴` on the line and the identity as geometry map. -/
theorem exφ_fourth : pd (0 : Fin 1) (pd 0 (pd 0 (pd 0 (fun y => (1 : ℝ) * y 0 ^ 4)))) (fun _ => 1) = 24 := by
  rw [pd_mono 1 3, pd_mono _ 2, pd_mono _ 1, pd_mono _ 0]
  norm_num

/-- **C41 fails at order 4**: already for the identity map of the line and `φ = x⁴`, with tables that hold all
derivatives up to order 4 and the routines asked for order 4, the fourth derivative 24 is returned as 0. -/
theorem C41_mapped_refuted (memE : ℝ × Tab ℝ 1 (Fin 1)) (memR : Tab ℝ 1 (Fin 1)) :
    let X : Fin 1 → (Fin 1 → ℝ) → ℝ := fun l y => y l
    let φ : Fin 1 → (Fin 1 → ℝ) → ℝ := fun _ y => 1 * y 0 ^ 4
    let x : Fin 1 → ℝ := fun _ => 1
    Holds 4 (tabOf X x) X x ∧ Holds 4 (tabOf (fun n y => φ n (fun l => X l y)) x) (fun n y => φ n (fun l => X l y)) x ∧
    (Matrix.of fun a l => pd a (X l) x).det = 1 ∧
    (shapeFunctions 4 (inverseMap 4 (tabOf X x) memE).2 (tabOf (fun n y => φ n (fun l => X l y)) x) memR).t4 0 0 0 0 0 = 0 ∧
    pd 0 (pd 0 (pd 0 (pd 0 (φ 0)))) (fun l => X l x) = 24 := by
  intro X φ x
  refine ⟨holds_tabOf _ _ _, holds_tabOf _ _ _, ?_, rfl, exφ_fourth⟩
  rw [Matrix.det_fin_one]
  simp [X, pd]

/-- A shear with a parabolic boundary: `(u, v) ↦ (u + v², v)`. -/
def exX : Fin 2 → (Fin 2 → ℝ) → ℝ := fun l y => if l = 0 then y 0 + y 1 ^ 2 else y 1

theorem exX_smooth (l : Fin 2) : Smooth Set.univ (exX l) := by
  unfold exX
  split_ifs
  · exact (ContDiff.add (contDiff_apply ℝ ℝ (0 : Fin 2)) ((contDiff_apply ℝ ℝ (1 : Fin 2)).pow 2)).contDiffOn
  · exact (contDiff_apply ℝ ℝ (1 : Fin 2)).contDiffOn

theorem exX_det (y : Fin 2 → ℝ) : (Matrix.of fun a l => pd a (exX l) y).det = 1 := by
  rw [Matrix.det_fin_two]
  simp [pd, exX]

/-- Non-vacuity of C41: that map, at an arbitrary point, with the functions `x` and `x y`. -/
example (x : Fin 2 → ℝ) (memE : ℝ × Tab ℝ 2 (Fin 2)) (memR : Tab ℝ 2 (Fin 2)) :
    let φ : Fin 2 → (Fin 2 → ℝ) → ℝ := fun n y => if n = 0 then y 0 else y 0 * y 1
    let NT := tabOf (fun n y => φ n (fun l => exX l y)) x
    Holds 3 (shapeFunctions 3 (inverseMap 3 (tabOf exX x) memE).2 NT { memR with t0 := NT.t0 }) φ (fun l => exX l x) := by
  intro φ NT
  refine (C41_mapped_partial (by omega) isOpen_univ isOpen_univ exX exX_smooth (fun _ _ => Set.mem_univ _) φ ?_ x
    (Set.mem_univ _) (by rw [exX_det]; exact one_ne_zero) 3 3 (by omega) (by omega) (tabOf exX x) (holds_tabOf _ _ _) NT
    (holds_tabOf _ _ _) memE memR).2
  intro n
  simp only [φ]
  split_ifs
  · exact (contDiff_apply ℝ ℝ (0 : Fin 2)).contDiffOn
  · exact ((contDiff_apply ℝ ℝ (0 : Fin 2)).mul (contDiff_apply ℝ ℝ (1 : Fin 2))).contDiffOn

end PetIGA.Ker
