import Verif.Model.Kernel
import Mathlib.LinearAlgebra.Matrix.NonsingularInverse
import Mathlib.LinearAlgebra.Matrix.Determinant.Basic
import Mathlib.Algebra.BigOperators.Field
import Mathlib.Tactic.FieldSimp
import Mathlib.Tactic.IntervalCases
import Mathlib.Tactic.FinCases
import Mathlib.Tactic.LinearCombination
/-
C43: determinant and inverse kernels; C70: gradient of the geometry map of a manifold and its inverse.
-/
set_option linter.unusedSectionVars false
namespace PetIGA.Ker
open Finset

variable {K : Type} [Field K]

theorem det1 {R : Type} [CommRing R] (A : Fin 1 → Fin 1 → R) : determinant 1 A = A 0 0 := rfl
theorem det2 {R : Type} [CommRing R] (A : Fin 2 → Fin 2 → R) :
    determinant 2 A = A 0 0 * A 1 1 - A 1 0 * A 0 1 := rfl
theorem det3 {R : Type} [CommRing R] (A : Fin 3 → Fin 3 → R) :
    determinant 3 A = A 0 0 * (A 1 1 * A 2 2 - A 2 1 * A 1 2) - A 1 0 * (A 0 1 * A 2 2 - A 2 1 * A 0 2)
      + A 2 0 * (A 0 1 * A 1 2 - A 1 1 * A 0 2) := rfl

theorem det_eq {R : Type} [CommRing R] (d : Nat) (hd : 1 ≤ d ∧ d ≤ 3) (A : Fin d → Fin d → R) :
    determinant d A = (Matrix.of A).det := by
  obtain ⟨h1, h3⟩ := hd
  interval_cases d
  · rw [det1, Matrix.det_fin_one]; rfl
  · rw [det2, Matrix.det_fin_two]; simp only [Matrix.of_apply]; ring
  · rw [det3, Matrix.det_fin_three]; simp only [Matrix.of_apply]; ring

theorem cof2 {R : Type} [CommRing R] (A : Fin 2 → Fin 2 → R) (i j : Fin 2) :
    ∑ k, cofactors 2 A i k * A k j = if i = j then determinant 2 A else 0 := by
  rw [Fin.sum_univ_two, det2]
  fin_cases i <;> fin_cases j
  · change A 1 1 * A 0 0 + - A 0 1 * A 1 0 = _; rw [if_pos rfl]; ring
  · change A 1 1 * A 0 1 + - A 0 1 * A 1 1 = _; rw [if_neg (by decide)]; ring
  · change - A 1 0 * A 0 0 + A 0 0 * A 1 0 = _; rw [if_neg (by decide)]; ring
  · change - A 1 0 * A 0 1 + A 0 0 * A 1 1 = _; rw [if_pos rfl]; ring

theorem cof3 {R : Type} [CommRing R] (A : Fin 3 → Fin 3 → R) (i j : Fin 3) :
    ∑ k, cofactors 3 A i k * A k j = if i = j then determinant 3 A else 0 := by
  have r0 : ∀ j, ∑ k, cofactors 3 A 0 k * A k j =
      (A 1 1 * A 2 2 - A 1 2 * A 2 1) * A 0 j + (- A 0 1 * A 2 2 + A 0 2 * A 2 1) * A 1 j
      + (A 0 1 * A 1 2 - A 0 2 * A 1 1) * A 2 j := fun j => by rw [Fin.sum_univ_three]; rfl
  have r1 : ∀ j, ∑ k, cofactors 3 A 1 k * A k j =
      (- A 1 0 * A 2 2 + A 1 2 * A 2 0) * A 0 j + (A 0 0 * A 2 2 - A 0 2 * A 2 0) * A 1 j
      + (- A 0 0 * A 1 2 + A 0 2 * A 1 0) * A 2 j := fun j => by rw [Fin.sum_univ_three]; rfl
  have r2 : ∀ j, ∑ k, cofactors 3 A 2 k * A k j =
      (A 1 0 * A 2 1 - A 1 1 * A 2 0) * A 0 j + (- A 0 0 * A 2 1 + A 0 1 * A 2 0) * A 1 j
      + (A 0 0 * A 1 1 - A 0 1 * A 1 0) * A 2 j := fun j => by rw [Fin.sum_univ_three]; rfl
  rw [det3]
  fin_cases i
  · change ∑ k, cofactors 3 A 0 k * A k j = _
    rw [r0]; fin_cases j
    · rw [if_pos rfl]; dsimp; ring
    · rw [if_neg (by decide)]; dsimp; ring
    · rw [if_neg (by decide)]; dsimp; ring
  · change ∑ k, cofactors 3 A 1 k * A k j = _
    rw [r1]; fin_cases j
    · rw [if_neg (by decide)]; dsimp; ring
    · rw [if_pos rfl]; dsimp; ring
    · rw [if_neg (by decide)]; dsimp; ring
  · change ∑ k, cofactors 3 A 2 k * A k j = _
    rw [r2]; fin_cases j
    · rw [if_neg (by decide)]; dsimp; ring
    · rw [if_neg (by decide)]; dsimp; ring
    · rw [if_pos rfl]; dsimp; ring

/-- **C43**: for matrices of size 1, 2 and 3 the determinant kernel returns the determinant, and for every
invertible matrix the inverse kernel, called with that determinant, returns the two-sided inverse. -/
theorem C43_det_inverse (d : Nat) (hd : 1 ≤ d ∧ d ≤ 3) (A : Fin d → Fin d → K) :
    determinant d A = (Matrix.of A).det ∧
    ((Matrix.of A).det ≠ 0 →
      Matrix.of (inverse d (determinant d A) A) * Matrix.of A = 1 ∧
      Matrix.of A * Matrix.of (inverse d (determinant d A) A) = 1) := by
  refine ⟨det_eq d hd A, fun h => ?_⟩
  rw [← det_eq d hd A] at h
  have key : Matrix.of (inverse d (determinant d A) A) * Matrix.of A = 1 := by
    obtain ⟨h1, h3⟩ := hd
    interval_cases d
    · ext i j
      rw [Subsingleton.elim i 0, Subsingleton.elim j 0, Matrix.mul_apply, Fin.sum_univ_one, Matrix.of_apply]
      rw [det1] at h ⊢
      change 1 / A 0 0 * A 0 0 = (1 : Matrix (Fin 1) (Fin 1) K) 0 0
      rw [Matrix.one_apply_eq, one_div, inv_mul_cancel₀ h]
    · ext i j
      rw [Matrix.mul_apply]
      change ∑ k, cofactors 2 A i k / determinant 2 A * A k j = _
      have e : ∀ k, cofactors 2 A i k / determinant 2 A * A k j = cofactors 2 A i k * A k j / determinant 2 A := fun k => by ring
      rw [Finset.sum_congr rfl (fun k _ => e k), ← Finset.sum_div, cof2, Matrix.one_apply]
      split_ifs
      · exact div_self h
      · exact zero_div _
    · ext i j
      rw [Matrix.mul_apply]
      change ∑ k, cofactors 3 A i k / determinant 3 A * A k j = _
      have e : ∀ k, cofactors 3 A i k / determinant 3 A * A k j = cofactors 3 A i k * A k j / determinant 3 A := fun k => by ring
      rw [Finset.sum_congr rfl (fun k _ => e k), ← Finset.sum_div, cof3, Matrix.one_apply]
      split_ifs
      · exact div_self h
      · exact zero_div _
  exact ⟨key, mul_eq_one_comm.mp key⟩

/-- Non-vacuity of C43: a concrete invertible 3×3 matrix. -/
example : (Matrix.of (![![2, 1, 0], ![0, 1, 3], ![1, 0, 1]] : Fin 3 → Fin 3 → ℚ)).det ≠ 0 := by
  rw [← det_eq 3 (by omega)]; decide +kernel

/-- **C70** (manifolds): where the tangent vectors of the geometry are independent (their Gram determinant is not
zero), the inverse gradient kernel returns a left inverse of the gradient, whose rows are combinations of the
tangent vectors: `∑_i G(i,u) F(v,i) = δ_uv` and `G(·,u)` is in the span of the `F(v,·)`. -/
theorem C70_manifold {ι : Type} [Fintype ι] {d nsd : Nat} (hd : 1 ≤ d ∧ d ≤ 3) (N : Fin d → ι → K) (C : Fin nsd → ι → K)
    (hM : (Matrix.of (fun u v : Fin d => ∑ i, gradGeomMap N C u i * gradGeomMap N C v i)).det ≠ 0) :
    (∀ u v, ∑ i, invGradGeomMap N C i u * gradGeomMap N C v i = if u = v then 1 else 0) ∧
    (∀ u, ∃ c : Fin d → K, ∀ i, invGradGeomMap N C i u = ∑ v, c v * gradGeomMap N C v i) := by
  have eF : ∀ i u, ∑ a, C i a * N u a = gradGeomMap N C u i := fun i u =>
    Finset.sum_congr rfl fun a _ => mul_comm _ _
  set M : Fin d → Fin d → K := fun u v => ∑ i, gradGeomMap N C u i * gradGeomMap N C v i with hMdef
  have eG : ∀ i u, invGradGeomMap N C i u = ∑ v, Matrix.of (inverse d (determinant d M) M) u v * gradGeomMap N C v i := by
    intro i u
    unfold invGradGeomMap
    dsimp only
    simp only [eF]
    rfl
  have h := ((C43_det_inverse d hd M).2 hM).1
  constructor
  · intro u v
    have h2 := congrFun (congrFun h u) v
    rw [Matrix.mul_apply, Matrix.one_apply] at h2
    rw [← h2]
    simp only [eG, Finset.sum_mul]
    rw [Finset.sum_comm]
    refine Finset.sum_congr rfl fun w _ => ?_
    rw [show Matrix.of M w v = ∑ i, gradGeomMap N C w i * gradGeomMap N C v i from rfl, Finset.mul_sum]
    exact Finset.sum_congr rfl fun i _ => by ring
  · intro u
    exact ⟨fun v => Matrix.of (inverse d (determinant d M) M) u v, fun i => eG i u⟩

end PetIGA.Ker
