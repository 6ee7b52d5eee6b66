import Verif.Model.BSpline
import Verif.Spec.BSpline
import Verif.Spec.Knots
import Verif.Lemmas.Axis
import Mathlib.Tactic.Ring
import Mathlib.Tactic.LinearCombination
/-! Lemmas about the polynomial pieces of B-splines and about the kernel loops. -/
set_option linter.unusedSectionVars false
namespace PetIGA.Bsp
open PetIGA.Spec Polynomial

variable {K : Type} [Field K]

/-- Knots on either side of the interval `k` differ. -/
def Sep (U : Int → K) (k : Int) (p : Int) : Prop :=
  ∀ a b, k - p < a → a ≤ k → k + 1 ≤ b → b ≤ k + p → U a ≠ U b

theorem Sep.mono {U : Int → K} {k p q : Int} (h : Sep U k p) (hq : q ≤ p) : Sep U k q :=
  fun a b h1 h2 h3 h4 => h a b (by omega) h2 h3 (by omega)

theorem piece_zero (U : Int → K) (k : Int) : ∀ (q : Nat) (i : Int), (i < k - q ∨ k < i) →
    piece U k q i = 0
  | 0, i, h => by unfold piece; rw [if_neg (by push_cast at h; omega)]
  | q+1, i, h => by
    unfold piece
    rw [piece_zero U k q i (by push_cast at h; omega), piece_zero U k q (i+1) (by push_cast at h; omega)]
    simp

theorem piece_natDegree (U : Int → K) (k : Int) : ∀ (q : Nat) (i : Int), (piece U k q i).degree ≤ q
  | 0, i => by unfold piece; split <;> simp
  | q+1, i => by
    unfold piece
    have h1 := piece_natDegree U k q i
    have h2 := piece_natDegree U k q (i+1)
    have e : ((q+1:Nat) : WithBot ℕ) = 1 + q := by push_cast; ring
    have d1 : (C (U (i+q+1) - U i)⁻¹ * (X - C (U i)) : K[X]).degree ≤ 1 := by
      refine (degree_mul_le _ _).trans ?_
      rw [show (1 : WithBot ℕ) = 0 + 1 by simp]
      exact add_le_add degree_C_le (by rw [degree_X_sub_C])
    have d2 : (C (U (i+q+2) - U (i+1))⁻¹ * (C (U (i+q+2)) - X) : K[X]).degree ≤ 1 := by
      refine (degree_mul_le _ _).trans ?_
      rw [show (1 : WithBot ℕ) = 0 + 1 by simp]
      refine add_le_add degree_C_le ?_
      rw [← neg_sub, degree_neg, degree_X_sub_C]
    rw [e]
    refine (degree_add_le _ _).trans (max_le ?_ ?_)
    · exact (degree_mul_le _ _).trans (add_le_add d1 h1)
    · exact (degree_mul_le _ _).trans (add_le_add d2 h2)

theorem piece_succ (U : Int → K) (k : Int) (q : Nat) (i : Int) : piece U k (q+1) i =
    C (U (i+q+1) - U i)⁻¹ * (X - C (U i)) * piece U k q i
      + C (U (i+q+2) - U (i+1))⁻¹ * (C (U (i+q+2)) - X) * piece U k q (i+1) := rfl

theorem piece_derivative (U : Int → K) (k : Int) : ∀ (q : Nat) (i : Int), Sep U k (q+1) →
    derivative (piece U k (q+1) i) =
      C ((q:K)+1) * (C (U (i+q+1) - U i)⁻¹ * piece U k q i
        - C (U (i+q+2) - U (i+1))⁻¹ * piece U k q (i+1))
  | 0, i, hs => by
    have e : ∀ j, derivative (piece U k 0 j) = 0 := by intro j; unfold piece; split <;> simp
    rw [piece_succ U k 0 i]
    simp only [derivative_add, derivative_mul, e, derivative_C, derivative_sub, derivative_X, mul_zero,
      zero_mul, zero_add, add_zero, zero_sub, sub_zero, Nat.cast_zero, C_1]
    ring
  | q+1, i, hs => by
    have ih1 := piece_derivative U k q i (hs.mono (by omega))
    have ih2 := piece_derivative U k q (i+1) (hs.mono (by omega))
    rw [piece_succ U k (q+1) i]
    simp only [derivative_add, derivative_mul, derivative_C, derivative_sub, derivative_X, ih1, ih2]
    have c1 : i + ((q+1:Nat):Int) + 1 = i+1+q+1 := by push_cast; ring
    have c2 : i + ((q+1:Nat):Int) + 2 = i+1+q+2 := by push_cast; ring
    have c3 : i + (q:Int) + 2 = i+1+q+1 := by push_cast; ring
    rw [c1, c2, c3]
    -- the only non-formal point
    have key : ((C (U (i+1+q+1) - U i)⁻¹ * C (U (i+1+q+1) - U i)
        - C (U (i+1+q+2) - U (i+1))⁻¹ * C (U (i+1+q+2) - U (i+1))) * piece U k q (i+1) : K[X]) = 0 := by
      by_cases hz : i + 1 < k - q ∨ k < i + 1
      · rw [piece_zero U k q (i+1) hz, mul_zero]
      · have h1 : U (i+1+q+1) - U i ≠ 0 := sub_ne_zero.2
          (hs i (i+1+q+1) (by push_cast; omega) (by omega) (by omega) (by push_cast; omega)).symm
        have h2 : U (i+1+q+2) - U (i+1) ≠ 0 := sub_ne_zero.2
          (hs (i+1) (i+1+q+2) (by push_cast; omega) (by omega) (by omega) (by push_cast; omega)).symm
        rw [← C_mul, ← C_mul, inv_mul_cancel₀ h1, inv_mul_cancel₀ h2, sub_self, zero_mul]
    rw [piece_succ U k q i, piece_succ U k q (i+1), c3]
    simp only [derivative_mul, derivative_C, derivative_sub, derivative_X, C_sub, C_add, C_1,
      Nat.cast_add, Nat.cast_one] at key ⊢
    linear_combination (-(C (q:K) + 1) * C (U (i+1+q+1) - U (i+1))⁻¹) * key

/-- The coefficients of the `t`-th derivative (Piegl–Tiller eq. 2.10). -/
def aS (U : Int → K) (l : Int) (p : Nat) : Nat → Int → K
  | 0, j => if j = 0 then 1 else 0
  | t+1, j => (aS U l p t j - aS U l p t (j-1)) / (U (l+p-t+j) - U (l+j))

theorem aS_zero (U : Int → K) (l : Int) (p : Nat) : ∀ (t : Nat) (j : Int), (j < 0 ∨ (t:Int) < j) →
    aS U l p t j = 0
  | 0, j, h => by unfold aS; rw [if_neg (by push_cast at h; omega)]
  | t+1, j, h => by
    unfold aS
    rw [aS_zero U l p t j (by push_cast at h; omega), aS_zero U l p t (j-1) (by push_cast at h; omega)]
    simp

theorem piece_iter_derivative (U : Int → K) (k l : Int) (p : Nat) (hs : Sep U k p) : ∀ (t : Nat), t ≤ p →
    derivative^[t] (piece U k p l) = C ((p.descFactorial t : Nat) : K) *
      ∑ j ∈ Finset.range (t+1), C (aS U l p t j) * piece U k (p-t) (l+j)
  | 0, _ => by simp [aS]
  | t+1, h => by
    rw [Function.iterate_succ_apply', piece_iter_derivative U k l p hs t (by omega), derivative_mul,
      derivative_C, zero_mul, zero_add, derivative_sum]
    obtain ⟨q, hq⟩ : ∃ q, p - t = q + 1 := ⟨p - t - 1, by omega⟩
    have hq' : p - (t+1) = q := by omega
    have hd : p.descFactorial (t+1) = (q+1) * p.descFactorial t := by
      rw [Nat.descFactorial_succ, hq]
    rw [hq, hq', hd]
    have hterm : ∀ j : Nat, derivative (C (aS U l p t j) * piece U k (q+1) (l+j)) =
        C ((q:K)+1) * (C (aS U l p t j) * C (U (l+j+q+1) - U (l+j))⁻¹ * piece U k q (l+j)
        - C (aS U l p t j) * C (U (l+j+q+2) - U (l+j+1))⁻¹ * piece U k q (l+j+1)) := by
      intro j
      rw [derivative_mul, derivative_C, zero_mul, zero_add,
        piece_derivative U k q (l+j) (hs.mono (by omega))]
      ring
    rw [Finset.sum_congr rfl (fun j _ => hterm j), ← Finset.mul_sum, Finset.sum_sub_distrib]
    have hS : ∀ j : Nat, C (aS U l p (t+1) j) * piece U k q (l+j) =
        C (aS U l p t j) * C (U (l+j+q+1) - U (l+j))⁻¹ * piece U k q (l+j)
        - C (aS U l p t ((j:Int)-1)) * C (U (l+j+q+1) - U (l+j))⁻¹ * piece U k q (l+j) := by
      intro j
      have e1 : (l:Int) + p - t + j = l + j + q + 1 := by omega
      rw [aS, e1, div_eq_mul_inv, C_mul, C_sub]
      ring
    rw [Finset.sum_congr rfl (fun j _ => hS j), Finset.sum_sub_distrib]
    have h1 : ∑ j ∈ Finset.range (t+1+1), C (aS U l p t j) * C (U (l+j+q+1) - U (l+j))⁻¹ * piece U k q (l+j)
        = ∑ j ∈ Finset.range (t+1), C (aS U l p t j) * C (U (l+j+q+1) - U (l+j))⁻¹ * piece U k q (l+j) := by
      rw [Finset.sum_range_succ, aS_zero U l p t (((t+1:Nat):Int)) (Or.inr (by push_cast; omega))]
      simp
    have h2 : ∑ j ∈ Finset.range (t+1+1), C (aS U l p t ((j:Int)-1)) * C (U (l+j+q+1) - U (l+j))⁻¹
          * piece U k q (l+j)
        = ∑ j ∈ Finset.range (t+1), C (aS U l p t j) * C (U (l+j+q+2) - U (l+j+1))⁻¹
          * piece U k q (l+j+1) := by
      rw [Finset.sum_range_succ', aS_zero U l p t (((0:Nat):Int)-1) (Or.inl (by omega))]
      simp only [C_0, zero_mul, add_zero]
      refine Finset.sum_congr rfl (fun j _ => ?_)
      have e1 : (((j+1:Nat):Int)) - 1 = j := by push_cast; ring
      have e2 : l + ((j+1:Nat):Int) = l + j + 1 := by push_cast; ring
      have e3 : l + (j:Int) + 1 + q + 1 = l + j + q + 2 := by ring
      rw [e1, e2, e3]
    rw [h1, h2]
    push_cast
    rw [C_mul]
    simp only [C_add, C_1]
    ring

end PetIGA.Bsp
