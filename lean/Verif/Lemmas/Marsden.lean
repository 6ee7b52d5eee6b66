import Verif.Props.BSpline
import Mathlib.Algebra.Polynomial.Roots
import Mathlib.Algebra.Polynomial.Coeff
/-
Marsden's identity: polynomials of degree at most the degree of the B-splines are combinations of the B-splines, with
coefficients that do not depend on the element.
-/
set_option linter.unusedSectionVars false
namespace PetIGA.Bsp
open Polynomial PetIGA.Spec

variable {K : Type} [Field K]

/-- `(T - U (i+1)) ⋯ (T - U (i+q))`. -/
noncomputable def knotPoly (U : Int → K) : Nat → Int → K[X]
  | 0, _ => 1
  | q+1, i => knotPoly U q i * (X - C (U (i+q+1)))

theorem knotPoly_shift (U : Int → K) : ∀ (q : Nat) (i : Int), knotPoly U (q+1) (i-1) = (X - C (U i)) * knotPoly U q i
  | 0, i => by simp [knotPoly]
  | q+1, i => by
    rw [knotPoly, knotPoly_shift U q i, knotPoly, mul_assoc]
    rw [show i - 1 + ((q+1 : Nat) : Int) + 1 = i + q + 1 by push_cast; ring]

/-- The sum of the functions of an element, expressed by the functions of one degree less. -/
theorem sum_raise (U : Int → K) (k : Int) (q : Nat) (c : Int → K[X]) :
    ∑ r ∈ Finset.range (q+2), c (k - ((q+1:Nat):Int) + r) * piece U k (q+1) (k - ((q+1:Nat):Int) + r)
      = ∑ r ∈ Finset.range (q+1), C (U (k - q + r + q + 1) - U (k - q + r))⁻¹ *
          (c (k - q + r) * (X - C (U (k - q + r))) + c (k - q + r - 1) * (C (U (k - q + r + q + 1)) - X)) * piece U k q (k - q + r) := by
  simp only [piece_succ, mul_add]
  rw [Finset.sum_add_distrib]
  have h1 : ∑ x ∈ Finset.range (q+2), c (k - ((q+1:Nat):Int) + x) * (C (U (k - ((q+1:Nat):Int) + x + q + 1) - U (k - ((q+1:Nat):Int) + x))⁻¹ *
      (X - C (U (k - ((q+1:Nat):Int) + x))) * piece U k q (k - ((q+1:Nat):Int) + x)) =
      ∑ x ∈ Finset.range (q+1), c (k - q + x) * (C (U (k - q + x + q + 1) - U (k - q + x))⁻¹ *
      (X - C (U (k - q + x))) * piece U k q (k - q + x)) := by
    rw [Finset.sum_range_succ', piece_zero U k q _ (Or.inl (by push_cast; omega)), mul_zero, mul_zero, add_zero]
    refine Finset.sum_congr rfl (fun x _ => ?_)
    rw [show k - ((q+1:Nat):Int) + ((x+1:Nat):Int) = k - q + x by push_cast; ring]
  have h2 : ∑ x ∈ Finset.range (q+2), c (k - ((q+1:Nat):Int) + x) * (C (U (k - ((q+1:Nat):Int) + x + q + 2) - U (k - ((q+1:Nat):Int) + x + 1))⁻¹ *
      (C (U (k - ((q+1:Nat):Int) + x + q + 2)) - X) * piece U k q (k - ((q+1:Nat):Int) + x + 1)) =
      ∑ x ∈ Finset.range (q+1), c (k - q + x - 1) * (C (U (k - q + x + q + 1) - U (k - q + x))⁻¹ *
      (C (U (k - q + x + q + 1)) - X) * piece U k q (k - q + x)) := by
    rw [Finset.sum_range_succ, piece_zero U k q _ (Or.inr (by push_cast; omega)), mul_zero, mul_zero, add_zero]
    refine Finset.sum_congr rfl (fun x _ => ?_)
    rw [show k - ((q+1:Nat):Int) + (x:Int) + 1 = k - q + x by push_cast; ring,
      show k - ((q+1:Nat):Int) + (x:Int) + q + 2 = k - q + x + q + 1 by push_cast; ring,
      show k - ((q+1:Nat):Int) + (x:Int) = k - q + x - 1 by push_cast; ring]
  rw [h1, h2, ← Finset.sum_add_distrib]
  refine Finset.sum_congr rfl (fun x _ => ?_)
  ring

/-- Marsden's identity. -/
theorem marsden (U : Int → K) (k : Int) (t : K) : ∀ (q : Nat), Sep U k q →
    ∑ r ∈ Finset.range (q+1), C ((knotPoly U q (k - q + r)).eval t) * piece U k q (k - q + r) = (C t - X)^q
  | 0, _ => by simp [piece, knotPoly]
  | q+1, hs => by
    have ih := marsden U k t q (hs.mono (by omega))
    rw [sum_raise U k q (fun i => C ((knotPoly U (q+1) i).eval t)), pow_succ, ← ih, Finset.sum_mul]
    refine Finset.sum_congr rfl (fun x hx => ?_)
    have hx' : x ≤ q := by have := Finset.mem_range.1 hx; omega
    have hne : U (k - q + x + q + 1) - U (k - q + x) ≠ 0 := sub_ne_zero.2
      (hs _ _ (by push_cast; omega) (by omega) (by omega) (by push_cast; omega)).symm
    have hc : C (U (k - q + x + q + 1) - U (k - q + x))⁻¹ * (C (U (k - q + x + q + 1)) - C (U (k - q + x))) = 1 := by
      rw [← C_sub, ← C_mul, inv_mul_cancel₀ hne, C_1]
    rw [knotPoly_shift U q (k - q + x), knotPoly]
    simp only [eval_mul, eval_sub, eval_X, eval_C, C_mul, C_sub]
    linear_combination (piece U k q (k - q + x)) * C ((knotPoly U q (k - q + x)).eval t) * (C t - X) * hc

variable [CharZero K]

/-- The coefficient of the `i`-th B-spline in `X^s`. -/
noncomputable def monoCoef (U : Int → K) (p s : Nat) (i : Int) : K :=
  (-1)^s / (p.choose s : K) * (knotPoly U p i).coeff (p - s)

theorem monomial_repr (U : Int → K) (k : Int) (p : Nat) (hs : Sep U k p) (s : Nat) (hsp : s ≤ p) :
    ∑ r ∈ Finset.range (p+1), C (monoCoef U p s (k - p + r)) * piece U k p (k - p + r) = X^s := by
  have : Infinite K := Infinite.of_injective (fun n : Nat => (n:K)) Nat.cast_injective
  refine Polynomial.funext fun x => ?_
  have h : ∑ r ∈ Finset.range (p+1), knotPoly U p (k - p + r) * C ((piece U k p (k - p + r)).eval x) = (X + C (-x))^p := by
    refine Polynomial.funext fun t => ?_
    have := congrArg (eval x) (marsden U k t p hs)
    simp only [eval_finset_sum, eval_mul, eval_C, eval_pow, eval_sub, eval_add, eval_X] at this ⊢
    rw [this]; ring
  have h2 := congrArg (fun P : K[X] => P.coeff (p - s)) h
  simp only [finset_sum_coeff, coeff_mul_C] at h2
  rw [coeff_X_add_C_pow, show p - (p - s) = s by omega, Nat.choose_symm hsp, neg_pow] at h2
  simp only [eval_finset_sum, eval_mul, eval_C, eval_pow, eval_X, monoCoef]
  have hch : (p.choose s : K) ≠ 0 := by
    exact_mod_cast (Nat.choose_pos hsp).ne'
  have h3 : ∀ r : Nat, (-1)^s / (p.choose s : K) * (knotPoly U p (k - p + r)).coeff (p - s) * (piece U k p (k - p + r)).eval x
      = (-1)^s / (p.choose s : K) * ((knotPoly U p (k - p + r)).coeff (p - s) * (piece U k p (k - p + r)).eval x) := fun r => by ring
  rw [Finset.sum_congr rfl fun r _ => h3 r, ← Finset.mul_sum, h2]
  have h4 : ((-1 : K)^s) * (-1)^s = 1 := by rw [← mul_pow]; simp
  rw [div_mul_eq_mul_div, div_eq_iff hch]
  linear_combination x^s * (p.choose s : K) * h4

/-- The coefficients of a polynomial. -/
noncomputable def polyCoef (U : Int → K) (p : Nat) (P : K[X]) (i : Int) : K := ∑ s ∈ Finset.range (p+1), P.coeff s * monoCoef U p s i

theorem poly_repr (U : Int → K) (k : Int) (p : Nat) (hs : Sep U k p) (P : K[X]) (hP : P.natDegree ≤ p) :
    ∑ r ∈ Finset.range (p+1), C (polyCoef U p P (k - p + r)) * piece U k p (k - p + r) = P := by
  have e : P = ∑ s ∈ Finset.range (p+1), ∑ r ∈ Finset.range (p+1), C (P.coeff s) * (C (monoCoef U p s (k - p + r)) * piece U k p (k - p + r)) := by
    conv_lhs => rw [P.as_sum_range_C_mul_X_pow' (show P.natDegree < p+1 by omega)]
    refine Finset.sum_congr rfl fun s hs' => ?_
    rw [← monomial_repr U k p hs s (by have := Finset.mem_range.1 hs'; omega), Finset.mul_sum]
  conv_rhs => rw [e, Finset.sum_comm]
  refine Finset.sum_congr rfl fun r _ => ?_
  unfold polyCoef
  rw [map_sum, Finset.sum_mul]
  refine Finset.sum_congr rfl fun s _ => ?_
  rw [C_mul]; ring

end PetIGA.Bsp
