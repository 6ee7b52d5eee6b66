import Verif.Props.BSpline
import Mathlib.Algebra.CharZero.Defs
import Mathlib.Algebra.Polynomial.Roots
import Mathlib.Algebra.Polynomial.Degree.Lemmas
/-
The `p+1` B-splines of degree `p` that do not vanish on a knot interval are linearly independent there, and so are their
values at `p+1` different points.
-/
set_option linter.unusedSectionVars false
namespace PetIGA.Bsp
open Polynomial PetIGA.Spec

variable {K : Type} [Field K] [LinearOrder K] [IsStrictOrderedRing K]

theorem pieces_independent (U : Int → K) (k : Int) : ∀ (p : Nat), Sep U k p → ∀ c : Nat → K,
    ∑ r ∈ Finset.range (p+1), C (c r) * piece U k p (k - p + r) = 0 → ∀ r : Nat, r ≤ p → c r = 0
  | 0, _, c, h, r, hr => by
    obtain rfl : r = 0 := by omega
    simpa [piece] using h
  | q+1, hs, c, h, r, hr => by
    have hd := congrArg derivative h
    simp only [derivative_sum, derivative_C_mul, derivative_zero] at hd
    have hd2 : ∑ s ∈ Finset.range (q+1), C ((c (s+1) - c s) * (U (k - q + s + q + 1) - U (k - q + s))⁻¹) * piece U k q (k - q + s) = 0 := by
      have e1 : ∀ r : Nat, C (c r) * derivative (piece U k (q+1) (k - ((q+1:Nat):Int) + r)) =
          C ((q:K)+1) * (C (c r * (U (k - q - 1 + r + q + 1) - U (k - q - 1 + r))⁻¹) * piece U k q (k - q - 1 + r)) -
          C ((q:K)+1) * (C (c r * (U (k - q + r + q + 1) - U (k - q + r))⁻¹) * piece U k q (k - q + r)) := by
        intro r
        rw [piece_derivative U k q _ (by push_cast at hs; exact hs),
          show k - ((q+1:Nat):Int) + (r:Int) = k - q - 1 + r by push_cast; ring,
          show k - (q:Int) - 1 + (r:Int) + q + 2 = k - q + r + q + 1 by ring,
          show k - (q:Int) - 1 + (r:Int) + 1 = k - q + r by ring]
        simp only [C_mul]
        ring
      simp only [e1] at hd
      rw [Finset.sum_sub_distrib, ← Finset.mul_sum, ← Finset.mul_sum, ← mul_sub] at hd
      have hq : (C ((q:K)+1) : K[X]) ≠ 0 := by
        rw [Ne, C_eq_zero]
        positivity
      have hd := (mul_eq_zero.1 hd).resolve_left hq
      rw [Finset.sum_range_succ' _ (q+1), Finset.sum_range_succ _ (q+1)] at hd
      rw [piece_zero U k q (k - q - 1 + ((0:Nat):Int)) (by push_cast; omega),
        piece_zero U k q (k - q + ((q+1:Nat):Int)) (by push_cast; omega), mul_zero, mul_zero, add_zero, add_zero,
        ← Finset.sum_sub_distrib] at hd
      rw [← hd]
      refine Finset.sum_congr rfl fun s _ => ?_
      rw [show k - (q:Int) - 1 + ((s+1:Nat):Int) = k - q + s by push_cast; ring, sub_mul, C_sub]
      ring
    have ih := pieces_independent U k q (hs.mono (by push_cast; omega)) _ hd2
    have step : ∀ s : Nat, s ≤ q → c (s+1) = c s := by
      intro s hsq
      have := ih s hsq
      have hne : (U (k - q + s + q + 1) - U (k - q + s))⁻¹ ≠ 0 := by
        refine inv_ne_zero (sub_ne_zero.2 fun h => ?_)
        exact hs (k - q + s) (k - q + s + q + 1) (by push_cast; omega) (by omega) (by omega) (by push_cast; omega) h.symm
      exact sub_eq_zero.1 ((mul_eq_zero.1 this).resolve_right hne)
    have all : ∀ s : Nat, s ≤ q + 1 → c s = c 0 := by
      intro s
      induction s with
      | zero => intro _; rfl
      | succ s ih' => intro hsq; rw [step s (by omega), ih' (by omega)]
    have hsum : ∑ r ∈ Finset.range (q+1+1), C (c r) * piece U k (q+1) (k - ((q+1:Nat):Int) + r) = C (c 0) := by
      rw [← mul_one (C (c 0)), ← piece_sum U k (q+1) hs, Finset.mul_sum]
      refine Finset.sum_congr rfl fun s hs' => ?_
      rw [all s (by have := Finset.mem_range.1 hs'; omega)]
    rw [hsum, C_eq_zero] at h
    rw [all r hr, h]

/-- A polynomial of degree at most `p` with `p+1` different zeros in the list is zero. -/
theorem poly_zero_of_points {p : Nat} {P : K[X]} (hP : P.degree ≤ p) {X : List K} (hX : X.Nodup) (hl : p < X.length)
    (h : ∀ x ∈ X, P.eval x = 0) : P = 0 := by
  classical
  by_contra hne
  have h1 : X.toFinset ⊆ P.roots.toFinset := by
    intro x hx
    rw [Multiset.mem_toFinset, mem_roots hne]
    exact h x (List.mem_toFinset.1 hx)
  have h2 := Finset.card_le_card h1
  rw [List.toFinset_card_of_nodup hX] at h2
  have h3 := Multiset.toFinset_card_le P.roots
  have h4 := card_roots' P
  have h5 := natDegree_le_of_degree_le hP
  omega

theorem values_independent (U : Int → K) (k : Int) (p : Nat) (hs : Sep U k p) (c : Nat → K) {X : List K} (hX : X.Nodup)
    (hl : p < X.length) (h : ∀ x ∈ X, ∑ r ∈ Finset.range (p+1), c r * (piece U k p (k - p + r)).eval x = 0) :
    ∀ r : Nat, r ≤ p → c r = 0 := by
  refine pieces_independent U k p hs c (poly_zero_of_points (p := p) ?_ hX hl ?_)
  · refine (degree_sum_le _ _).trans ?_
    refine Finset.sup_le fun r _ => ?_
    refine (degree_mul_le _ _).trans ?_
    have := piece_natDegree U k p (k - p + r)
    have h0 : (C (c r)).degree ≤ 0 := degree_C_le
    calc _ ≤ (0 : WithBot ℕ) + p := add_le_add h0 this
      _ = p := zero_add _
  · intro x hx
    rw [← h x hx, eval_finset_sum]
    simp

end PetIGA.Bsp
