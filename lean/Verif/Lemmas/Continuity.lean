import Verif.Props.BSpline
import Mathlib.Analysis.Calculus.Deriv.Polynomial
import Mathlib.Analysis.Calculus.IteratedDeriv.Defs
import Mathlib.Analysis.Calculus.ContDiff.Basic
import Mathlib.Data.Int.LeastGreatest
import Mathlib.Topology.Algebra.Polynomial
/-
The polynomial pieces of a B-spline on either side of a knot agree up to the order given by the multiplicity of the knot.
-/
set_option linter.unusedSectionVars false
namespace PetIGA.Bsp
open Polynomial PetIGA.Spec

section
variable {K : Type} [Field K]

/-- The jump of the B-splines of low degree at a multiple knot. -/
theorem jump_low (U : Int → K) (k k' : Int) (ξ : K) (hξ : ∀ j, k < j → j ≤ k' → U j = ξ) (h0 : U k ≠ ξ)
    (h1 : U (k'+1) ≠ ξ) : ∀ (q : Nat), (q : Int) ≤ k' - k → ∀ i,
    (piece U k q i).eval ξ - (piece U k' q i).eval ξ = (if i = k then 1 else 0) - (if i = k' - q then 1 else 0)
  | 0, hq, i => by
    unfold piece
    by_cases a : i = k <;> by_cases b : i = k' <;> simp only [a, b, if_true, if_false, Nat.cast_zero, sub_zero] <;>
      (try split_ifs) <;> simp
  | q+1, hq, i => by
    have ih := jump_low U k k' ξ hξ h0 h1 q (by push_cast at hq; omega)
    push_cast at hq
    have e : (piece U k (q+1) i).eval ξ - (piece U k' (q+1) i).eval ξ
        = (U (i+q+1) - U i)⁻¹ * (ξ - U i) * ((piece U k q i).eval ξ - (piece U k' q i).eval ξ)
        + (U (i+q+2) - U (i+1))⁻¹ * (U (i+q+2) - ξ) * ((piece U k q (i+1)).eval ξ - (piece U k' q (i+1)).eval ξ) := by
      rw [piece_succ, piece_succ]
      simp only [eval_add, eval_mul, eval_C, eval_sub, eval_X]
      ring
    rw [e, ih i, ih (i+1)]
    have t1 : (U (i+q+1) - U i)⁻¹ * (ξ - U i) * ((if i = k then 1 else 0) - (if i = k' - q then 1 else 0))
        = if i = k then 1 else 0 := by
      by_cases a : i = k
      · subst a
        rw [if_pos rfl, if_neg (by omega), hξ (i+q+1) (by omega) (by omega), sub_zero, mul_one,
          inv_mul_cancel₀ (sub_ne_zero.2 (Ne.symm h0))]
      · rw [if_neg a]
        by_cases b : i = k' - q
        · rw [hξ i (by omega) (by omega), sub_self, mul_zero, zero_mul]
        · rw [if_neg b]; simp
    have t2 : (U (i+q+2) - U (i+1))⁻¹ * (U (i+q+2) - ξ) * ((if i + 1 = k then 1 else 0) - (if i + 1 = k' - q then 1 else 0))
        = - if i = k' - ((q+1 : Nat) : Int) then 1 else 0 := by
      by_cases a : i + 1 = k
      · rw [hξ (i+q+2) (by omega) (by omega), sub_self, mul_zero, zero_mul, if_neg (by push_cast; omega), neg_zero]
      · rw [if_neg a]
        by_cases b : i + 1 = k' - q
        · rw [if_pos b, if_pos (by push_cast; omega), hξ (i+1) (by omega) (by omega), show i + q + 2 = k' + 1 by omega, zero_sub,
            mul_neg, mul_one, inv_mul_cancel₀ (sub_ne_zero.2 h1)]
        · rw [if_neg b, if_neg (by push_cast; omega)]; simp
    rw [t1, t2]
    ring

/-- From the degree of the multiplicity on there is no jump. -/
theorem jump_zero (U : Int → K) (k k' : Int) (ξ : K) (hξ : ∀ j, k < j → j ≤ k' → U j = ξ) (h0 : U k ≠ ξ)
    (h1 : U (k'+1) ≠ ξ) (hk : k ≤ k') (q : Nat) (hq : k' - k ≤ q) (i : Int) :
    (piece U k q i).eval ξ = (piece U k' q i).eval ξ := by
  obtain ⟨m, hm⟩ := Int.eq_ofNat_of_zero_le (show 0 ≤ k' - k by omega)
  obtain ⟨n, rfl⟩ : ∃ n, q = m + n := ⟨q - m, by omega⟩
  clear hq
  induction n generalizing i with
  | zero =>
    have := jump_low U k k' ξ hξ h0 h1 m (by omega) i
    rw [show k' - (m:Int) = k by omega, sub_self] at this
    exact sub_eq_zero.1 this
  | succ n ih =>
    rw [← Nat.add_assoc, piece_succ, piece_succ]
    simp only [eval_add, eval_mul, eval_C, eval_sub, eval_X]
    rw [ih i, ih (i+1)]

/-- The derivatives up to the degree minus the multiplicity agree. -/
theorem deriv_jump (U : Int → K) (k k' : Int) (ξ : K) (hξ : ∀ j, k < j → j ≤ k' → U j = ξ) (h0 : U k ≠ ξ)
    (h1 : U (k'+1) ≠ ξ) (hk : k ≤ k') (p : Nat) (hs : Sep U k p) (hs' : Sep U k' p) (t : Nat) (ht : t + (k' - k) ≤ p) (i : Int) :
    (derivative^[t] (piece U k p i)).eval ξ = (derivative^[t] (piece U k' p i)).eval ξ := by
  rw [piece_iter_derivative U k i p hs t (by omega), piece_iter_derivative U k' i p hs' t (by omega)]
  simp only [eval_mul, eval_C, eval_finset_sum]
  congr 1
  refine Finset.sum_congr rfl fun j _ => ?_
  rw [jump_zero U k k' ξ hξ h0 h1 hk (p-t) (by omega)]

end

/-! ### Shifted knots -/

section
variable {K : Type} [Field K]

theorem piece_shift (U V : Int → K) (k s : Int) (T : K) : ∀ (q : Nat) (i : Int), (∀ j, i ≤ j → j ≤ i + q + 1 → U (j+s) = V j + T) →
    (piece U (k+s) q (i+s)).comp (X + C T) = piece V k q i
  | 0, i, _ => by
    unfold piece
    by_cases h : i = k
    · rw [if_pos h, if_pos (by omega), one_comp]
    · rw [if_neg h, if_neg (by omega), zero_comp]
  | q+1, i, h => by
    push_cast at h
    have i1 := piece_shift U V k s T q i (fun j a b => h j a (by omega))
    have i2 := piece_shift U V k s T q (i+1) (fun j a b => h j (by omega) (by omega))
    rw [piece_succ, piece_succ]
    simp only [add_comp, mul_comp, sub_comp, C_comp, X_comp]
    rw [i1, show i + s + 1 = i + 1 + s by ring, i2, h i (by omega) (by omega), h (i+1) (by omega) (by omega), show i + s + q + 1 = i + q + 1 + s by ring,
      show i + s + q + 2 = i + q + 2 + s by ring, h (i+q+1) (by omega) (by omega), h (i+q+2) (by omega) (by omega)]
    simp only [add_sub_add_right_eq_sub, C_add]

theorem iterate_derivative_comp_shift (P : K[X]) (T : K) : ∀ t : Nat, derivative^[t] (P.comp (X + C T)) = (derivative^[t] P).comp (X + C T)
  | 0 => rfl
  | t+1 => by
    rw [Function.iterate_succ_apply', Function.iterate_succ_apply', iterate_derivative_comp_shift P T t, derivative_comp]
    simp

theorem deriv_shift (U V : Int → K) (k s : Int) (T : K) (q : Nat) (i : Int) (h : ∀ j, i ≤ j → j ≤ i + q + 1 → U (j+s) = V j + T) (t : Nat) (x : K) :
    (derivative^[t] (piece U (k+s) q (i+s))).eval (x + T) = (derivative^[t] (piece V k q i)).eval x := by
  rw [← piece_shift U V k s T q i h, iterate_derivative_comp_shift, eval_comp]
  simp

end

/-! ### Gluing polynomials -/

/-- `P` left of `x`, `Q` from `x` on. -/
noncomputable def glue (P Q : ℝ[X]) (x : ℝ) : ℝ → ℝ := fun y => if y < x then P.eval y else Q.eval y

theorem glue_continuous (P Q : ℝ[X]) (x : ℝ) (h : P.eval x = Q.eval x) : Continuous (glue P Q x) := by
  have e : glue P Q x = fun y => if x ≤ y then Q.eval y else P.eval y := by
    funext y
    unfold glue
    by_cases hy : y < x
    · rw [if_pos hy, if_neg (not_le.2 hy)]
    · rw [if_neg hy, if_pos (not_lt.1 hy)]
  rw [e]
  refine Continuous.if_le Q.continuous P.continuous continuous_const continuous_id fun y hy => ?_
  rw [← hy, h]

theorem glue_hasDerivAt (P Q : ℝ[X]) (x : ℝ) (h : P.eval x = Q.eval x) (h' : (derivative P).eval x = (derivative Q).eval x)
    (y : ℝ) : HasDerivAt (glue P Q x) (glue (derivative P) (derivative Q) x y) y := by
  have hg : glue P Q x x = Q.eval x := if_neg (lt_irrefl x)
  rcases lt_trichotomy y x with hy | hy | hy
  · have : glue P Q x =ᶠ[nhds y] fun z => P.eval z := by
      filter_upwards [Iio_mem_nhds hy] with z hz
      exact if_pos hz
    rw [show glue (derivative P) (derivative Q) x y = (derivative P).eval y from if_pos hy]
    exact (P.hasDerivAt y).congr_of_eventuallyEq this
  · subst hy
    rw [show glue (derivative P) (derivative Q) y y = (derivative Q).eval y from if_neg (lt_irrefl y)]
    have l : HasDerivWithinAt (glue P Q y) ((derivative Q).eval y) (Set.Iic y) y := by
      rw [← h']
      refine ((P.hasDerivAt y).hasDerivWithinAt).congr (fun z hz => ?_) (by rw [hg, h])
      rcases lt_or_eq_of_le (show z ≤ y from hz) with hz | hz
      · exact if_pos hz
      · rw [hz, hg, h]
    have r : HasDerivWithinAt (glue P Q y) ((derivative Q).eval y) (Set.Ici y) y := by
      refine ((Q.hasDerivAt y).hasDerivWithinAt).congr (fun z hz => ?_) hg
      exact if_neg (not_lt.2 hz)
    have := l.union r
    rw [Set.Iic_union_Ici] at this
    exact this.hasDerivAt Filter.univ_mem
  · have : glue P Q x =ᶠ[nhds y] fun z => Q.eval z := by
      filter_upwards [Ioi_mem_nhds hy] with z hz
      exact if_neg (not_lt.2 (le_of_lt hz))
    rw [show glue (derivative P) (derivative Q) x y = (derivative Q).eval y from if_neg (not_lt.2 hy.le)]
    exact (Q.hasDerivAt y).congr_of_eventuallyEq this

theorem glue_contDiff (x : ℝ) : ∀ (s : Nat) (P Q : ℝ[X]),
    (∀ t, t ≤ s → (derivative^[t] P).eval x = (derivative^[t] Q).eval x) → ContDiff ℝ s (glue P Q x)
  | 0, P, Q, h => contDiff_zero.2 (glue_continuous P Q x (h 0 (le_refl _)))
  | s+1, P, Q, h => by
    have hd := glue_hasDerivAt P Q x (h 0 (by omega)) (h 1 (by omega))
    have e : deriv (glue P Q x) = glue (derivative P) (derivative Q) x := funext fun y => (hd y).deriv
    rw [show ((s+1 : Nat) : WithTop ℕ∞) = (s : WithTop ℕ∞) + 1 by push_cast; rfl, contDiff_succ_iff_deriv]
    refine ⟨fun y => (hd y).differentiableAt, ?_, ?_⟩
    · intro hω
      exact absurd hω (by simp)
    · rw [e]
      exact glue_contDiff x s _ _ fun t ht => by
        have := h (t+1) (by omega)
        rwa [Function.iterate_succ_apply, Function.iterate_succ_apply] at this

theorem glue_iteratedDeriv (x : ℝ) : ∀ (t : Nat) (P Q : ℝ[X]),
    (∀ s, s ≤ t → (derivative^[s] P).eval x = (derivative^[s] Q).eval x) →
    iteratedDeriv t (glue P Q x) = glue (derivative^[t] P) (derivative^[t] Q) x
  | 0, P, Q, _ => by rw [iteratedDeriv_zero]; rfl
  | t+1, P, Q, h => by
    rw [iteratedDeriv_succ, glue_iteratedDeriv x t P Q (fun s hs => h s (by omega))]
    have h1 := h t (by omega)
    have h2 := h (t+1) (le_refl _)
    rw [Function.iterate_succ_apply', Function.iterate_succ_apply'] at h2
    rw [Function.iterate_succ_apply', Function.iterate_succ_apply']
    exact funext fun y => (glue_hasDerivAt _ _ x h1 h2 y).deriv

/-! ### The spans on either side of a point -/

theorem spans_at {K : Type} [Field K] [LinearOrder K] {M p : Int} {U : Int → K} (hs : SortedKnots M U) (hp : 0 ≤ p) (hM : p ≤ M - p) {x : K} (h0 : U p < x)
    (h1 : x < U (M-p)) : ∃ k k', IsElement p M U k ∧ IsElement p M U k' ∧ k ≤ k' ∧ U k < x ∧ x ≤ U (k+1) ∧ U k' ≤ x ∧ x < U (k'+1) ∧
      ∀ j, k < j → j ≤ k' → U j = x := by
  have mono : ∀ {i j : Int}, 0 ≤ i → i ≤ j → j ≤ M → U i ≤ U j := by
    intro i j hi hij hj
    obtain ⟨n, hn⟩ := Int.eq_ofNat_of_zero_le (show 0 ≤ j - i by omega)
    obtain rfl : j = i + n := by omega
    clear hn hij
    induction n with
    | zero => simp
    | succ n ih =>
      push_cast at hj ⊢
      have := hs (i+n) (by omega) (by omega)
      rw [show i + ((n:Int) + 1) = i + n + 1 by ring]
      exact (ih (by omega)).trans this
  obtain ⟨k, ⟨ka, kb, kc⟩, kd⟩ := Int.exists_greatest_of_bdd (P := fun z => p ≤ z ∧ z ≤ M - p ∧ U z < x)
    ⟨M - p, fun z hz => hz.2.1⟩ ⟨p, le_refl _, hM, h0⟩
  obtain ⟨k', ⟨ka', kb', kc'⟩, kd'⟩ := Int.exists_greatest_of_bdd (P := fun z => p ≤ z ∧ z ≤ M - p ∧ U z ≤ x)
    ⟨M - p, fun z hz => hz.2.1⟩ ⟨p, le_refl _, hM, h0.le⟩
  have hkM : k < M - p := lt_of_le_of_ne kb fun h => by rw [h] at kc; exact absurd kc (not_lt.2 h1.le)
  have hkM' : k' < M - p := lt_of_le_of_ne kb' fun h => by rw [h] at kc'; exact absurd kc' (not_le.2 h1)
  have n1 : x ≤ U (k+1) := by
    by_contra h
    have := kd (k+1) ⟨by omega, by omega, not_le.1 h⟩
    omega
  have n2 : x < U (k'+1) := by
    by_contra h
    have := kd' (k'+1) ⟨by omega, by omega, not_lt.1 h⟩
    omega
  refine ⟨k, k', ⟨ka, by omega, lt_of_lt_of_le kc n1⟩, ⟨ka', by omega, lt_of_le_of_lt kc' n2⟩, kd' k ⟨ka, kb, kc.le⟩, kc, n1, kc', n2, ?_⟩
  intro j hj hj'
  exact le_antisymm ((mono (by omega) hj' (by omega)).trans kc') (n1.trans (mono (by omega) (by omega) (by omega)))

end PetIGA.Bsp
