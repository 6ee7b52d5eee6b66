import Verif.Lemmas.BSplineLoop
import Mathlib.Tactic.Linarith
import Mathlib.Tactic.Positivity
import Mathlib.Tactic.NormNum
/-! Property theorems about the B-spline kernel (C11, C12, C13). -/
set_option linter.unusedSectionVars false
namespace PetIGA.Bsp
open PetIGA.Spec Polynomial

variable {K : Type} [Field K] [LinearOrder K] [IsStrictOrderedRing K]

theorem sep_of_sorted {U : Int → K} {m k : Int} {p : Nat} (hs : SortedKnots m U) (h0 : p ≤ k)
    (h1 : k + p + 1 ≤ m) (hk : U k < U (k+1)) : Sep U k p := by
  intro a b ha hb hc hd
  have e1 := Ax.sorted_mono hs (i := a) (j := k) (by omega) hb (by omega)
  have e2 := Ax.sorted_mono hs (i := k+1) (j := b) (by omega) hc (by omega)
  exact ne_of_lt (lt_of_le_of_lt e1 (lt_of_lt_of_le hk e2))

/-- On the interval `[U k, U (k+1))` the Cox–de Boor function is the polynomial `piece`. -/
theorem piece_eval {U : Int → K} {m k : Int} {u : K} (hs : SortedKnots m U) (hk0 : 0 ≤ k) (hkm : k < m)
    (h0 : U k ≤ u) (h1 : u < U (k+1)) : ∀ (q : Nat) (i : Int), 0 ≤ i → i + q + 1 ≤ m →
    bspline U q i u = (piece U k q i).eval u
  | 0, i, hi, hm => by
    unfold bspline piece
    by_cases h : i = k
    · subst h; rw [if_pos ⟨h0, h1⟩, if_pos rfl]; simp
    · rw [if_neg h, if_neg]
      · simp
      · rintro ⟨a, b⟩
        rcases lt_or_gt_of_ne h with h' | h'
        · have := Ax.sorted_mono hs (i := i+1) (j := k) (by omega) (by omega) (by omega)
          exact absurd (lt_of_lt_of_le b this) (not_lt.2 h0)
        · have := Ax.sorted_mono hs (i := k+1) (j := i) (by omega) (by omega) (by push_cast at hm; omega)
          exact absurd (lt_of_lt_of_le h1 this) (not_lt.2 a)
  | q+1, i, hi, hm => by
    push_cast at hm
    rw [piece_succ, bspline, piece_eval hs hk0 hkm h0 h1 q i hi (by omega),
      piece_eval hs hk0 hkm h0 h1 q (i+1) (by omega) (by omega)]
    simp only [eval_add, eval_mul, eval_C, eval_sub, eval_X]
    congr 1
    · split
      · rename_i h; rw [h]; simp
      · rw [div_eq_mul_inv]; ring
    · split
      · rename_i h; rw [h]; simp
      · rw [div_eq_mul_inv]; ring

/-- **C11.** For every knot vector, every non-empty interval `k` of the domain, every point `u` of it and
every initial content of the work arrays, the first row of the table is
`N_{k-p,p}(u), …, N_{k,p}(u)` of the Cox–de Boor recursion, and every other B-spline of degree `p` vanishes
at `u`. -/
theorem C11_values_are_cox_de_boor (J : Junk K) (p d : Nat) (m k : Int) (U : Int → K) (u : K)
    (hs : SortedKnots m U) (hel : IsElement p m U k) (hd : d ≤ p) (h0 : U k ≤ u) (h1 : u < U (k+1)) :
    (∀ r : Nat, r ≤ p → basis J k u p d U 0 r = bspline U p (k - p + r) u) ∧
    (∀ i : Int, 0 ≤ i → i + p + 1 ≤ m → (i < k - p ∨ k < i) → bspline U p i u = 0) := by
  obtain ⟨e1, e2, e3⟩ := hel
  refine ⟨fun r hr => ?_, fun i hi him hik => ?_⟩
  · unfold basis
    rw [if_pos (by omega)]
    have := basisFunsDers_spec J k u p d U (sep_of_sorted hs e1 (by omega) e3) hd r 0 hr (by omega)
    push_cast at this
    rw [this, piece_eval hs (k := k) (by omega) (by omega) h0 h1 p _ (by omega) (by omega)]
    rfl
  · rw [piece_eval hs (k := k) (by omega) (by omega) h0 h1 p _ hi him, piece_zero U k p i hik]
    simp

/-- **C13.** Row `t ≤ d` of the table is the `t`-th derivative of the polynomial that the basis function is
on the interval (see `piece_eval`/`C13_pieces_are_bsplines`), at *every* `u`, in particular at both ends;
the remaining rows are zero. -/
theorem C13_rows_are_derivatives (J : Junk K) (p d : Nat) (m k : Int) (U : Int → K) (u : K)
    (hs : SortedKnots m U) (hel : IsElement p m U k) (hd : d ≤ p) (r : Nat) (hr : r ≤ p) (t : Nat) :
    (t ≤ d → basis J k u p d U t r = (derivative^[t] (piece U k p (k - p + r))).eval u) ∧
    (d < t → basis J k u p d U t r = 0) := by
  obtain ⟨e1, e2, e3⟩ := hel
  unfold basis
  refine ⟨fun h => ?_, fun h => ?_⟩
  · rw [if_pos (by omega)]
    exact basisFunsDers_spec J k u p d U (sep_of_sorted hs e1 (by omega) e3) hd r t hr h
  · rw [if_neg (by omega)]

/-- **C13**, the polynomials are the B-splines. -/
theorem C13_pieces_are_bsplines (p : Nat) (m k : Int) (U : Int → K) (hs : SortedKnots m U)
    (hel : IsElement p m U k) (i : Int) (hi : 0 ≤ i) (him : i + p + 1 ≤ m) (v : K)
    (h0 : U k ≤ v) (h1 : v < U (k+1)) : (piece U k p i).eval v = bspline U p i v := by
  obtain ⟨e1, e2, e3⟩ := hel
  exact (piece_eval hs (by omega) (by omega) h0 h1 p i hi him).symm

/-- **C13**, as called by the library (`d = min(p,4)`): all five rows are the true derivatives, also those
of order above the degree. -/
theorem C13_library_call (J : Junk K) (p : Nat) (m k : Int) (U : Int → K) (u : K)
    (hs : SortedKnots m U) (hel : IsElement p m U k) (r : Nat) (hr : r ≤ p) (t : Nat) (ht : t ≤ 4) :
    basis J k u p (min p 4) U t r = (derivative^[t] (piece U k p (k - p + r))).eval u := by
  obtain ⟨a, b⟩ := C13_rows_are_derivatives J p (min p 4) m k U u hs hel (min_le_left _ _) r hr t
  by_cases h : t ≤ min p 4
  · exact a h
  · rw [b (by omega), iterate_derivative_eq_zero]
    · simp
    · have := natDegree_le_of_degree_le (piece_natDegree U k p (k-p+r))
      omega

theorem piece_sum (U : Int → K) (k : Int) : ∀ (q : Nat), Sep U k q →
    ∑ r ∈ Finset.range (q+1), piece U k q (k - q + r) = 1
  | 0, _ => by simp [piece]
  | q+1, hs => by
    have ih := piece_sum U k q (hs.mono (by omega))
    simp only [piece_succ]
    rw [Finset.sum_add_distrib]
    have h1 : ∑ x ∈ Finset.range (q+1+1), C (U (k - ((q+1:Nat):Int) + x + q + 1) - U (k - ((q+1:Nat):Int) + x))⁻¹ *
        (X - C (U (k - ((q+1:Nat):Int) + x))) * piece U k q (k - ((q+1:Nat):Int) + x) =
        ∑ x ∈ Finset.range (q+1), C (U (k - q + x + q + 1) - U (k - q + x))⁻¹ *
        (X - C (U (k - q + x))) * piece U k q (k - q + x) := by
      rw [Finset.sum_range_succ', piece_zero U k q _ (Or.inl (by push_cast; omega)), mul_zero, add_zero]
      refine Finset.sum_congr rfl (fun x _ => ?_)
      rw [show k - ((q+1:Nat):Int) + ((x+1:Nat):Int) = k - q + x by push_cast; ring]
    have h2 : ∑ x ∈ Finset.range (q+1+1), C (U (k - ((q+1:Nat):Int) + x + q + 2) - U (k - ((q+1:Nat):Int) + x + 1))⁻¹ *
        (C (U (k - ((q+1:Nat):Int) + x + q + 2)) - X) * piece U k q (k - ((q+1:Nat):Int) + x + 1) =
        ∑ x ∈ Finset.range (q+1), C (U (k - q + x + q + 1) - U (k - q + x))⁻¹ *
        (C (U (k - q + x + q + 1)) - X) * piece U k q (k - q + x) := by
      rw [Finset.sum_range_succ, piece_zero U k q _ (Or.inr (by push_cast; omega)), mul_zero, add_zero]
      refine Finset.sum_congr rfl (fun x _ => ?_)
      rw [show k - ((q+1:Nat):Int) + (x:Int) + 1 = k - q + x by push_cast; ring,
        show k - ((q+1:Nat):Int) + (x:Int) + q + 2 = k - q + x + q + 1 by push_cast; ring]
    rw [h1, h2, ← Finset.sum_add_distrib, ← ih]
    refine Finset.sum_congr rfl (fun x hx => ?_)
    have hx' : x ≤ q := by have := Finset.mem_range.1 hx; omega
    have hne : U (k - q + x + q + 1) - U (k - q + x) ≠ 0 := sub_ne_zero.2
      (hs _ _ (by push_cast; omega) (by omega) (by omega) (by push_cast; omega)).symm
    have hc : C (U (k - q + x + q + 1) - U (k - q + x))⁻¹ * (C (U (k - q + x + q + 1)) - C (U (k - q + x))) = 1 := by
      rw [← C_sub, ← C_mul, inv_mul_cancel₀ hne, C_1]
    linear_combination (piece U k q (k - q + x)) * hc

theorem N_nonneg {U : Int → K} {m k : Int} {u : K} (hs : SortedKnots m U) (h0 : U k ≤ u) (h1 : u ≤ U (k+1)) :
    ∀ (q : Nat) (i : Int), (q:Int) ≤ k → k + q + 1 ≤ m → 0 ≤ N U k u q i
  | 0, i, _, _ => by unfold N piece; split <;> simp
  | q+1, i, ha, hb => by
    push_cast at ha hb
    rw [N_succ]
    have key : ∀ x : Int, ∀ c : K, (k - q ≤ x → x ≤ k → 0 ≤ c) → 0 ≤ c * N U k u q x := by
      intro x c hc
      by_cases h : x < k - q ∨ k < x
      · rw [N_zero U k u q x h, mul_zero]
      · exact mul_nonneg (hc (by omega) (by omega)) (N_nonneg hs h0 h1 q x (by omega) (by omega))
    refine add_nonneg (key i _ ?_) (key (i+1) _ ?_)
    · intro hx hy
      have e1 := Ax.sorted_mono hs (i := i) (j := k) (by omega) (by omega) (by omega)
      have e2 := Ax.sorted_mono hs (i := k+1) (j := i+q+1) (by omega) (by omega) (by omega)
      exact mul_nonneg (inv_nonneg.2 (by linarith)) (by linarith)
    · intro hx hy
      have e1 := Ax.sorted_mono hs (i := i+1) (j := k) (by omega) (by omega) (by omega)
      have e2 := Ax.sorted_mono hs (i := k+1) (j := i+q+2) (by omega) (by omega) (by omega)
      exact mul_nonneg (inv_nonneg.2 (by linarith)) (by linarith)

/-- **C12.** On the closed interval the computed values are non-negative and sum to one; the computed
derivatives of each order `1 ≤ t ≤ 4` sum to zero (there even for every `u`). -/
theorem C12_partition_of_unity (J : Junk K) (p : Nat) (m k : Int) (U : Int → K) (u : K)
    (hs : SortedKnots m U) (hel : IsElement p m U k) :
    ∑ r ∈ Finset.range (p+1), basis J k u p (min p 4) U 0 r = 1 ∧
    (∀ t : Nat, 1 ≤ t → t ≤ 4 → ∑ r ∈ Finset.range (p+1), basis J k u p (min p 4) U t r = 0) ∧
    (U k ≤ u → u ≤ U (k+1) → ∀ r : Nat, r ≤ p → 0 ≤ basis J k u p (min p 4) U 0 r) := by
  have hsep : Sep U k p := sep_of_sorted hs hel.1 (by have := hel.2.1; omega) hel.2.2
  have hrow : ∀ t : Nat, t ≤ 4 → ∑ r ∈ Finset.range (p+1), basis J k u p (min p 4) U t r =
      (derivative^[t] (1 : K[X])).eval u := by
    intro t ht
    rw [← piece_sum U k p hsep, iterate_derivative_sum, eval_finset_sum]
    refine Finset.sum_congr rfl (fun r hr => ?_)
    exact C13_library_call J p m k U u hs hel r (by have := Finset.mem_range.1 hr; omega) t ht
  refine ⟨?_, ?_, ?_⟩
  · have := hrow 0 (by omega)
    simpa using this
  · intro t h1 h4
    rw [hrow t h4, iterate_derivative_one (by omega)]
    simp
  · intro h0 h1 r hr
    have e := C13_library_call J p m k U u hs hel r hr 0 (by omega)
    push_cast at e
    rw [e]
    exact N_nonneg hs h0 h1 p _ hel.1 (by have := hel.2.1; omega)

/-- Non-vacuity: a quadratic knot vector with a repeated interior knot, an element of it, a point of that
element, and the values the kernel computes there (with arbitrary junk in the work arrays). -/
def exU : Int → Rat := fun i => if i ≤ 2 then 0 else if i ≤ 4 then 1 else 3
def exJ : Junk Rat := ⟨⟨fun _ _ => 7, fun _ => 8, fun _ => 9⟩, fun _ _ => 5, fun _ _ => 6⟩
example : IsElement (2:Nat) 7 exU 4 ∧ SortedKnots 7 exU ∧ exU 4 ≤ 2 ∧ 2 < exU (4+1) := by
  refine ⟨⟨by decide, by decide, by decide +kernel⟩, ?_, by decide +kernel, by decide +kernel⟩
  intro i h0 h1
  unfold exU
  split_ifs <;> first | omega | norm_num
example : (basis exJ 4 2 2 2 exU 0 0, basis exJ 4 2 2 2 exU 0 1, basis exJ 4 2 2 2 exU 0 2) =
    (1/4, 1/2, 1/4) := by decide +kernel
example : (basis exJ 4 2 2 2 exU 1 0, basis exJ 4 2 2 2 exU 1 1, basis exJ 4 2 2 2 exU 2 2,
    basis exJ 4 2 2 2 exU 3 2) = (-1/2, 0, 1/2, 0) := by decide +kernel

end PetIGA.Bsp
