import Verif.Props.BSpline
import Mathlib.Analysis.Calculus.Deriv.Polynomial
import Mathlib.Analysis.Calculus.IteratedDeriv.Lemmas
/-! **C13** over the real numbers, in terms of the analytic derivative. -/
namespace PetIGA.Bsp
open PetIGA.Spec Polynomial

theorem iteratedDeriv_eval (q : ℝ[X]) : ∀ t : Nat,
    iteratedDeriv t (fun x => q.eval x) = fun x => (derivative^[t] q).eval x
  | 0 => by simp [iteratedDeriv_zero]
  | t+1 => by
    rw [iteratedDeriv_succ, iteratedDeriv_eval q t, Function.iterate_succ_apply']
    funext x
    exact Polynomial.deriv _

/-- **C13** for real knots: at every point of the open interval the rows of the table are the iterated
derivatives of the Cox–de Boor B-splines as real functions. -/
theorem C13_real_derivatives (J : Junk ℝ) (p : Nat) (m k : Int) (U : Int → ℝ) (u : ℝ)
    (hs : SortedKnots m U) (hel : IsElement p m U k) (h0 : U k < u) (h1 : u < U (k+1))
    (r : Nat) (hr : r ≤ p) (t : Nat) (ht : t ≤ 4) :
    basis J k u p (min p 4) U t r = iteratedDeriv t (fun v => bspline U p (k - p + r) v) u := by
  rw [C13_library_call J p m k U u hs hel r hr t ht]
  have hE : (fun v => bspline U p (k - p + r) v) =ᶠ[nhds u] (fun v => (piece U k p (k - p + r)).eval v) := by
    filter_upwards [Ioo_mem_nhds h0 h1] with v hv
    exact (C13_pieces_are_bsplines p m k U hs hel _ (by have := hel.1; omega)
      (by have := hel.2.1; omega) v (le_of_lt hv.1) hv.2).symm
  rw [hE.iteratedDeriv_eq t, iteratedDeriv_eval]

/-- Non-vacuity: uniform quadratic knots. -/
example : SortedKnots 7 (fun i : Int => (i:ℝ)) ∧ IsElement (2:Nat) 7 (fun i : Int => (i:ℝ)) 3 := by
  refine ⟨fun i _ _ => by push_cast; linarith, by norm_num, by norm_num, by norm_num⟩

end PetIGA.Bsp
