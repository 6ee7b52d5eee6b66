import Verif.Lemmas.Continuity
import Verif.Props.Integrate
import Verif.Props.Coords
/-
Integration by parts over the elements of a direction, for the sums of a quadrature rule.
-/
set_option linter.unusedSectionVars false
namespace PetIGA.Bsp
open PetIGA.Spec Polynomial
variable {K : Type} [Field K]

/-- At the left end of an open knot vector only the first B-spline does not vanish. -/
theorem piece_start (U : Int → K) (k : Int) (ξ : K) : ∀ (q : Nat) (i : Int), (∀ j, i ≤ j → j ≤ k → U j = ξ) → k - q < i →
    (piece U k q i).eval ξ = 0
  | 0, i, _, h => by rw [piece_zero U k 0 i (by push_cast at h ⊢; omega)]; simp
  | q+1, i, hU, h => by
    push_cast at h
    rw [piece_succ]
    have i2 := piece_start U k ξ q (i+1) (fun j h1 h2 => hU j (by omega) h2) (by omega)
    simp only [eval_add, eval_mul, i2, mul_zero, add_zero]
    by_cases hi : i ≤ k
    · simp [hU i (le_refl _) hi]
    · rw [piece_zero U k q i (by omega)]; simp

/-- At the right end of an open knot vector only the last B-spline does not vanish. -/
theorem piece_end (U : Int → K) (k : Int) (ξ : K) : ∀ (q : Nat) (i : Int), (∀ j, k + 1 ≤ j → j ≤ i + q + 1 → U j = ξ) → i < k →
    (piece U k q i).eval ξ = 0
  | 0, i, _, h => by rw [piece_zero U k 0 i (by push_cast; omega)]; simp
  | q+1, i, hU, h => by
    push_cast at hU
    rw [piece_succ]
    have i1 := piece_end U k ξ q i (fun j h1 h2 => hU j h1 (by omega)) h
    simp only [eval_add, eval_mul, i1, mul_zero, zero_add]
    by_cases hi : k + 1 ≤ i + q + 2
    · simp [hU (i+q+2) hi (by omega)]
    · rw [piece_zero U k q (i+1) (by omega)]; simp

end PetIGA.Bsp

namespace PetIGA.Itg
open PetIGA.Quad PetIGA.Drv PetIGA.Spec PetIGA.Ax PetIGA.Lay PetIGA.Asm PetIGA.Rule PetIGA.Grid PetIGA.Part
open Polynomial

/-- The knots between consecutive elements coincide. -/
theorem flat_between {ax : Axis ℝ} (h : WF ax) {e : Int} (h0 : 0 ≤ e) (h1 : e + 1 < ax.nel) :
    ∀ j, sp ax e < j → j ≤ sp ax (e+1) → ax.U j = ax.U (sp ax e + 1) := by
  have hp := h.legal.degree
  have hm := h.legal.enough
  obtain ⟨a1, a2, a3⟩ := sp_elem h.toPreWF h0 (by omega)
  obtain ⟨b1, b2, b3⟩ := sp_elem h.toPreWF (i := e+1) (by omega) h1
  have key : ∀ n : Nat, sp ax e + 1 + n ≤ sp ax (e+1) → ax.U (sp ax e + 1 + n) = ax.U (sp ax e + 1) := by
    intro n
    induction n with
    | zero => intro _; simp
    | succ n ih =>
      intro hn
      push_cast at hn ⊢
      rw [← ih (by omega)]
      have hs := h.legal.sorted (sp ax e + 1 + n) (by omega) (by omega)
      rcases lt_or_eq_of_le hs with hl | hl
      · obtain ⟨i, i0, i1, i2⟩ := mem_sp h.toPreWF (k := sp ax e + 1 + n) ⟨by omega, by omega, hl⟩
        exfalso
        rcases lt_trichotomy i e with c | c | c
        · have := sp_lt h.toPreWF i0 c (by omega); omega
        · subst c; omega
        · have := sp_le h.toPreWF (i := e+1) (j := i) (by omega) (by omega) i1; omega
      · rw [hl]; congr 1; ring
  intro j j0 j1
  have := key (j - sp ax e - 1).toNat (by omega)
  rwa [show sp ax e + 1 + ((j - sp ax e - 1).toNat : Int) = j by omega] at this

/-- The end knots are repeated: `U_1 = … = U_p` and `U_{m-p} = … = U_{m-1}`. -/
def Clamped (ax : Axis ℝ) : Prop := ax.U 1 = ax.U ax.p ∧ ax.U (ax.m - ax.p) = ax.U (ax.m - 1)

theorem clamped_ends {ax : Axis ℝ} (h : WF ax) (hc : Clamped ax) : 1 ≤ ax.nel ∧ sp ax 0 = ax.p ∧ sp ax (ax.nel - 1) = ax.m - ax.p - 1 ∧
    (∀ j, 1 ≤ j → j ≤ ax.p → ax.U j = ax.U ax.p) ∧ (∀ j, ax.m - ax.p ≤ j → j ≤ ax.m - 1 → ax.U j = ax.U (ax.m - ax.p)) := by
  have hp := h.legal.degree
  have hm := h.legal.enough
  have hs := h.legal.sorted
  obtain ⟨c1, c2⟩ := hc
  have hm2 : 2 * ax.p + 1 ≤ ax.m := by omega
  have f1 : ax.U ax.p < ax.U (ax.p+1) := by
    have := h.legal.mult 1 (by omega) (by omega)
    rw [c1, add_comm] at this; exact this
  have f2 : ax.U (ax.m-ax.p-1) < ax.U (ax.m-ax.p) := by
    have := h.legal.mult (ax.m - ax.p - 1) (by omega) (by omega)
    rw [show ax.m - ax.p - 1 + ax.p = ax.m - 1 by ring, ← c2] at this; exact this
  have hn : 1 ≤ ax.nel := by
    obtain ⟨i, i0, i1, -⟩ := mem_sp h.toPreWF (k := ax.p) ⟨le_refl _, by omega, f1⟩
    omega
  refine ⟨hn, sp_first h.toPreWF hn f1, sp_last h.toPreWF hn f2, fun j j0 j1 => ?_, fun j j0 j1 => ?_⟩
  · have a := Ax.sorted_mono hs (i := 1) (j := j) (by omega) (by omega) (by omega)
    have b := Ax.sorted_mono hs (i := j) (j := ax.p) (by omega) (by omega) (by omega)
    rw [c1] at a
    exact le_antisymm b a
  · have a := Ax.sorted_mono hs (i := ax.m - ax.p) (j := j) (by omega) (by omega) (by omega)
    have b := Ax.sorted_mono hs (i := j) (j := ax.m - 1) (by omega) (by omega) (by omega)
    rw [← c2] at b
    exact le_antisymm b a

/-- `Σ_e Σ_q F_e(x_q) J w`: the integral over a direction, by the rule. -/
noncomputable def lineSum {V : Type} (δ : Direction V) (F : Int → ℝ[X]) : ℝ :=
  ((List.range δ.ax.nel.toNat).map fun (e : Nat) => (((δ.X.zip δ.W).map (ptOf δ (sp δ.ax e))).map fun p => (F e).eval p.x * (p.J * p.w)).sum).sum

theorem lineSum_add {V : Type} (δ : Direction V) (F G : Int → ℝ[X]) : lineSum δ (fun e => F e + G e) = lineSum δ F + lineSum δ G := by
  unfold lineSum
  rw [← List.sum_map_add]
  congr 1; refine List.map_congr_left fun e _ => ?_
  rw [← List.sum_map_add]
  congr 1; refine List.map_congr_left fun p _ => ?_
  rw [eval_add, add_mul]

theorem telescope (f : Nat → ℝ) (g : Nat → ℝ) : ∀ n, (∀ e, e + 1 < n → f e = g (e+1)) → 1 ≤ n →
    ((List.range n).map fun e => f e - g e).sum = f (n-1) - g 0
  | 0, _, h => by omega
  | 1, _, _ => by simp
  | n+2, h, _ => by
    rw [List.range_succ, List.map_append, List.sum_append, telescope f g (n+1) (fun e he => h e (by omega)) (by omega)]
    have := h n (by omega)
    simp only [List.map_cons, List.map_nil, List.sum_cons, List.sum_nil, Nat.add_sub_cancel]
    rw [this]
    simp

/-- Integration by parts with the `z`-th B-spline, neither the first nor the last: there are no terms at the ends. -/
theorem by_parts {V : Type} (δ : Direction V) (h : WF δ.ax) (hc : Clamped δ.ax) (hx : ExactRule (2 * δ.ax.p.toNat - 2) δ.X δ.W)
    (P : ℝ[X]) (hP : P.natDegree ≤ δ.ax.p.toNat) {z : Int} (z0 : 0 < z) (z1 : z < δ.ax.m - δ.ax.p - 1) :
    lineSum δ (fun e => derivative (piece δ.ax.U (sp δ.ax e) δ.ax.p.toNat z) * derivative P) +
      lineSum δ (fun e => piece δ.ax.U (sp δ.ax e) δ.ax.p.toNat z * derivative (derivative P)) = 0 := by
  have hp := h.legal.degree
  obtain ⟨n1, s0, s1, f0, f1⟩ := clamped_ends h hc
  rw [← lineSum_add]
  set Q : Int → ℝ[X] := fun e => piece δ.ax.U (sp δ.ax e) δ.ax.p.toNat z * derivative P with hQ
  have e1 : (fun e : Int => derivative (piece δ.ax.U (sp δ.ax e) δ.ax.p.toNat z) * derivative P +
      piece δ.ax.U (sp δ.ax e) δ.ax.p.toNat z * derivative (derivative P)) = fun e => derivative (Q e) := by
    funext e; rw [hQ]; simp only [derivative_mul]
  rw [e1]
  unfold lineSum
  have e2 : ∀ e : Nat, (((δ.X.zip δ.W).map (ptOf δ (sp δ.ax e))).map fun p => (derivative (Q e)).eval p.x * (p.J * p.w)).sum =
      (Q e).eval (δ.ax.U (sp δ.ax e + 1)) - (Q e).eval (δ.ax.U (sp δ.ax e)) := by
    intro e
    rw [line_exact δ hx (sp δ.ax e) (derivative (Q e))]
    · rw [intervalIntegral.integral_eq_sub_of_hasDerivAt (fun x _ => (Q e).hasDerivAt x)]
      exact ((derivative (Q e)).continuous).intervalIntegrable _ _
    · have d1 : (piece δ.ax.U (sp δ.ax e) δ.ax.p.toNat z).natDegree ≤ δ.ax.p.toNat :=
        natDegree_le_of_degree_le (Bsp.piece_natDegree _ _ _ _)
      have d2 := natDegree_derivative_le P
      have d3 := natDegree_derivative_le (Q e)
      have d4 : (Q e).natDegree ≤ δ.ax.p.toNat + (δ.ax.p.toNat - 1) := by
        rw [hQ]
        exact (natDegree_mul_le).trans (by omega)
      omega
  simp only [e2]
  rw [telescope (fun e : Nat => (Q e).eval (δ.ax.U (sp δ.ax e + 1))) (fun e : Nat => (Q e).eval (δ.ax.U (sp δ.ax e)))]
  · have g0 : (Q (0:Nat)).eval (δ.ax.U (sp δ.ax (0:Nat))) = 0 := by
      rw [hQ]
      simp only [Nat.cast_zero, s0, eval_mul]
      rw [Bsp.piece_start _ _ _ _ _ (fun j j0 j1 => f0 j (by omega) j1) (by omega), zero_mul]
    have g1 : (Q ((δ.ax.nel.toNat - 1 : Nat):Int)).eval (δ.ax.U (sp δ.ax ((δ.ax.nel.toNat - 1 : Nat):Int) + 1)) = 0 := by
      rw [hQ]
      rw [show ((δ.ax.nel.toNat - 1 : Nat):Int) = δ.ax.nel - 1 by omega]
      simp only [s1, eval_mul]
      rw [show δ.ax.m - δ.ax.p - 1 + 1 = δ.ax.m - δ.ax.p by ring]
      rw [Bsp.piece_end _ _ _ _ _ (fun j j0 j1 => f1 j (by omega) (by omega)) (by omega), zero_mul]
    rw [g0, g1, sub_zero]
  · intro e he
    have hfl := flat_between h (e := (e:Int)) (by omega) (by omega)
    obtain ⟨a1, a2, a3⟩ := sp_elem h.toPreWF (i := (e:Int)) (by omega) (by omega)
    obtain ⟨b1, b2, b3⟩ := sp_elem h.toPreWF (i := (e:Int)+1) (by omega) (by omega)
    have hlt := sp_lt h.toPreWF (i := (e:Int)) (j := e + 1) (by omega) (by omega) (by omega)
    have hst := Crd.sp_step h.toPreWF (e := (e:Int)) (by omega) (by omega)
    have hU := hfl (sp δ.ax (e+1)) hlt (le_refl _)
    push_cast
    rw [hU, hQ]
    simp only [eval_mul]
    rw [Bsp.jump_zero δ.ax.U (sp δ.ax e) (sp δ.ax (e+1)) (δ.ax.U (sp δ.ax e + 1)) hfl a3.ne (by rw [← hU]; exact b3.ne')
      hlt.le _ (by omega)]
  · omega

end PetIGA.Itg
