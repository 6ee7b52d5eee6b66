import Verif.Spec.Tables
import Verif.Lemmas.Smooth
import Mathlib.Tactic.FieldSimp
import Mathlib.Tactic.LinearCombination
/-
C40: the rational tables are the derivatives of the quotient.
-/
set_option linter.unusedSectionVars false
namespace PetIGA.Ker
open PetIGA.Spec Finset
open scoped ContDiff

variable {d : Nat} {Ω : Set (Fin d → ℝ)} {ι : Type} [Fintype ι]

theorem smooth_sum {f : ι → (Fin d → ℝ) → ℝ} (h : ∀ a, Smooth Ω (f a)) : Smooth Ω (fun y => ∑ a, f a y) :=
  ContDiffOn.sum (fun a _ => h a)

theorem smooth_cmul {f : (Fin d → ℝ) → ℝ} (c : ℝ) (h : Smooth Ω f) : Smooth Ω (fun y => c * f y) :=
  ContDiffOn.mul contDiffOn_const h

theorem smooth_quotient {N : ι → (Fin d → ℝ) → ℝ} (hN : ∀ a, Smooth Ω (N a)) (W : ι → ℝ)
    (hW : ∀ y ∈ Ω, ∑ b, W b * N b y ≠ 0) (a : ι) : Smooth Ω (quotient W N a) :=
  ContDiffOn.div (smooth_cmul _ (hN a)) (smooth_sum fun b => smooth_cmul _ (hN b)) hW

/-- What the relation `r w = n` gives for the derivatives up to order three, in any algebra with derivations. -/
theorem leibniz3 {A : Type} [CommRing A] [Algebra ℝ A] (D : Fin d → Derivation ℝ A A) (r w n : A) (h : r * w = n)
    (i j k : Fin d) :
    D i r * w + r * D i w = D i n ∧
    D i (D j r) * w + D i r * D j w + D j r * D i w + r * D i (D j w) = D i (D j n) ∧
    D i (D j (D k r)) * w + D j (D k r) * D i w + D i (D k r) * D j w + D i (D j r) * D k w
      + D i r * D j (D k w) + D j r * D i (D k w) + D k r * D i (D j w) + r * D i (D j (D k w))
      = D i (D j (D k n)) := by
  subst h
  refine ⟨?_, ?_, ?_⟩ <;> simp only [Derivation.leibniz, map_add, smul_eq_mul] <;> ring

/-- **C40**, part proved: when the tables hold the values and derivatives up to order `r ≤ 3` of arbitrary smooth
functions, `Rationalize` called with a derivative order `≥ r` leaves in them the values and derivatives up to
order `r` of the quotients `w_a N_a / ∑ w_b N_b`, wherever the denominator does not vanish.  Missing: order 4, for
which the routine stores zeros (`C40_rational_refuted`). -/
theorem C40_rational_partial (hΩ : IsOpen Ω) (N : ι → (Fin d → ℝ) → ℝ) (hN : ∀ a, Smooth Ω (N a)) (W : ι → ℝ)
    (hW : ∀ y ∈ Ω, ∑ b, W b * N b y ≠ 0) (x : Fin d → ℝ) (hx : x ∈ Ω) (order : Int) (r : Nat) (hr : r ≤ 3)
    (ho : (r : Int) ≤ order) (T : Tab ℝ d ι) (hT : Holds r T N x) :
    Holds r (rationalize order W T) (quotient W N) x := by
  set n : ι → Sm Ω := fun a => mk (N a) (hN a) with hn
  set q : ι → Sm Ω := fun a => mk (quotient W N a) (smooth_quotient hN W hW a) with hq
  set w : Sm Ω := ∑ b, W b • n b with hw
  have hrel : ∀ a, q a * w = W a • n a := by
    intro a
    apply sm_ext
    intro y
    rw [map_mul, hw, map_sum, map_smul]
    simp only [map_smul, hq, hn, ev_mk, quotient, smul_eq_mul]
    exact div_mul_cancel₀ _ (hW y y.2)
  have L := fun a i j k => leibniz3 (D hΩ) (q a) w (W a • n a) (hrel a) i j k
  have hw0 : ev ⟨x, hx⟩ w ≠ 0 := by
    rw [hw, map_sum]
    simp only [map_smul, hn, ev_mk, smul_eq_mul]
    exact hW x hx
  have hv0 : ev ⟨x, hx⟩ w = ∑ b, W b * T.t0 b := by
    rw [hw, map_sum]
    simp only [map_smul, hn, ev_mk, smul_eq_mul, hT.1]
  have eq0 : ∀ a, ev ⟨x, hx⟩ (q a) = W a * T.t0 a / ∑ b, W b * T.t0 b := by
    intro a; simp only [hq, ev_mk, quotient, hT.1]
  have F0 : (rationalize order W T).t0 = fun a => ev ⟨x, hx⟩ (q a) := by
    funext a; rw [eq0]; unfold rationalize; dsimp only; split_ifs <;> rfl
  obtain ⟨h0, h1, h2, h3, h4⟩ := hT
  have D1 : ∀ i, 1 ≤ r → ev ⟨x, hx⟩ (D hΩ i w) = ∑ b, W b * T.t1 i b := by
    intro i h
    rw [hw, map_sum, map_sum]
    simp only [map_smul, Derivation.map_smul, hn, D_mk, ev_mk, smul_eq_mul, h1 h]
  have D2 : ∀ i j, 2 ≤ r → ev ⟨x, hx⟩ (D hΩ i (D hΩ j w)) = ∑ b, W b * T.t2 i j b := by
    intro i j h
    rw [hw, map_sum, map_sum, map_sum]
    simp only [map_smul, Derivation.map_smul, hn, D_mk, ev_mk, smul_eq_mul, h2 h]
  have D3 : ∀ i j k, 3 ≤ r → ev ⟨x, hx⟩ (D hΩ i (D hΩ j (D hΩ k w))) = ∑ b, W b * T.t3 i j k b := by
    intro i j k h
    rw [hw, map_sum, map_sum, map_sum, map_sum]
    simp only [map_smul, Derivation.map_smul, hn, D_mk, ev_mk, smul_eq_mul, h3 h]
  have R1 : 1 ≤ r → ∀ i a, (rationalize order W T).t1 i a = ev ⟨x, hx⟩ (D hΩ i (q a)) := by
    intro h i a
    have o1 : ¬ order < 1 := by omega
    have e : (rationalize order W T).t1 i a
        = (W a * T.t1 i a - W a * T.t0 a / (∑ b, W b * T.t0 b) * ∑ b, W b * T.t1 i b) / ∑ b, W b * T.t0 b := by
      unfold rationalize; dsimp only; rw [if_neg o1]; split_ifs <;> rfl
    rw [e, ← eq0, ← hv0, ← D1 i h, div_eq_iff hw0]
    have l := congrArg (ev ⟨x, hx⟩) (L a i i i).1
    simp only [map_add, map_mul, map_smul, Derivation.map_smul, hn, D_mk, ev_mk, smul_eq_mul] at l
    rw [h1 h]
    linear_combination -l
  have R2 : 2 ≤ r → ∀ i j a, (rationalize order W T).t2 i j a = ev ⟨x, hx⟩ (D hΩ i (D hΩ j (q a))) := by
    intro h i j a
    have o1 : ¬ order < 1 := by omega
    have o2 : ¬ order < 2 := by omega
    have e : (rationalize order W T).t2 i j a
        = (W a * T.t2 i j a - (rationalize order W T).t0 a * (∑ b, W b * T.t2 i j b)
          - (rationalize order W T).t1 i a * (∑ b, W b * T.t1 j b)
          - (rationalize order W T).t1 j a * (∑ b, W b * T.t1 i b)) / ∑ b, W b * T.t0 b := by
      unfold rationalize; dsimp only; rw [if_neg o1, if_neg o2]; split_ifs <;> rfl
    rw [e, F0, R1 (by omega), R1 (by omega), ← hv0, ← D1 i (by omega), ← D1 j (by omega), ← D2 i j h, div_eq_iff hw0]
    have l := congrArg (ev ⟨x, hx⟩) (L a i j j).2.1
    simp only [map_add, map_mul, map_smul, Derivation.map_smul, hn, D_mk, ev_mk, smul_eq_mul] at l
    rw [h2 h]
    linear_combination -l
  have R3 : 3 ≤ r → ∀ i j k a, (rationalize order W T).t3 i j k a = ev ⟨x, hx⟩ (D hΩ i (D hΩ j (D hΩ k (q a)))) := by
    intro h i j k a
    have o1 : ¬ order < 1 := by omega
    have o2 : ¬ order < 2 := by omega
    have o3 : ¬ order < 3 := by omega
    have e : (rationalize order W T).t3 i j k a
        = (W a * T.t3 i j k a - (rationalize order W T).t0 a * (∑ b, W b * T.t3 i j k b)
          - (rationalize order W T).t1 i a * (∑ b, W b * T.t2 j k b)
          - (rationalize order W T).t1 j a * (∑ b, W b * T.t2 i k b)
          - (rationalize order W T).t1 k a * (∑ b, W b * T.t2 i j b)
          - (rationalize order W T).t2 j k a * (∑ b, W b * T.t1 i b)
          - (rationalize order W T).t2 i k a * (∑ b, W b * T.t1 j b)
          - (rationalize order W T).t2 i j a * (∑ b, W b * T.t1 k b)) / ∑ b, W b * T.t0 b := by
      unfold rationalize; dsimp only; rw [if_neg o1, if_neg o2, if_neg o3]; split_ifs <;> rfl
    rw [e, F0, R1 (by omega), R1 (by omega), R1 (by omega), R2 (by omega), R2 (by omega), R2 (by omega), ← hv0,
      ← D1 i (by omega), ← D1 j (by omega), ← D1 k (by omega), ← D2 j k (by omega), ← D2 i k (by omega),
      ← D2 i j (by omega), ← D3 i j k h, div_eq_iff hw0]
    have l := congrArg (ev ⟨x, hx⟩) (L a i j k).2.2
    simp only [map_add, map_mul, map_smul, Derivation.map_smul, hn, D_mk, ev_mk, smul_eq_mul] at l
    rw [h3 h]
    linear_combination -l
  refine ⟨fun a => by rw [F0]; rfl, fun h i a => ?_, fun h i j a => ?_, fun h i j k a => ?_, fun h => absurd h (by omega)⟩
  · rw [R1 h]; simp only [hq, D_mk, ev_mk]
  · rw [R2 h]; simp only [hq, D_mk, ev_mk]
  · rw [R3 h]; simp only [hq, D_mk, ev_mk]

/-- The tables above the requested order are not touched. -/
theorem C40_untouched (order : Int) (W : ι → ℝ) (T : Tab ℝ d ι) :
    (order < 1 → (rationalize order W T).t1 = T.t1) ∧ (order < 2 → (rationalize order W T).t2 = T.t2) ∧
    (order < 3 → (rationalize order W T).t3 = T.t3) ∧ (order < 4 → (rationalize order W T).t4 = T.t4) := by
  unfold rationalize
  dsimp only
  refine ⟨?_, ?_, ?_, ?_⟩ <;> intro h <;> split_ifs <;> first | rfl | omega

/-- The tables that hold the derivatives of given functions. -/
noncomputable def tabOf (f : ι → (Fin d → ℝ) → ℝ) (x : Fin d → ℝ) : Tab ℝ d ι where
  t0 a := f a x
  t1 i a := pd i (f a) x
  t2 i j a := pd i (pd j (f a)) x
  t3 i j k a := pd i (pd j (pd k (f a))) x
  t4 i j k l a := pd i (pd j (pd k (pd l (f a)))) x

theorem holds_tabOf (r : Nat) (f : ι → (Fin d → ℝ) → ℝ) (x : Fin d → ℝ) : Holds r (tabOf f x) f x :=
  ⟨fun _ => rfl, fun _ _ _ => rfl, fun _ _ _ _ => rfl, fun _ _ _ _ _ => rfl, fun _ _ _ _ _ _ => rfl⟩

/-- The two functions `1` and `x` on the line. -/
def exN : Fin 2 → (Fin 1 → ℝ) → ℝ := fun a y => if a = 0 then 1 else y 0

theorem exN_smooth (Ω : Set (Fin 1 → ℝ)) (a : Fin 2) : Smooth Ω (exN a) := by
  unfold exN
  split_ifs
  · exact contDiffOn_const
  · exact (contDiff_apply ℝ ℝ (0 : Fin 1)).contDiffOn

/-- The half line `0 < 1 + x`. -/
def exΩ : Set (Fin 1 → ℝ) := {y | 0 < 1 + y 0}

theorem exΩ_open : IsOpen exΩ := isOpen_lt continuous_const (continuous_const.add (continuous_apply 0))

theorem exN_sum (y : Fin 1 → ℝ) : ∑ b, (fun _ => 1 : Fin 2 → ℝ) b * exN b y = 1 + y 0 := by
  rw [Fin.sum_univ_two]; simp [exN]

theorem exΩ_ne (y : Fin 1 → ℝ) (h : y ∈ exΩ) : ∑ b, (fun _ => 1 : Fin 2 → ℝ) b * exN b y ≠ 0 := by
  rw [exN_sum]; exact ne_of_gt h

theorem exN_fourth :
    pd 0 (pd 0 (pd 0 (pd 0 (quotient (fun _ => 1) exN 0)))) (fun _ => 0) = 24 := by
  have hz : (fun _ => 0 : Fin 1 → ℝ) ∈ exΩ := by simp [exΩ]
  set q : Sm exΩ := mk (quotient (fun _ => 1) exN 0) (smooth_quotient (exN_smooth _) _ exΩ_ne 0) with hq
  have hws : Smooth exΩ (fun y => 1 + y 0) :=
    ContDiffOn.add contDiffOn_const (contDiff_apply ℝ ℝ (0 : Fin 1)).contDiffOn
  set w : Sm exΩ := mk (fun y => 1 + y 0) hws with hw
  have hqw : q * w = 1 := sm_ext fun y => by
    rw [map_mul, map_one, hq, hw, ev_mk, ev_mk]
    unfold quotient
    rw [exN_sum]
    have : (1 : ℝ) + y.1 0 ≠ 0 := ne_of_gt y.2
    simp only [exN, if_pos]
    field_simp
  have hDw : D exΩ_open 0 w = 1 := sm_ext fun y => by
    rw [hw, D_mk, ev_mk, map_one]
    unfold pd
    simp only [Function.update_self]
    exact HasDerivAt.deriv ((hasDerivAt_id (y.1 0)).const_add 1)
  have k1 : D exΩ_open 0 q * w + q = 0 := by
    have h := congrArg (D exΩ_open 0) hqw
    rw [Derivation.leibniz, Derivation.map_one_eq_zero, hDw, smul_eq_mul, smul_eq_mul] at h
    linear_combination h
  have step : ∀ (c : Sm exΩ) (p p' : Sm exΩ), D exΩ_open 0 c = 0 → p' * w + c * p = 0 → p' = D exΩ_open 0 p →
      D exΩ_open 0 p' * w + (c + 1) * p' = 0 := by
    intro c p p' hc h hp
    have h := congrArg (D exΩ_open 0) h
    rw [map_add, Derivation.leibniz, Derivation.leibniz, hDw, hc, ← hp, map_zero] at h
    simp only [smul_eq_mul] at h
    linear_combination h
  have k2 := step 1 q _ (Derivation.map_one_eq_zero _) (by linear_combination k1) rfl
  have c2 : D exΩ_open 0 (1 + 1 : Sm exΩ) = 0 := by simp
  have k3 := step _ _ _ c2 k2 rfl
  have c3 : D exΩ_open 0 (1 + 1 + 1 : Sm exΩ) = 0 := by simp
  have k4 := step _ _ _ c3 k3 rfl
  have e := fun (t : Sm exΩ) (h : t = 0) => congrArg (ev ⟨fun _ => 0, hz⟩) h
  have e1 := e _ k1
  have e2 := e _ k2
  have e3 := e _ k3
  have e4 := e _ k4
  simp only [map_add, map_mul, map_one, map_zero] at e1 e2 e3 e4
  have w1 : ev ⟨fun _ => 0, hz⟩ w = 1 := by rw [hw, ev_mk]; simp
  have q1 : ev ⟨fun _ => 0, hz⟩ q = 1 := by
    rw [hq, ev_mk]; unfold quotient; rw [exN_sum]; simp [exN]
  rw [w1] at e1 e2 e3 e4
  rw [q1] at e1
  have h4 : ev ⟨fun _ => 0, hz⟩ (D exΩ_open 0 (D exΩ_open 0 (D exΩ_open 0 (D exΩ_open 0 q)))) = 24 := by
    linear_combination e4 - 4 * e3 + 12 * e2 - 24 * e1
  rw [hq] at h4
  simpa only [D_mk, ev_mk] using h4

/-- **C40 fails at order 4**: with the functions `1` and `x` and unit weights, at `x = 0`, the tables hold all the
derivatives up to order 4, the routine is asked for order 4, and the fourth derivative of `1/(1+x)`, which is 24, is
returned as 0. -/
theorem C40_rational_refuted :
    Holds 4 (tabOf exN (fun _ => 0)) exN (fun _ => 0) ∧
    (∀ y ∈ exΩ, ∑ b, (fun _ => 1 : Fin 2 → ℝ) b * exN b y ≠ 0) ∧
    (rationalize 4 (fun _ => 1) (tabOf exN (fun _ => 0))).t4 0 0 0 0 0 = 0 ∧
    pd 0 (pd 0 (pd 0 (pd 0 (quotient (fun _ => 1) exN 0)))) (fun _ => 0) = 24 :=
  ⟨holds_tabOf _ _ _, exΩ_ne, rfl, exN_fourth⟩

/-- Non-vacuity of C40: the same functions at the same point, order 3. -/
example : Holds 3 (rationalize 3 (fun _ => 1) (tabOf exN (fun _ => 0))) (quotient (fun _ => 1) exN) (fun _ => 0) :=
  C40_rational_partial exΩ_open exN (exN_smooth _) _ exΩ_ne _ (by simp [exΩ]) 3 3 (by omega) (by omega) _
    (holds_tabOf _ _ _)

end PetIGA.Ker
