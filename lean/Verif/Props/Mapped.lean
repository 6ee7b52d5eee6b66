import Verif.Props.Det
import Verif.Props.Rational
import Mathlib.Analysis.Calculus.FDeriv.Pi
import Mathlib.Analysis.Calculus.InverseFunctionTheorem.ContDiff
import Mathlib.Topology.Algebra.Module.FiniteDimension
import Mathlib.LinearAlgebra.Matrix.NonsingularInverse
import Mathlib.LinearAlgebra.Matrix.ToLin
import Mathlib.Algebra.BigOperators.Group.Finset.Sigma
/-
C41: the shape function tables hold the derivatives with respect to the physical coordinates.
-/
set_option linter.unusedSectionVars false
namespace PetIGA.Ker
open PetIGA.Spec Finset
open scoped ContDiff

/-! ### Algebra -/
section Algebra
variable {d : Nat} {A : Type} [CommRing A] [Algebra ℝ A]

/-- `E2(j,i,c)` as computed by `InverseMap`. -/
def e2 (E1 : Fin d → Fin d → A) (X2 : Fin d → Fin d → Fin d → A) (j i c : Fin d) : A :=
  ∑ k, ∑ a, ∑ b, - (X2 b a k * E1 i a * E1 j b * E1 k c)

/-- `E3(k,j,i,e)` as computed by `InverseMap`. -/
def e3 (E1 : Fin d → Fin d → A) (E2 : Fin d → Fin d → Fin d → A) (X2 : Fin d → Fin d → Fin d → A)
    (X3 : Fin d → Fin d → Fin d → Fin d → A) (k j i e : Fin d) : A :=
  ∑ a, ∑ b, ∑ l, ((∑ c, - (X3 c b a l * E1 i a * E1 j b * E1 k c * E1 l e))
      - X2 b a l * (E1 i a * E2 k j b + E1 j b * E2 k i a + E1 k b * E2 j i a) * E1 l e)

variable (D : Fin d → Derivation ℝ A A) (E : Fin d → Fin d → A) (X : Fin d → A)

/-- The derivation `∂/∂x_i = ∑_a E(i,a) ∂_a`. -/
noncomputable def nab (i : Fin d) : Derivation ℝ A A := ∑ a, E i a • D a

theorem nab_apply (i : Fin d) (f : A) : nab D E i f = ∑ a, E i a * D a f := by
  unfold nab
  have h := congrFun (map_sum (Derivation.coeFnAddMonoidHom (R := ℝ) (A := A) (M := A)) (fun a => E i a • D a) univ) f
  rw [Finset.sum_apply] at h
  exact h

variable (hEJ : ∀ i k, ∑ a, E i a * D a (X k) = if i = k then 1 else 0)
  (hJE : ∀ a c, ∑ k, D a (X k) * E k c = if a = c then 1 else 0)

include hJE in
theorem solve_right (v u : Fin d → A) (h : ∀ k, ∑ a, v a * D a (X k) = u k) (c : Fin d) :
    v c = ∑ k, u k * E k c := by
  simp only [← h, Finset.sum_mul]
  rw [Finset.sum_comm]
  have e : ∀ a, ∑ k, v a * D a (X k) * E k c = if a = c then v a else 0 := by
    intro a
    have := hJE a c
    simp only [mul_assoc, ← Finset.mul_sum, this]
    split_ifs <;> simp
  simp only [e, Finset.sum_ite_eq', Finset.mem_univ, if_true]

include hEJ in
theorem grad_of_chain (f : A) (g : Fin d → A) (h : ∀ a, D a f = ∑ i, g i * D a (X i)) (i : Fin d) :
    g i = nab D E i f := by
  rw [nab_apply]
  simp only [h, Finset.mul_sum]
  rw [Finset.sum_comm]
  have e : ∀ k, ∑ a, E i a * (g k * D a (X k)) = if i = k then g k else 0 := by
    intro k
    have := hEJ i k
    have e1 : ∀ a, E i a * (g k * D a (X k)) = g k * (E i a * D a (X k)) := fun a => by ring
    simp only [e1, ← Finset.mul_sum, this]
    split_ifs <;> simp
  simp only [e, Finset.sum_ite_eq, Finset.mem_univ, if_true]

include hEJ in
theorem nab_EJ (j i k : Fin d) :
    ∑ a, nab D E j (E i a) * D a (X k) = - ∑ a, E i a * nab D E j (D a (X k)) := by
  have h := congrArg (nab D E j) (hEJ i k)
  rw [map_sum] at h
  have z : nab D E j (if i = k then (1 : A) else 0) = 0 := by split_ifs <;> simp
  rw [z] at h
  simp only [Derivation.leibniz, smul_eq_mul, Finset.sum_add_distrib] at h
  rw [eq_neg_iff_add_eq_zero, ← h, add_comm]
  congr 1
  exact Finset.sum_congr rfl fun a _ => mul_comm _ _

include hEJ hJE in
theorem nab_E (j i c : Fin d) :
    nab D E j (E i c) = e2 E (fun b a k => D b (D a (X k))) j i c := by
  rw [solve_right D E X hJE (fun a => nab D E j (E i a)) _ (fun k => nab_EJ D E X hEJ j i k) c]
  unfold e2
  refine Finset.sum_congr rfl fun k _ => ?_
  simp only [nab_apply, Finset.mul_sum, neg_mul, Finset.sum_mul, Finset.sum_neg_distrib]
  congr 1
  refine Finset.sum_congr rfl fun a _ => Finset.sum_congr rfl fun b _ => ?_
  ring

include hEJ hJE in
theorem nab_E2 (k j i e : Fin d) :
    nab D E k (e2 E (fun b a k => D b (D a (X k))) j i e) =
      e3 E (e2 E (fun b a k => D b (D a (X k)))) (fun b a k => D b (D a (X k)))
        (fun c b a k => D c (D b (D a (X k)))) k j i e := by
  have hE := nab_E D E X hEJ hJE
  rw [← hE]
  have key : ∀ l, ∑ a, nab D E k (nab D E j (E i a)) * D a (X l)
      = - ∑ a, (E i a * nab D E k (nab D E j (D a (X l))) + nab D E k (E i a) * nab D E j (D a (X l))
          + nab D E j (E i a) * nab D E k (D a (X l))) := by
    intro l
    have h := congrArg (nab D E k) (nab_EJ D E X hEJ j i l)
    rw [map_sum, map_neg, map_sum] at h
    simp only [Derivation.leibniz, smul_eq_mul, Finset.sum_add_distrib] at h
    rw [add_comm] at h
    rw [eq_neg_iff_add_eq_zero]
    simp only [Finset.sum_add_distrib]
    have c1 : ∑ a, nab D E k (nab D E j (E i a)) * D a (X l) = ∑ a, D a (X l) * nab D E k (nab D E j (E i a)) :=
      Finset.sum_congr rfl fun a _ => mul_comm _ _
    have c2 : ∑ a, nab D E k (E i a) * nab D E j (D a (X l)) = ∑ a, nab D E j (D a (X l)) * nab D E k (E i a) :=
      Finset.sum_congr rfl fun a _ => mul_comm _ _
    rw [c1, c2]
    linear_combination h
  rw [solve_right D E X hJE (fun a => nab D E k (nab D E j (E i a))) _ key e]
  unfold e3
  have hN2 : ∀ a l, nab D E k (nab D E j (D a (X l))) =
      ∑ b, ((∑ c, E j b * (E k c * D c (D b (D a (X l))))) + D b (D a (X l)) * e2 E (fun b a k => D b (D a (X k))) k j b) := by
    intro a l
    rw [nab_apply D E j, map_sum]
    refine Finset.sum_congr rfl fun b _ => ?_
    rw [Derivation.leibniz, smul_eq_mul, smul_eq_mul, hE, nab_apply, Finset.mul_sum]
  -- bring the sum over `l` to the front on the right
  have comm : ∀ g : Fin d → Fin d → Fin d → A, ∑ a, ∑ b, ∑ l, g a b l = ∑ l, ∑ a, ∑ b, g a b l := by
    intro g
    rw [Finset.sum_congr rfl fun a _ => Finset.sum_comm (f := fun b l => g a b l), Finset.sum_comm]
  rw [comm]
  refine Finset.sum_congr rfl fun l _ => ?_
  rw [neg_mul, Finset.sum_mul, ← Finset.sum_neg_distrib]
  refine Finset.sum_congr rfl fun a _ => ?_
  rw [hN2, hE, hE, nab_apply D E j, nab_apply D E k]
  simp only [Finset.mul_sum, Finset.sum_mul, ← Finset.sum_add_distrib, ← Finset.sum_neg_distrib, mul_add, add_mul, neg_add]
  refine Finset.sum_congr rfl fun b _ => ?_
  have c3 : ∑ c, - (D c (D b (D a (X l))) * E i a * E j b * E k c * E l e)
      = ∑ c, - (E i a * (E j b * (E k c * D c (D b (D a (X l))))) * E l e) :=
    Finset.sum_congr rfl fun c _ => by ring
  rw [c3]
  ring

theorem shape1 (i : Fin d) (f : A) : nab D E i f = ∑ a, D a f * E i a := by
  rw [nab_apply]
  exact Finset.sum_congr rfl fun a _ => mul_comm _ _

include hEJ hJE in
theorem shape2 (j i : Fin d) (f : A) : nab D E j (nab D E i f) =
    ∑ a, ((∑ b, D b (D a f) * E i a * E j b) + D a f * e2 E (fun b a k => D b (D a (X k))) j i a) := by
  rw [nab_apply D E i, map_sum]
  refine Finset.sum_congr rfl fun a _ => ?_
  rw [Derivation.leibniz, smul_eq_mul, smul_eq_mul, nab_E D E X hEJ hJE, nab_apply, Finset.mul_sum]
  congr 1
  exact Finset.sum_congr rfl fun b _ => by ring

include hEJ hJE in
theorem shape3 (k j i : Fin d) (f : A) : nab D E k (nab D E j (nab D E i f)) =
    ∑ a, ((∑ b, ((∑ c, D c (D b (D a f)) * E i a * E j b * E k c)
      + D b (D a f) * (E i a * e2 E (fun b a k => D b (D a (X k))) k j b
        + E j b * e2 E (fun b a k => D b (D a (X k))) k i a + E k b * e2 E (fun b a k => D b (D a (X k))) j i a)))
      + D a f * e3 E (e2 E (fun b a k => D b (D a (X k)))) (fun b a k => D b (D a (X k)))
        (fun c b a k => D c (D b (D a (X k)))) k j i a) := by
  rw [shape2 D E X hEJ hJE j i, map_sum]
  refine Finset.sum_congr rfl fun a _ => ?_
  rw [map_add, map_sum, Derivation.leibniz, smul_eq_mul, smul_eq_mul, nab_E2 D E X hEJ hJE, nab_apply, Finset.mul_sum]
  rw [add_comm (D a f * _), ← add_assoc, ← Finset.sum_add_distrib]
  congr 1
  refine Finset.sum_congr rfl fun b _ => ?_
  rw [Derivation.leibniz, Derivation.leibniz, nab_E D E X hEJ hJE, nab_E D E X hEJ hJE, nab_apply]
  simp only [smul_eq_mul, Finset.mul_sum, mul_add]
  have c3 : ∑ c, D c (D b (D a f)) * E i a * E j b * E k c = ∑ c, E j b * (E i a * (E k c * D c (D b (D a f)))) :=
    Finset.sum_congr rfl fun c _ => by ring
  rw [c3]
  ring

theorem map_e2 {B : Type} [CommRing B] (g : A →+* B) (E : Fin d → Fin d → A) (X2 : Fin d → Fin d → Fin d → A) (j i c : Fin d) :
    g (e2 E X2 j i c) = e2 (fun i a => g (E i a)) (fun b a k => g (X2 b a k)) j i c := by
  unfold e2
  simp only [map_sum, map_neg, map_mul]

theorem map_e3 {B : Type} [CommRing B] (g : A →+* B) (E : Fin d → Fin d → A) (E2 X2 : Fin d → Fin d → Fin d → A)
    (X3 : Fin d → Fin d → Fin d → Fin d → A) (k j i e : Fin d) :
    g (e3 E E2 X2 X3 k j i e) = e3 (fun i a => g (E i a)) (fun j i a => g (E2 j i a)) (fun b a k => g (X2 b a k))
      (fun c b a k => g (X3 c b a k)) k j i e := by
  unfold e3
  simp only [map_sum, map_neg, map_mul, map_sub, map_add]

end Algebra

/-! ### Analysis -/

variable {d : Nat} {Ω Ω' : Set (Fin d → ℝ)} {ι : Type}

/-- Chain rule for partial derivatives. -/
theorem pd_chain {X : Fin d → (Fin d → ℝ) → ℝ} {φ : (Fin d → ℝ) → ℝ} {y : Fin d → ℝ}
    (hX : ∀ l, DifferentiableAt ℝ (X l) y) (hφ : DifferentiableAt ℝ φ (fun l => X l y)) (a : Fin d) :
    pd a (fun z => φ (fun l => X l z)) y = ∑ i, pd i φ (fun l => X l y) * pd a (X i) y := by
  have hXv : HasFDerivAt (fun z l => X l z) (ContinuousLinearMap.pi fun l => fderiv ℝ (X l) y) y :=
    hasFDerivAt_pi.mpr fun l => (hX l).hasFDerivAt
  have hc := hφ.hasFDerivAt.comp y hXv
  have h1 : pd a (fun z => φ (fun l => X l z)) y = fderiv ℝ (fun z => φ (fun l => X l z)) y (Pi.single a 1) :=
    pd_eq_fderiv hc.differentiableAt a
  have h2 : fderiv ℝ (fun z => φ (fun l => X l z)) y
      = (fderiv ℝ φ (fun l => X l y)).comp (ContinuousLinearMap.pi fun l => fderiv ℝ (X l) y) := hc.fderiv
  rw [h1, h2, ContinuousLinearMap.comp_apply]
  conv_lhs => rw [pi_eq_sum_univ' ((ContinuousLinearMap.pi fun l => fderiv ℝ (X l) y) (Pi.single a 1))]
  rw [map_sum]
  refine Finset.sum_congr rfl fun i _ => ?_
  rw [map_smul, pd_eq_fderiv (hX i), pd_eq_fderiv hφ, smul_eq_mul, mul_comm]
  congr 2

theorem smooth_comp (hΩ : IsOpen Ω) {X : Fin d → (Fin d → ℝ) → ℝ} (hX : ∀ l, Smooth Ω (X l)) {φ : (Fin d → ℝ) → ℝ}
    (hφ : Smooth Ω' φ) (hm : ∀ y ∈ Ω, (fun l => X l y) ∈ Ω') : Smooth Ω (fun y => φ (fun l => X l y)) :=
  ContDiffOn.comp (g := φ) (f := fun y l => X l y) hφ (contDiffOn_pi.mpr fun l => hX l) hm

set_option maxHeartbeats 2000000 in
/-- The case in which the Jacobian is invertible on the whole of `Ω`. -/
theorem mapped_aux (hd : 1 ≤ d ∧ d ≤ 3) (hΩ : IsOpen Ω) (hΩ' : IsOpen Ω') (X : Fin d → (Fin d → ℝ) → ℝ)
    (hX : ∀ l, Smooth Ω (X l)) (hm : ∀ y ∈ Ω, (fun l => X l y) ∈ Ω') (φ : ι → (Fin d → ℝ) → ℝ)
    (hφ : ∀ n, Smooth Ω' (φ n)) (x : Fin d → ℝ) (hx : x ∈ Ω)
    (hdet : ∀ y ∈ Ω, (Matrix.of fun a l => pd a (X l) y).det ≠ 0)
    (order : Int) (r : Nat) (hr : r ≤ 3) (ho : (r : Int) ≤ order) (XT : Tab ℝ d (Fin d)) (hXT : Holds r XT X x)
    (NT : Tab ℝ d ι) (hNT : Holds r NT (fun n y => φ n (fun l => X l y)) x) (memE : ℝ × Tab ℝ d (Fin d)) (memR : Tab ℝ d ι) :
    (1 ≤ r → (inverseMap order XT memE).1 = (Matrix.of fun a l => pd a (X l) x).det) ∧
    Holds r (shapeFunctions order (inverseMap order XT memE).2 NT { memR with t0 := NT.t0 }) φ (fun l => X l x) := by
  obtain ⟨hX0, hX1, hX2, hX3, -⟩ := hXT
  obtain ⟨hN0, hN1, hN2, hN3, -⟩ := hNT
  set X' : Fin d → Sm Ω := fun l => mk (X l) (hX l) with hX'
  set J : Matrix (Fin d) (Fin d) (Sm Ω) := Matrix.of fun a l => D hΩ a (X' l) with hJ
  have evJ : ∀ y : Ω, J.map (ev y) = Matrix.of fun a l => pd a (X l) y := by
    intro y; ext a l
    simp only [hJ, hX', Matrix.map_apply, Matrix.of_apply, D_mk, ev_mk]
  have evdet : ∀ y : Ω, ev y J.det = (Matrix.of fun a l => pd a (X l) y).det := by
    intro y; rw [← evJ y]; exact RingHom.map_det (ev y).toRingHom J
  have hunit : IsUnit J.det := by
    have hs : Smooth Ω (fun y => (ext J.det.1 y)⁻¹) :=
      ContDiffOn.inv J.det.2 (fun y hy => by
        rw [ext_of_mem _ hy]
        have := hdet y hy
        rw [← evdet ⟨y, hy⟩] at this
        exact this)
    refine IsUnit.of_mul_eq_one (mk _ hs) (sm_ext fun y => ?_)
    rw [map_mul, map_one, ev_mk, ext_of_mem _ y.2]
    exact mul_inv_cancel₀ (by have := hdet y y.2; rw [← evdet y] at this; exact this)
  set E : Fin d → Fin d → Sm Ω := fun i a => J⁻¹ i a with hE
  have hEJ : ∀ i k, ∑ a, E i a * D hΩ a (X' k) = if i = k then 1 else 0 := by
    intro i k
    have := congrFun (congrFun (Matrix.nonsing_inv_mul J hunit) i) k
    rwa [Matrix.mul_apply, Matrix.one_apply] at this
  have hJE : ∀ a c, ∑ k, D hΩ a (X' k) * E k c = if a = c then 1 else 0 := by
    intro a c
    have := congrFun (congrFun (Matrix.mul_nonsing_inv J hunit) a) c
    rwa [Matrix.mul_apply, Matrix.one_apply] at this
  let X0 : Ω := ⟨x, hx⟩
  -- the functions of the physical coordinates pulled back
  have hcs : ∀ {ψ : (Fin d → ℝ) → ℝ}, Smooth Ω' ψ → Smooth Ω (fun y => ψ (fun l => X l y)) :=
    fun h => smooth_comp hΩ hX h hm
  have chain : ∀ (ψ : (Fin d → ℝ) → ℝ) (h : Smooth Ω' ψ) (i : Fin d),
      mk _ (hcs (smooth_pd hΩ' h i)) = nab (D hΩ) E i (mk _ (hcs h)) := by
    intro ψ h i
    refine grad_of_chain (D hΩ) E X' hEJ (mk _ (hcs h)) (fun i => mk _ (hcs (smooth_pd hΩ' h i))) ?_ i
    intro a
    apply sm_ext
    intro y
    rw [D_mk, ev_mk, map_sum, pd_chain (fun l => smooth_diff hΩ (hX l) y.2) (smooth_diff hΩ' h (hm y y.2))]
    refine Finset.sum_congr rfl fun i _ => ?_
    simp only [map_mul, hX', D_mk, ev_mk]
  -- the tables
  have tX1 : 1 ≤ r → XT.t1 = fun a l => ev X0 (D hΩ a (X' l)) := by
    intro h; funext a l; rw [hX1 h]; simp only [hX', D_mk, ev_mk, X0]
  have tX2 : 2 ≤ r → XT.t2 = fun b a l => ev X0 (D hΩ b (D hΩ a (X' l))) := by
    intro h; funext b a l; rw [hX2 h]; simp only [hX', D_mk, ev_mk, X0]
  have tX3 : 3 ≤ r → XT.t3 = fun c b a l => ev X0 (D hΩ c (D hΩ b (D hΩ a (X' l)))) := by
    intro h; funext c b a l; rw [hX3 h]; simp only [hX', D_mk, ev_mk, X0]
  have tN1 : 1 ≤ r → ∀ a n, NT.t1 a n = ev X0 (D hΩ a (mk _ (hcs (hφ n)))) := by
    intro h a n; rw [hN1 h]; simp only [D_mk, ev_mk, X0]
  have tN2 : 2 ≤ r → ∀ b a n, NT.t2 b a n = ev X0 (D hΩ b (D hΩ a (mk _ (hcs (hφ n))))) := by
    intro h b a n; rw [hN2 h]; simp only [D_mk, ev_mk, X0]
  have tN3 : 3 ≤ r → ∀ c b a n, NT.t3 c b a n = ev X0 (D hΩ c (D hΩ b (D hΩ a (mk _ (hcs (hφ n)))))) := by
    intro h c b a n; rw [hN3 h]; simp only [D_mk, ev_mk, X0]
  have hXJ : 1 ≤ r → Matrix.of XT.t1 = Matrix.of fun a l => pd a (X l) x := by
    intro h; ext a l; simp only [Matrix.of_apply]; exact hX1 h a l
  have tdet : 1 ≤ r → determinant d XT.t1 = (Matrix.of fun a l => pd a (X l) x).det := by
    intro h; rw [det_eq d hd, hXJ h]
  have tE1 : 1 ≤ r → inverse d (determinant d XT.t1) XT.t1 = fun i a => ev X0 (E i a) := by
    intro h
    have hne : (Matrix.of XT.t1).det ≠ 0 := by rw [hXJ h]; exact hdet x hx
    have h2 := ((C43_det_inverse d hd XT.t1).2 hne).2
    have h1 : J⁻¹.map (ev X0) * Matrix.of XT.t1 = 1 := by
      rw [hXJ h, ← evJ X0]
      have h3 : (J⁻¹ * J).map (ev X0) = (1 : Matrix (Fin d) (Fin d) (Sm Ω)).map (ev X0) := by
        rw [Matrix.nonsing_inv_mul J hunit]
      rw [Matrix.map_mul, Matrix.map_one _ (map_zero _) (map_one _)] at h3
      exact h3
    have h3 := left_inv_eq_right_inv h1 h2
    funext i a
    have h4 := congrFun (congrFun h3 i) a
    rw [Matrix.map_apply, Matrix.of_apply] at h4
    exact h4.symm
  set E' := (inverseMap order XT memE).2 with hE'
  have fE1 : 1 ≤ r → E'.t1 = fun i a => ev X0 (E i a) := by
    intro h
    rw [← tE1 h, hE']
    unfold inverseMap; dsimp only; rw [if_neg (by omega)]; split_ifs <;> rfl
  have fE2 : 2 ≤ r → ∀ j i c, E'.t2 j i c = ev X0 (e2 E (fun b a k => D hΩ b (D hΩ a (X' k))) j i c) := by
    intro h j i c
    have e : E'.t2 = e2 (inverse d (determinant d XT.t1) XT.t1) XT.t2 := by
      rw [hE']; unfold inverseMap; dsimp only; rw [if_neg (by omega), if_neg (by omega)]; split_ifs <;> rfl
    rw [e, tE1 (by omega), tX2 h]
    exact (map_e2 (ev X0).toRingHom _ _ j i c).symm
  have fE3 : 3 ≤ r → ∀ k j i c, E'.t3 k j i c = ev X0 (e3 E (e2 E (fun b a k => D hΩ b (D hΩ a (X' k))))
      (fun b a k => D hΩ b (D hΩ a (X' k))) (fun c b a k => D hΩ c (D hΩ b (D hΩ a (X' k)))) k j i c) := by
    intro h k j i c
    have e : E'.t3 = e3 (inverse d (determinant d XT.t1) XT.t1)
        (e2 (inverse d (determinant d XT.t1) XT.t1) XT.t2) XT.t2 XT.t3 := by
      rw [hE']; unfold inverseMap; dsimp only
      rw [if_neg (by omega), if_neg (by omega), if_neg (by omega)]; split_ifs <;> rfl
    have e' : e2 (inverse d (determinant d XT.t1) XT.t1) XT.t2
        = fun j i a => ev X0 (e2 E (fun b a k => D hΩ b (D hΩ a (X' k))) j i a) := by
      funext j i a
      rw [tE1 (by omega), tX2 (by omega)]
      exact (map_e2 (ev X0).toRingHom _ _ j i a).symm
    rw [e, e', tE1 (by omega), tX2 (by omega), tX3 h]
    exact (map_e3 (ev X0).toRingHom _ _ _ _ k j i c).symm
  refine ⟨fun h => ?_, fun n => ?_, fun h i n => ?_, fun h j i n => ?_, fun h k j i n => ?_, fun h => absurd h (by omega)⟩
  · rw [← tdet h]
    unfold inverseMap; dsimp only; rw [if_neg (by omega)]; split_ifs <;> rfl
  · have e : (shapeFunctions order E' NT { memR with t0 := NT.t0 }).t0 = NT.t0 := by
      unfold shapeFunctions; split_ifs <;> rfl
    rw [e, hN0]
  · have e : (shapeFunctions order E' NT { memR with t0 := NT.t0 }).t1 i n = ∑ a, NT.t1 a n * E'.t1 i a := by
      unfold shapeFunctions; dsimp only; rw [if_neg (by omega)]; split_ifs <;> rfl
    have g := congrArg (ev X0) ((chain (φ n) (hφ n) i).trans (shape1 (D hΩ) E i _))
    rw [ev_mk] at g
    rw [e]
    refine Eq.trans ?_ g.symm
    simp only [map_sum, map_mul, fE1 h, tN1 h]
  · have e : (shapeFunctions order E' NT { memR with t0 := NT.t0 }).t2 j i n =
        ∑ a, ((∑ b, NT.t2 b a n * E'.t1 i a * E'.t1 j b) + NT.t1 a n * E'.t2 j i a) := by
      unfold shapeFunctions; dsimp only; rw [if_neg (by omega), if_neg (by omega)]; split_ifs <;> rfl
    have g := chain (pd i (φ n)) (smooth_pd hΩ' (hφ n) i) j
    rw [chain (φ n) (hφ n) i, shape2 (D hΩ) E X' hEJ hJE] at g
    have g := congrArg (ev X0) g
    rw [ev_mk] at g
    rw [e]
    refine Eq.trans ?_ g.symm
    simp only [map_sum, map_mul, map_add, fE1 (show 1 ≤ r by omega), fE2 h, tN1 (show 1 ≤ r by omega), tN2 h]
  · have e : (shapeFunctions order E' NT { memR with t0 := NT.t0 }).t3 k j i n =
        ∑ a, ((∑ b, ((∑ c, NT.t3 c b a n * E'.t1 i a * E'.t1 j b * E'.t1 k c)
          + NT.t2 b a n * (E'.t1 i a * E'.t2 k j b + E'.t1 j b * E'.t2 k i a + E'.t1 k b * E'.t2 j i a)))
          + NT.t1 a n * E'.t3 k j i a) := by
      unfold shapeFunctions; dsimp only
      rw [if_neg (by omega), if_neg (by omega), if_neg (by omega)]; split_ifs <;> rfl
    have g := chain (pd j (pd i (φ n))) (smooth_pd hΩ' (smooth_pd hΩ' (hφ n) i) j) k
    rw [chain (pd i (φ n)) (smooth_pd hΩ' (hφ n) i) j, chain (φ n) (hφ n) i, shape3 (D hΩ) E X' hEJ hJE] at g
    have g := congrArg (ev X0) g
    rw [ev_mk] at g
    rw [e]
    refine Eq.trans ?_ g.symm
    simp only [map_sum, map_mul, map_add, fE1 (show 1 ≤ r by omega), fE2 (show 2 ≤ r by omega), fE3 h,
      tN1 (show 1 ≤ r by omega), tN2 (show 2 ≤ r by omega), tN3 h]

theorem smooth_det (hΩ : IsOpen Ω) {X : Fin d → (Fin d → ℝ) → ℝ} (hX : ∀ l, Smooth Ω (X l)) :
    Smooth Ω (fun y => (Matrix.of fun a l => pd a (X l) y).det) := by
  have e : ∀ y, (Matrix.of fun a l => pd a (X l) y).det
      = ∑ σ : Equiv.Perm (Fin d), ((Equiv.Perm.sign σ : ℤ) : ℝ) * ∏ i, pd (σ i) (X i) y := by
    intro y; rw [Matrix.det_apply']; rfl
  simp only [e]
  exact ContDiffOn.sum fun σ _ => ContDiffOn.mul contDiffOn_const
    (contDiffOn_prod fun i _ => smooth_pd hΩ (hX i) _)

/-- The part of `Ω` where the Jacobian is invertible. -/
theorem open_det (hΩ : IsOpen Ω) {X : Fin d → (Fin d → ℝ) → ℝ} (hX : ∀ l, Smooth Ω (X l)) :
    IsOpen (Ω ∩ {y | (Matrix.of fun a l => pd a (X l) y).det ≠ 0}) :=
  (smooth_det hΩ hX).continuousOn.isOpen_inter_preimage hΩ isOpen_ne

theorem smooth_mono {Ω₁ : Set (Fin d → ℝ)} {f : (Fin d → ℝ) → ℝ} (h : Smooth Ω f) (hs : Ω₁ ⊆ Ω) : Smooth Ω₁ f :=
  ContDiffOn.mono h hs

/-- **C41**, part proved: let `X` be a smooth geometry map whose Jacobian matrix is invertible at `x`, let the
functions `φ n` of the physical coordinates be smooth near the image, and let the tables hold the derivatives up to
order `r ≤ 3` of the coordinates of `X` and of the pulled back functions `φ n ∘ X` at the parametric point `x`.  Then
`InverseMap` and `ShapeFunctions`, called with a derivative order `≥ r`, return the determinant of the Jacobian
matrix and the derivatives up to order `r` of the `φ n` with respect to the physical coordinates at `X(x)`.  Missing:
order 4, for which zeros are stored (`C41_mapped_refuted`). -/
theorem C41_mapped_partial (hd : 1 ≤ d ∧ d ≤ 3) (hΩ : IsOpen Ω) (hΩ' : IsOpen Ω') (X : Fin d → (Fin d → ℝ) → ℝ)
    (hX : ∀ l, Smooth Ω (X l)) (hm : ∀ y ∈ Ω, (fun l => X l y) ∈ Ω') (φ : ι → (Fin d → ℝ) → ℝ)
    (hφ : ∀ n, Smooth Ω' (φ n)) (x : Fin d → ℝ) (hx : x ∈ Ω)
    (hdet : (Matrix.of fun a l => pd a (X l) x).det ≠ 0)
    (order : Int) (r : Nat) (hr : r ≤ 3) (ho : (r : Int) ≤ order) (XT : Tab ℝ d (Fin d)) (hXT : Holds r XT X x)
    (NT : Tab ℝ d ι) (hNT : Holds r NT (fun n y => φ n (fun l => X l y)) x) (memE : ℝ × Tab ℝ d (Fin d)) (memR : Tab ℝ d ι) :
    (1 ≤ r → (inverseMap order XT memE).1 = (Matrix.of fun a l => pd a (X l) x).det) ∧
    Holds r (shapeFunctions order (inverseMap order XT memE).2 NT { memR with t0 := NT.t0 }) φ (fun l => X l x) :=
  mapped_aux (Ω := Ω ∩ {y | (Matrix.of fun a l => pd a (X l) y).det ≠ 0}) hd (open_det hΩ hX) hΩ' X
    (fun l => smooth_mono (hX l) Set.inter_subset_left) (fun y hy => hm y hy.1) φ hφ x ⟨hx, hdet⟩ (fun _ hy => hy.2)
    order r hr ho XT hXT NT hNT memE memR

/-- The physical functions of C41 exist: near a point where the Jacobian matrix is invertible every smooth function
`N` of the parameters is `φ ∘ X` for a smooth function `φ` of the physical coordinates. -/
theorem C41_exists (hΩ : IsOpen Ω) (X : Fin d → (Fin d → ℝ) → ℝ) (hX : ∀ l, Smooth Ω (X l)) (N : ι → (Fin d → ℝ) → ℝ)
    (hN : ∀ n, Smooth Ω (N n)) (x : Fin d → ℝ) (hx : x ∈ Ω) (hdet : (Matrix.of fun a l => pd a (X l) x).det ≠ 0) :
    ∃ (U V : Set (Fin d → ℝ)) (φ : ι → (Fin d → ℝ) → ℝ), IsOpen U ∧ IsOpen V ∧ x ∈ U ∧ U ⊆ Ω ∧
      (∀ y ∈ U, (fun l => X l y) ∈ V) ∧ (∀ n, Smooth V (φ n)) ∧ ∀ n, ∀ y ∈ U, φ n (fun l => X l y) = N n y := by
  let F : (Fin d → ℝ) → (Fin d → ℝ) := fun y l => X l y
  have hF : ∀ y ∈ Ω, ContDiffAt ℝ ∞ F y := fun y hy => contDiffAt_pi.mpr fun l => smooth_at hΩ (hX l) hy
  have hFd : ∀ y ∈ Ω, HasFDerivAt F (ContinuousLinearMap.pi fun l => fderiv ℝ (X l) y) y :=
    fun y hy => hasFDerivAt_pi.mpr fun l => (smooth_diff hΩ (hX l) hy).hasFDerivAt
  have hdt : ∀ y ∈ Ω, (ContinuousLinearMap.pi fun l => fderiv ℝ (X l) y : (Fin d → ℝ) →L[ℝ] (Fin d → ℝ)).det
      = (Matrix.of fun a l => pd a (X l) y).det := by
    intro y hy
    rw [ContinuousLinearMap.det, ← LinearMap.det_toMatrix', ← Matrix.det_transpose]
    congr 1
    ext a l
    rw [Matrix.transpose_apply, LinearMap.toMatrix'_apply, Matrix.of_apply, pd_eq_fderiv (smooth_diff hΩ (hX l) hy)]
    simp [Pi.single_apply, Function.update_apply, funext_iff]
  have hinv : ∀ y ∈ Ω, (Matrix.of fun a l => pd a (X l) y).det ≠ 0 →
      ∃ f' : (Fin d → ℝ) ≃L[ℝ] (Fin d → ℝ), HasFDerivAt F (f' : (Fin d → ℝ) →L[ℝ] (Fin d → ℝ)) y := by
    intro y hy h
    refine ⟨ContinuousLinearMap.toContinuousLinearEquivOfDetNeZero _ (by rw [hdt y hy]; exact h), ?_⟩
    rw [ContinuousLinearMap.coe_toContinuousLinearEquivOfDetNeZero]
    exact hFd y hy
  obtain ⟨f', hf'⟩ := hinv x hx hdet
  let P := (hF x hx).toOpenPartialHomeomorph F hf' (by simp)
  have hP : ∀ y, P y = F y := fun _ => rfl
  let U := P.source ∩ (Ω ∩ {y | (Matrix.of fun a l => pd a (X l) y).det ≠ 0})
  have hU : IsOpen U := P.open_source.inter (open_det hΩ hX)
  have hxU : x ∈ U := ⟨(hF x hx).mem_toOpenPartialHomeomorph_source hf' (by simp), hx, hdet⟩
  refine ⟨U, P '' U, fun n v => N n (P.symm v), hU, P.isOpen_image_of_subset_source hU Set.inter_subset_left, hxU,
    fun y hy => hy.2.1, fun y hy => ⟨y, hy, rfl⟩, ?_, ?_⟩
  · intro n v hv
    obtain ⟨y, hy, rfl⟩ := hv
    have e : P.symm (P y) = y := P.left_inv hy.1
    obtain ⟨g', hg'⟩ := hinv y hy.2.1 hy.2.2
    have hs : ContDiffAt ℝ ∞ P.symm (P y) := by
      refine P.contDiffAt_symm (f₀' := g') (P.map_source hy.1) ?_ ?_
      · rw [e]; exact hg'
      · rw [e]; exact hF y hy.2.1
    refine ContDiffAt.contDiffWithinAt (ContDiffAt.comp (P y) (g := N n) ?_ hs)
    rw [e]
    exact smooth_at hΩ (hN n) hy.2.1
  · intro n y hy
    have e : P.symm (P y) = y := P.left_inv hy.1
    change N n (P.symm (P y)) = _
    rw [e]

end PetIGA.Ker
