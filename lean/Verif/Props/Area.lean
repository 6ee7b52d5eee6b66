import Verif.Model.Area
import Verif.Spec.Area
import Mathlib.Analysis.Calculus.Deriv.Mul
import Mathlib.Analysis.Calculus.Deriv.Inv
import Mathlib.Analysis.Calculus.Deriv.Add
import Mathlib.Algebra.BigOperators.Field
import Mathlib.Tactic.FieldSimp
import Mathlib.Tactic.LinearCombination
import Mathlib.Tactic.Linarith
import Mathlib.Tactic.FinCases
import Mathlib.Tactic.NormNum
/-
C72: the share of a boundary load every node of an element side receives.
-/
set_option linter.unusedSectionVars false
namespace PetIGA.Area
open PetIGA.Spec Finset

/-- The tables hold the values and first derivatives of the functions `N` at the points `u`. -/
def Tabulates (D : ADir) (N : Fin D.nen → ℝ → ℝ) (u : Fin D.nqp → ℝ) : Prop :=
  ∀ q a, D.value 0 q a = N a (u q) ∧ HasDerivAt (N a) (D.value 1 q a) (u q)

/-- At the end `s` of the direction on side `side` only the first or last function is not zero, and it is one. -/
def EndAt (D : ADir) (N : Fin D.nen → ℝ → ℝ) (side : Bool) (s : ℝ) : Prop :=
  ∀ a : Fin D.nen, N a s = if (a : Nat) = (if side then D.nen - 1 else 0) then 1 else 0

/-! ### Calculus -/

variable {ι : Type} [Fintype ι]

theorem combine_deriv (rational : Bool) (w P : ι → ℝ) (B : ι → ℝ → ℝ) (B1 : ι → ℝ) (s : ℝ) {d : Nat} (k : Fin d)
    (N1 : Fin d → ι → ℝ) (hN : N1 k = B1) (hB : ∀ a, HasDerivAt (B a) (B1 a) s)
    (hw : rational = true → ∑ a, w a * B a s ≠ 0) :
    HasDerivAt (fun s => combine rational w (fun a => B a s) P)
      (∑ a, (if rational then rationalize w (fun a => B a s) N1 else (fun a => B a s, N1)).2 k a * P a) s := by
  subst hN
  cases rational with
  | false =>
    simp only [combine, Bool.false_eq_true, if_false]
    exact HasDerivAt.fun_sum fun a _ => (hB a).mul_const _
  | true =>
    have hw := hw rfl
    simp only [combine, if_true, rationalize]
    have h1 : HasDerivAt (fun s => ∑ a, w a * B a s * P a) (∑ a, w a * N1 k a * P a) s :=
      HasDerivAt.fun_sum fun a _ => ((hB a).const_mul _).mul_const _
    have h2 : HasDerivAt (fun s => ∑ a, w a * B a s) (∑ a, w a * N1 k a) s :=
      HasDerivAt.fun_sum fun a _ => (hB a).const_mul _
    have h3 : HasDerivAt (fun s => (∑ a, w a * B a s * P a) / ∑ a, w a * B a s) _ s := h1.fun_div h2 hw
    have e : ((∑ a, w a * N1 k a * P a) * (∑ a, w a * B a s) - (∑ a, w a * B a s * P a) * ∑ a, w a * N1 k a) /
        (∑ a, w a * B a s) ^ 2 =
        ∑ a, (w a * N1 k a - w a * B a s / (∑ a, w a * B a s) * ∑ b, w b * N1 k b) / (∑ a, w a * B a s) * P a := by
      generalize (∑ a, w a * B a s) = W0 at hw
      generalize (∑ a, w a * N1 k a) = W1
      have : ∀ a, (w a * N1 k a - w a * B a s / W0 * W1) / W0 * P a =
          (w a * N1 k a * P a * W0 - w a * B a s * P a * W1) / W0^2 := by
        intro a; field_simp
      rw [Finset.sum_congr rfl fun a _ => this a]
      rw [← Finset.sum_div, Finset.sum_sub_distrib, ← Finset.sum_mul, ← Finset.sum_mul]
    rw [e] at h3
    exact h3

theorem jac1 (N : Fin 1 → ι → ℝ) (X : Fin 2 → ι → ℝ) :
    jacobian N X = Real.sqrt ((∑ a, N 0 a * X 0 a)^2 + (∑ a, N 0 a * X 1 a)^2) := by
  unfold jacobian Ker.determinant
  simp only [Fin.sum_univ_two]
  congr 1
  set a := ∑ a, N 0 a * X 0 a
  set b := ∑ a, N 0 a * X 1 a
  rw [show a * a + b * b = a^2 + b^2 by ring, abs_of_nonneg (by positivity)]

theorem jac2 (N : Fin 2 → ι → ℝ) (X : Fin 3 → ι → ℝ) :
    jacobian N X = crossNorm (fun i => ∑ a, N 0 a * X i a) (fun i => ∑ a, N 1 a * X i a) := by
  unfold jacobian Ker.determinant crossNorm
  simp only [Fin.sum_univ_three]
  congr 1
  set a := ∑ a, N 0 a * X 0 a
  set b := ∑ a, N 0 a * X 1 a
  set c := ∑ a, N 0 a * X 2 a
  set x := ∑ a, N 1 a * X 0 a
  set y := ∑ a, N 1 a * X 1 a
  set z := ∑ a, N 1 a * X 2 a
  have e : (a * a + b * b + c * c) * (x * x + y * y + z * z) - (x * a + y * b + z * c) * (a * x + b * y + c * z) =
      (b * z - c * y)^2 + (c * x - a * z)^2 + (a * y - b * x)^2 := by ring
  rw [e, abs_of_nonneg (by positivity)]

/-- A family of functions that vanish except on a layer. -/
theorem combine_layer {κ : Type} [Fintype κ] (rational : Bool) (e : ι → κ) (he : Function.Injective e) (w B P : κ → ℝ)
    (h0 : ∀ k, (∀ a, e a ≠ k) → B k = 0) :
    combine rational w B P = combine rational (fun a => w (e a)) (fun a => B (e a)) (fun a => P (e a)) := by
  classical
  have key : ∀ f : κ → ℝ, (∀ k, B k = 0 → f k = 0) → ∑ k, f k = ∑ a, f (e a) := by
    intro f hf
    rw [← Finset.sum_image (s := univ) (g := e) (f := f) (fun a _ b _ h => he h)]
    symm
    apply Finset.sum_subset (subset_univ _)
    intro k _ hk
    apply hf
    apply h0
    intro a ha
    exact hk (Finset.mem_image.2 ⟨a, mem_univ _, ha⟩)
  unfold combine
  rw [key (fun k => w k * B k * P k) (fun k h => by simp [h]), key (fun k => w k * B k) (fun k h => by simp [h]),
    key (fun k => B k * P k) (fun k h => by simp [h])]

/-! ### Sides in the plane -/

theorem layer_lt {D : ADir} (h : 1 ≤ D.nen) (side : Bool) : layer D.nen side < D.nen := by
  unfold layer; split <;> omega

theorem area2D_eq (m1 m2 axis : Nat) (side rational : Bool) (Cx Cw : Nat → ℝ) (D : ADir) (N : Fin D.nen → ℝ → ℝ)
    (u : Fin D.nqp → ℝ) (hT : Tabulates D N u) (c : ℝ → Fin 2 → ℝ)
    (hc : ∀ s i, c s i = combine rational (fun b : Fin D.nen => Cw (node2 m1 m2 axis side b)) (fun b => N b s)
      (fun b => Cx (i + 2 * node2 m1 m2 axis side b)))
    (hw : rational = true → ∀ q, ∑ b : Fin D.nen, Cw (node2 m1 m2 axis side b) * N b (u q) ≠ 0) :
    area2D m1 m2 axis side Cx rational Cw D = ∑ q, lengthElement c (u q) * D.weight q := by
  unfold area2D
  apply Finset.sum_congr rfl
  intro q _
  dsimp only
  congr 1
  have e0 : (fun a => D.value 0 q a) = fun a => N a (u q) := by funext a; exact (hT q a).1
  have hd : ∀ i : Fin 2, deriv (fun s => c s i) (u q) = ∑ a,
      (if rational then rationalize (fun b : Fin D.nen => Cw (node2 m1 m2 axis side b)) (fun a => D.value 0 q a)
          (fun (_ : Fin 1) a => D.value 1 q a)
        else (fun a => D.value 0 q a, fun (_ : Fin 1) a => D.value 1 q a)).2 0 a *
        Cx (i + 2 * node2 m1 m2 axis side a) := by
    intro i
    rw [show (fun s => c s i) = fun s => combine rational (fun b : Fin D.nen => Cw (node2 m1 m2 axis side b))
      (fun b => N b s) (fun b => Cx (i + 2 * node2 m1 m2 axis side b)) from funext fun s => hc s i]
    rw [e0]
    exact (combine_deriv rational _ _ N (fun a => D.value 1 q a) (u q) (0 : Fin 1) _ rfl (fun a => (hT q a).2)
      (fun h => hw h q)).deriv
  rw [jac1]
  unfold lengthElement
  rw [hd 0, hd 1]

theorem share2_0 (d0 d1 : ADir) : share [d0, d1] 0 = d1.detJac / d1.nen := by
  simp [share]
theorem share2_1 (d0 d1 : ADir) : share [d0, d1] 1 = d0.detJac / d0.nen := by
  simp [share]

/-- **C72**, sides of normal direction 0 of a plane element with control points in the plane: the shares of the nodes
of the side add up to the length of the side computed with the quadrature of the element. -/
theorem C72_geometry_2d_0 (d0 d1 : ADir) (side rational : Bool) (Cx Cw : Nat → ℝ) (N : Fin d0.nen → ℝ → ℝ)
    (M : Fin d1.nen → ℝ → ℝ) (v : Fin d1.nqp → ℝ) (s : ℝ) (h0 : 1 ≤ d0.nen) (h1 : 1 ≤ d1.nen) (hT : Tabulates d1 M v)
    (hs : EndAt d0 N side s)
    (hw : rational = true → ∀ q, ∑ a : Fin d0.nen, ∑ b : Fin d1.nen, Cw (a + d0.nen * b) * (N a s * M b (v q)) ≠ 0) :
    (d1.nen : ℝ) * boundaryArea [d0, d1] 2 Cx rational Cw 0 side =
      ∑ q, d1.detJac * d1.weight q * lengthElement (fun t => map2 d0.nen d1.nen rational Cw Cx N M s t) (v q) := by
  have hl := layer_lt h0 side
  have hn : (d1.nen : ℝ) ≠ 0 := by positivity
  have hsl : N ⟨layer d0.nen side, hl⟩ s = 1 := by rw [hs]; simp [layer]
  have hcol : ∀ t i, map2 d0.nen d1.nen rational Cw Cx N M s t i = combine rational
      (fun b : Fin d1.nen => Cw (node2 d0.nen d1.nen 0 side b)) (fun b => M b t)
      (fun b => Cx (i + 2 * node2 d0.nen d1.nen 0 side b)) := by
    intro t i
    unfold map2
    rw [combine_layer rational (fun b : Fin d1.nen => ((⟨layer d0.nen side, hl⟩ : Fin d0.nen), b))
      (fun a b h => by simpa using h)]
    · simp only [hsl, one_mul, node2, if_true]
    · rintro ⟨a, b⟩ h
      have : N a s = 0 := by
        rw [hs, if_neg]
        intro e
        exact h b (by simp only [Prod.mk.injEq, and_true]; exact Fin.ext e.symm)
      simp [this]
  unfold boundaryArea
  simp only [List.length_cons, List.length_nil, if_true]
  rw [if_neg (by decide), if_neg (by decide), share2_0, area2D_eq _ _ _ _ _ _ _ _ M v hT _ hcol]
  · rw [show (d1.nen : ℝ) * (d1.detJac / d1.nen * ∑ q, lengthElement (fun t => map2 d0.nen d1.nen rational Cw Cx N M s t)
      (v q) * d1.weight q) = d1.detJac * ∑ q, lengthElement (fun t => map2 d0.nen d1.nen rational Cw Cx N M s t)
      (v q) * d1.weight q by field_simp]
    rw [Finset.mul_sum]
    exact Finset.sum_congr rfl fun q _ => by ring
  · intro hr q
    have := hw hr q
    rw [Finset.sum_eq_single (⟨layer d0.nen side, hl⟩ : Fin d0.nen)] at this
    · simpa only [hsl, one_mul, node2, if_true] using this
    · intro a _ ha
      apply Finset.sum_eq_zero
      intro b _
      have : N a s = 0 := by
        rw [hs, if_neg]; intro e; exact ha (Fin.ext e)
      simp [this]
    · simp

/-- **C72**, sides of normal direction 1 of a plane element. -/
theorem C72_geometry_2d_1 (d0 d1 : ADir) (side rational : Bool) (Cx Cw : Nat → ℝ) (N : Fin d0.nen → ℝ → ℝ)
    (M : Fin d1.nen → ℝ → ℝ) (u : Fin d0.nqp → ℝ) (s : ℝ) (h0 : 1 ≤ d0.nen) (h1 : 1 ≤ d1.nen) (hT : Tabulates d0 N u)
    (hs : EndAt d1 M side s)
    (hw : rational = true → ∀ q, ∑ b : Fin d1.nen, ∑ a : Fin d0.nen, Cw (a + d0.nen * b) * (N a (u q) * M b s) ≠ 0) :
    (d0.nen : ℝ) * boundaryArea [d0, d1] 2 Cx rational Cw 1 side =
      ∑ q, d0.detJac * d0.weight q * lengthElement (fun t => map2 d0.nen d1.nen rational Cw Cx N M t s) (u q) := by
  have hl := layer_lt h1 side
  have hn : (d0.nen : ℝ) ≠ 0 := by positivity
  have hsl : M ⟨layer d1.nen side, hl⟩ s = 1 := by rw [hs]; simp [layer]
  have hcol : ∀ t i, map2 d0.nen d1.nen rational Cw Cx N M t s i = combine rational
      (fun b : Fin d0.nen => Cw (node2 d0.nen d1.nen 1 side b)) (fun b => N b t)
      (fun b => Cx (i + 2 * node2 d0.nen d1.nen 1 side b)) := by
    intro t i
    unfold map2
    rw [combine_layer rational (fun b : Fin d0.nen => (b, (⟨layer d1.nen side, hl⟩ : Fin d1.nen)))
      (fun a b h => by simpa using h)]
    · simp only [hsl, mul_one, node2, one_ne_zero, if_false]
    · rintro ⟨a, b⟩ h
      have : M b s = 0 := by
        rw [hs, if_neg]
        intro e
        exact h a (by simp only [Prod.mk.injEq, true_and]; exact Fin.ext e.symm)
      simp [this]
  unfold boundaryArea
  simp only [List.length_cons, List.length_nil, one_ne_zero, if_false]
  rw [if_neg (by decide), if_neg (by decide), share2_1, area2D_eq _ _ _ _ _ _ _ _ N u hT _ hcol]
  · rw [show (d0.nen : ℝ) * (d0.detJac / d0.nen * ∑ q, lengthElement (fun t => map2 d0.nen d1.nen rational Cw Cx N M t s)
      (u q) * d0.weight q) = d0.detJac * ∑ q, lengthElement (fun t => map2 d0.nen d1.nen rational Cw Cx N M t s)
      (u q) * d0.weight q by field_simp]
    rw [Finset.mul_sum]
    exact Finset.sum_congr rfl fun q _ => by ring
  · intro hr q
    have := hw hr q
    rw [Finset.sum_eq_single (⟨layer d1.nen side, hl⟩ : Fin d1.nen)] at this
    · simpa only [hsl, mul_one, node2, one_ne_zero, if_false] using this
    · intro b _ hb
      apply Finset.sum_eq_zero
      intro a _
      have : M b s = 0 := by
        rw [hs, if_neg]; intro e; exact hb (Fin.ext e)
      simp [this]
    · simp

/-! ### Sides in space -/

theorem area3D_eq (m1 m2 m3 axis : Nat) (side rational : Bool) (Cx Cw : Nat → ℝ) (D E : ADir) (N : Fin D.nen → ℝ → ℝ)
    (M : Fin E.nen → ℝ → ℝ) (u : Fin D.nqp → ℝ) (v : Fin E.nqp → ℝ) (hT : Tabulates D N u) (hT' : Tabulates E M v)
    (S : ℝ → ℝ → Fin 3 → ℝ)
    (hc : ∀ s t i, S s t i = combine rational (fun b : Fin D.nen × Fin E.nen => Cw (node3 m1 m2 m3 axis side b.1 b.2))
      (fun b => N b.1 s * M b.2 t) (fun b => Cx (i + 3 * node3 m1 m2 m3 axis side b.1 b.2)))
    (hw : rational = true → ∀ q r, ∑ b : Fin D.nen × Fin E.nen, Cw (node3 m1 m2 m3 axis side b.1 b.2) *
      (N b.1 (u q) * M b.2 (v r)) ≠ 0) :
    area3D m1 m2 m3 axis side Cx rational Cw D E =
      ∑ r, ∑ q, surfaceElement S (u q) (v r) * D.weight q * E.weight r := by
  unfold area3D
  apply Finset.sum_congr rfl
  intro r _
  apply Finset.sum_congr rfl
  intro q _
  dsimp only
  congr 2
  have e0 : (fun (a : Fin D.nen × Fin E.nen) => D.value 0 q a.1 * E.value 0 r a.2) =
      fun a => N a.1 (u q) * M a.2 (v r) := by
    funext a; rw [(hT q a.1).1, (hT' r a.2).1]
  set W : Fin D.nen × Fin E.nen → ℝ := fun b => Cw (node3 m1 m2 m3 axis side b.1 b.2) with hW
  set X : Fin 3 → Fin D.nen × Fin E.nen → ℝ := fun i b => Cx (i + 3 * node3 m1 m2 m3 axis side b.1 b.2) with hX
  set N1 : Fin 2 → Fin D.nen × Fin E.nen → ℝ := fun i a =>
    if i = 0 then D.value 1 q a.1 * E.value 0 r a.2 else D.value 0 q a.1 * E.value 1 r a.2 with hN1
  rw [e0, jac2]
  unfold surfaceElement
  congr 1
  · funext i
    rw [show (fun s => S s (v r) i) = fun s => combine rational W (fun b => N b.1 s * M b.2 (v r)) (X i) from
      funext fun s => hc s (v r) i]
    symm
    exact (combine_deriv rational W (X i) (fun b s => N b.1 s * M b.2 (v r)) (fun b => D.value 1 q b.1 * M b.2 (v r))
      (u q) (0 : Fin 2) N1 (by funext a; simp [hN1, (hT' r a.2).1]) (fun a => (hT q a.1).2.mul_const _)
      (fun h => hw h q r)).deriv
  · funext i
    rw [show (fun t => S (u q) t i) = fun t => combine rational W (fun b => N b.1 (u q) * M b.2 t) (X i) from
      funext fun t => hc (u q) t i]
    symm
    exact (combine_deriv rational W (X i) (fun b t => N b.1 (u q) * M b.2 t) (fun b => N b.1 (u q) * E.value 1 r b.2)
      (v r) (1 : Fin 2) N1 (by funext a; simp [hN1, (hT q a.1).1]) (fun a => (hT' r a.2).2.const_mul _)
      (fun h => hw h q r)).deriv

theorem share3_0 (d0 d1 d2 : ADir) : share [d0, d1, d2] 0 = d1.detJac / d1.nen * (d2.detJac / d2.nen) := by
  simp [share]
theorem share3_1 (d0 d1 d2 : ADir) : share [d0, d1, d2] 1 = d0.detJac / d0.nen * (d2.detJac / d2.nen) := by
  simp [share]
theorem share3_2 (d0 d1 d2 : ADir) : share [d0, d1, d2] 2 = d0.detJac / d0.nen * (d1.detJac / d1.nen) := by
  simp [share]

theorem scale3 (D E : ADir) (h : 1 ≤ D.nen) (h' : 1 ≤ E.nen) (f : Fin E.nqp → Fin D.nqp → ℝ) :
    (D.nen : ℝ) * E.nen * (D.detJac / D.nen * (E.detJac / E.nen) * ∑ r, ∑ q, f r q * D.weight q * E.weight r) =
      ∑ r, ∑ q, D.detJac * E.detJac * (D.weight q * E.weight r) * f r q := by
  have hn : (D.nen : ℝ) ≠ 0 := by positivity
  have hn' : (E.nen : ℝ) ≠ 0 := by positivity
  rw [show (D.nen : ℝ) * E.nen * (D.detJac / D.nen * (E.detJac / E.nen) * ∑ r, ∑ q, f r q * D.weight q * E.weight r) =
    D.detJac * E.detJac * ∑ r, ∑ q, f r q * D.weight q * E.weight r by field_simp]
  rw [Finset.mul_sum]
  refine Finset.sum_congr rfl fun r _ => ?_
  rw [Finset.mul_sum]
  exact Finset.sum_congr rfl fun q _ => by ring

theorem end_one {D : ADir} {N : Fin D.nen → ℝ → ℝ} {side : Bool} {s : ℝ} (hs : EndAt D N side s)
    (h : layer D.nen side < D.nen) : N ⟨layer D.nen side, h⟩ s = 1 := by rw [hs]; simp [layer]

theorem end_zero {D : ADir} {N : Fin D.nen → ℝ → ℝ} {side : Bool} {s : ℝ} (hs : EndAt D N side s)
    (h : layer D.nen side < D.nen) (a : Fin D.nen) (ha : a ≠ ⟨layer D.nen side, h⟩) : N a s = 0 := by
  rw [hs, if_neg]; intro e; exact ha (Fin.ext e)

/-- A weighted sum of functions that vanish except on a layer. -/
theorem sum_layer {κ : Type} [Fintype κ] (e : ι → κ) (he : Function.Injective e) (w B : κ → ℝ)
    (h0 : ∀ k, (∀ a, e a ≠ k) → B k = 0) : ∑ k, w k * B k = ∑ a, w (e a) * B (e a) := by
  have := combine_layer false e he w B w h0
  unfold combine at this
  simp only [Bool.false_eq_true, if_false] at this
  simpa only [mul_comm] using this

/-- **C72**, sides of normal direction 0 of an element in space with control points in space: the shares of the nodes
of the side add up to the area of the side computed with the quadrature of the element. -/
theorem C72_geometry_3d_0 (d0 d1 d2 : ADir) (side rational : Bool) (Cx Cw : Nat → ℝ) (N : Fin d0.nen → ℝ → ℝ)
    (M : Fin d1.nen → ℝ → ℝ) (L : Fin d2.nen → ℝ → ℝ) (v : Fin d1.nqp → ℝ) (t : Fin d2.nqp → ℝ) (s : ℝ)
    (h0 : 1 ≤ d0.nen) (h1 : 1 ≤ d1.nen) (h2 : 1 ≤ d2.nen) (hM : Tabulates d1 M v) (hL : Tabulates d2 L t)
    (hs : EndAt d0 N side s)
    (hw : rational = true → ∀ q r, ∑ a : Fin d0.nen × Fin d1.nen × Fin d2.nen,
      Cw (a.1 + d0.nen * (a.2.1 + d1.nen * a.2.2)) * (N a.1 s * M a.2.1 (v q) * L a.2.2 (t r)) ≠ 0) :
    (d1.nen : ℝ) * d2.nen * boundaryArea [d0, d1, d2] 3 Cx rational Cw 0 side =
      ∑ r, ∑ q, d1.detJac * d2.detJac * (d1.weight q * d2.weight r) *
        surfaceElement (fun y z => map3 d0.nen d1.nen d2.nen rational Cw Cx N M L s y z) (v q) (t r) := by
  have hl := layer_lt h0 side
  have e1 := end_one hs hl
  have hcol : ∀ y z i, map3 d0.nen d1.nen d2.nen rational Cw Cx N M L s y z i = combine rational
      (fun b : Fin d1.nen × Fin d2.nen => Cw (node3 d0.nen d1.nen d2.nen 0 side b.1 b.2)) (fun b => M b.1 y * L b.2 z)
      (fun b => Cx (i + 3 * node3 d0.nen d1.nen d2.nen 0 side b.1 b.2)) := by
    intro y z i
    unfold map3
    rw [combine_layer rational (fun b : Fin d1.nen × Fin d2.nen => ((⟨layer d0.nen side, hl⟩ : Fin d0.nen), b.1, b.2))
      (fun a b h => by simpa [Prod.ext_iff] using h)]
    · simp only [e1, one_mul, node3, if_true]
    · rintro ⟨a, b, c⟩ h
      have : N a s = 0 := end_zero hs hl a (fun e => h (b, c) (by rw [e]))
      simp [this]
  unfold boundaryArea
  simp only [List.length_cons, List.length_nil, if_true]
  rw [if_neg (by decide), if_neg (by decide), if_neg (by decide), share3_0,
    area3D_eq _ _ _ _ _ _ _ _ _ _ M L v t hM hL _ hcol]
  · exact scale3 d1 d2 h1 h2 _
  · intro hr q r
    have := hw hr q r
    rw [sum_layer (fun b : Fin d1.nen × Fin d2.nen => ((⟨layer d0.nen side, hl⟩ : Fin d0.nen), b.1, b.2))
      (fun a b h => by simpa [Prod.ext_iff] using h)] at this
    · simpa only [e1, one_mul, node3, if_true] using this
    · rintro ⟨a, b, c⟩ h
      have : N a s = 0 := end_zero hs hl a (fun e => h (b, c) (by rw [e]))
      simp [this]

/-- **C72**, sides of normal direction 1 of an element in space. -/
theorem C72_geometry_3d_1 (d0 d1 d2 : ADir) (side rational : Bool) (Cx Cw : Nat → ℝ) (N : Fin d0.nen → ℝ → ℝ)
    (M : Fin d1.nen → ℝ → ℝ) (L : Fin d2.nen → ℝ → ℝ) (u : Fin d0.nqp → ℝ) (t : Fin d2.nqp → ℝ) (s : ℝ)
    (h0 : 1 ≤ d0.nen) (h1 : 1 ≤ d1.nen) (h2 : 1 ≤ d2.nen) (hN : Tabulates d0 N u) (hL : Tabulates d2 L t)
    (hs : EndAt d1 M side s)
    (hw : rational = true → ∀ q r, ∑ a : Fin d0.nen × Fin d1.nen × Fin d2.nen,
      Cw (a.1 + d0.nen * (a.2.1 + d1.nen * a.2.2)) * (N a.1 (u q) * M a.2.1 s * L a.2.2 (t r)) ≠ 0) :
    (d0.nen : ℝ) * d2.nen * boundaryArea [d0, d1, d2] 3 Cx rational Cw 1 side =
      ∑ r, ∑ q, d0.detJac * d2.detJac * (d0.weight q * d2.weight r) *
        surfaceElement (fun x z => map3 d0.nen d1.nen d2.nen rational Cw Cx N M L x s z) (u q) (t r) := by
  have hl := layer_lt h1 side
  have e1 := end_one hs hl
  have hcol : ∀ x z i, map3 d0.nen d1.nen d2.nen rational Cw Cx N M L x s z i = combine rational
      (fun b : Fin d0.nen × Fin d2.nen => Cw (node3 d0.nen d1.nen d2.nen 1 side b.1 b.2)) (fun b => N b.1 x * L b.2 z)
      (fun b => Cx (i + 3 * node3 d0.nen d1.nen d2.nen 1 side b.1 b.2)) := by
    intro x z i
    unfold map3
    rw [combine_layer rational (fun b : Fin d0.nen × Fin d2.nen => (b.1, (⟨layer d1.nen side, hl⟩ : Fin d1.nen), b.2))
      (fun a b h => by simpa [Prod.ext_iff] using h)]
    · simp only [e1, mul_one, node3, one_ne_zero, if_false, if_true]
    · rintro ⟨a, b, c⟩ h
      have : M b s = 0 := end_zero hs hl b (fun e => h (a, c) (by rw [e]))
      simp [this]
  unfold boundaryArea
  simp only [List.length_cons, List.length_nil]
  rw [if_neg (by decide), if_neg (by decide), if_neg (by decide), if_neg (by decide), share3_1,
    area3D_eq _ _ _ _ _ _ _ _ _ _ N L u t hN hL _ hcol]
  · exact scale3 d0 d2 h0 h2 _
  · intro hr q r
    have := hw hr q r
    rw [sum_layer (fun b : Fin d0.nen × Fin d2.nen => (b.1, (⟨layer d1.nen side, hl⟩ : Fin d1.nen), b.2))
      (fun a b h => by simpa [Prod.ext_iff] using h)] at this
    · simpa only [e1, mul_one, node3, one_ne_zero, if_false, if_true] using this
    · rintro ⟨a, b, c⟩ h
      have : M b s = 0 := end_zero hs hl b (fun e => h (a, c) (by rw [e]))
      simp [this]

/-- **C72**, sides of normal direction 2 of an element in space. -/
theorem C72_geometry_3d_2 (d0 d1 d2 : ADir) (side rational : Bool) (Cx Cw : Nat → ℝ) (N : Fin d0.nen → ℝ → ℝ)
    (M : Fin d1.nen → ℝ → ℝ) (L : Fin d2.nen → ℝ → ℝ) (u : Fin d0.nqp → ℝ) (v : Fin d1.nqp → ℝ) (s : ℝ)
    (h0 : 1 ≤ d0.nen) (h1 : 1 ≤ d1.nen) (h2 : 1 ≤ d2.nen) (hN : Tabulates d0 N u) (hM : Tabulates d1 M v)
    (hs : EndAt d2 L side s)
    (hw : rational = true → ∀ q r, ∑ a : Fin d0.nen × Fin d1.nen × Fin d2.nen,
      Cw (a.1 + d0.nen * (a.2.1 + d1.nen * a.2.2)) * (N a.1 (u q) * M a.2.1 (v r) * L a.2.2 s) ≠ 0) :
    (d0.nen : ℝ) * d1.nen * boundaryArea [d0, d1, d2] 3 Cx rational Cw 2 side =
      ∑ r, ∑ q, d0.detJac * d1.detJac * (d0.weight q * d1.weight r) *
        surfaceElement (fun x y => map3 d0.nen d1.nen d2.nen rational Cw Cx N M L x y s) (u q) (v r) := by
  have hl := layer_lt h2 side
  have e1 := end_one hs hl
  have hcol : ∀ x y i, map3 d0.nen d1.nen d2.nen rational Cw Cx N M L x y s i = combine rational
      (fun b : Fin d0.nen × Fin d1.nen => Cw (node3 d0.nen d1.nen d2.nen 2 side b.1 b.2)) (fun b => N b.1 x * M b.2 y)
      (fun b => Cx (i + 3 * node3 d0.nen d1.nen d2.nen 2 side b.1 b.2)) := by
    intro x y i
    unfold map3
    rw [combine_layer rational (fun b : Fin d0.nen × Fin d1.nen => (b.1, b.2, (⟨layer d2.nen side, hl⟩ : Fin d2.nen)))
      (fun a b h => by simpa [Prod.ext_iff] using h)]
    · simp only [e1, mul_one, node3, OfNat.ofNat_ne_zero, OfNat.ofNat_ne_one, if_false]
    · rintro ⟨a, b, c⟩ h
      have : L c s = 0 := end_zero hs hl c (fun e => h (a, b) (by rw [e]))
      simp [this]
  unfold boundaryArea
  simp only [List.length_cons, List.length_nil]
  rw [if_neg (by decide), if_neg (by decide), if_neg (by decide), if_pos trivial, share3_2,
    area3D_eq _ _ _ _ _ _ _ _ _ _ N M u v hN hM _ hcol]
  · exact scale3 d0 d1 h0 h1 _
  · intro hr q r
    have := hw hr q r
    rw [sum_layer (fun b : Fin d0.nen × Fin d1.nen => (b.1, b.2, (⟨layer d2.nen side, hl⟩ : Fin d2.nen)))
      (fun a b h => by simpa [Prod.ext_iff] using h)] at this
    · simpa only [e1, mul_one, node3, OfNat.ofNat_ne_zero, OfNat.ofNat_ne_one, if_false] using this
    · rintro ⟨a, b, c⟩ h
      have : L c s = 0 := end_zero hs hl c (fun e => h (a, b) (by rw [e]))
      simp [this]

end PetIGA.Area
