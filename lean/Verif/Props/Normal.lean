import Verif.Model.Kernel
import Mathlib.LinearAlgebra.Matrix.Determinant.Basic
import Mathlib.Tactic.FinCases
import Mathlib.Algebra.BigOperators.Field
import Mathlib.Tactic.FieldSimp
import Mathlib.Tactic.LinearCombination
import Mathlib.Tactic.Linarith
/-
C44: normals at the boundary.
-/
set_option linter.unusedSectionVars false
namespace PetIGA.Ker
open Finset

/-- The Gram determinant of the tangents `F(b,:)`, `b ≠ axis`: the square of the measure of the boundary spanned by
them. -/
noncomputable def gram {n : Nat} (axis : Fin (n+1)) (F : Fin (n+1) → Fin (n+1) → ℝ) : ℝ :=
  Matrix.det (Matrix.of fun p q : Fin n => ∑ i, F (axis.succAbove p) i * F (axis.succAbove q) i)

/-- The parametric velocity `v` of a curve that enters the domain through the side `side` of direction `axis`. -/
def Enters {n : Nat} (axis : Fin (n+1)) (side : Int) (v : Fin (n+1) → ℝ) : Prop :=
  if side = 0 then 0 < v axis else v axis < 0

/-- `N · ∑_a v_a F(a,:)`: the component along `N` of the velocity of the image of a curve with velocity `v`. -/
noncomputable def along {d : Nat} (N : Fin d → ℝ) (F : Fin d → Fin d → ℝ) (v : Fin d → ℝ) : ℝ :=
  ∑ i, N i * ∑ a, v a * F a i

/-- The vector before normalisation. -/
noncomputable def rawNormal : (n : Nat) → (axis : Fin (n+1)) → (Fin (n+1) → Fin (n+1) → ℝ) → Fin (n+1) → ℝ
  | 1, axis, F => normal2d (axis.val : Int) F
  | 2, axis, F => normal3d (axis.val : Int) F
  | _, _, _ => fun _ => 1

theorem raw_dot (n : Nat) (h1 : 1 ≤ n) (hn : n ≤ 2) (axis : Fin (n+1)) (F : Fin (n+1) → Fin (n+1) → ℝ) :
    (∀ b, ∑ i, rawNormal n axis F i * F b i = if b = axis then Matrix.det (Matrix.of F) else 0) ∧
    ∑ i, rawNormal n axis F i * rawNormal n axis F i = gram axis F := by
  have : n = 1 ∨ n = 2 := by omega
  rcases this with rfl | rfl
  · fin_cases axis
    · refine ⟨fun b => ?_, ?_⟩
      · fin_cases b <;> simp [rawNormal, normal2d, Fin.sum_univ_two, Matrix.det_fin_two] <;> ring
      · simp [rawNormal, normal2d, gram, Fin.sum_univ_two, Matrix.det_fin_one, Fin.succAbove]; ring
    · refine ⟨fun b => ?_, ?_⟩
      · fin_cases b <;> simp [rawNormal, normal2d, Fin.sum_univ_two, Matrix.det_fin_two] <;> ring
      · simp [rawNormal, normal2d, gram, Fin.sum_univ_two, Matrix.det_fin_one, Fin.succAbove]; ring
  · fin_cases axis
    · refine ⟨fun b => ?_, ?_⟩
      · fin_cases b <;> simp [rawNormal, normal3d, Fin.sum_univ_three, Matrix.det_fin_three] <;> ring
      · simp [rawNormal, normal3d, gram, Fin.sum_univ_three, Matrix.det_fin_two, Fin.succAbove]; ring
    · refine ⟨fun b => ?_, ?_⟩
      · fin_cases b <;> simp [rawNormal, normal3d, Fin.sum_univ_three, Matrix.det_fin_three] <;> ring
      · simp [rawNormal, normal3d, gram, Fin.sum_univ_three, Matrix.det_fin_two, Fin.succAbove]; ring
    · refine ⟨fun b => ?_, ?_⟩
      · fin_cases b <;> simp [rawNormal, normal3d, Fin.sum_univ_three, Matrix.det_fin_three] <;> ring
      · simp [rawNormal, normal3d, gram, Fin.sum_univ_three, Matrix.det_fin_two, Fin.succAbove]; ring

theorem getNormal_eq (n : Nat) (h1 : 1 ≤ n) (hn : n ≤ 2) (axis : Fin (n+1)) (side : Int) (F : Fin (n+1) → Fin (n+1) → ℝ)
    (mem : ℝ × (Fin (n+1) → ℝ)) :
    (getNormal (n+1) axis side F mem).1 = Real.sqrt (gram axis F) ∧
    ∀ i, (getNormal (n+1) axis side F mem).2 i =
      (if side = 0 then -1 else 1) * rawNormal n axis F i / Real.sqrt (gram axis F) := by
  rw [← (raw_dot n h1 hn axis F).2]
  have : n = 1 ∨ n = 2 := by omega
  rcases this with rfl | rfl
  · unfold getNormal
    dsimp only [rawNormal]
    split_ifs
    · refine ⟨rfl, fun i => ?_⟩
      rw [neg_one_mul, neg_div]; rfl
    · refine ⟨rfl, fun i => ?_⟩
      rw [one_mul]; rfl
  · unfold getNormal
    dsimp only [rawNormal]
    split_ifs
    · refine ⟨rfl, fun i => ?_⟩
      rw [neg_one_mul, neg_div]; rfl
    · refine ⟨rfl, fun i => ?_⟩
      rw [one_mul]; rfl

theorem gram_zero (axis : Fin 1) (F : Fin 1 → Fin 1 → ℝ) : gram axis F = 1 := by
  unfold gram; exact Matrix.det_isEmpty

theorem gram_nonneg (n : Nat) (hn : n ≤ 2) (axis : Fin (n+1)) (F : Fin (n+1) → Fin (n+1) → ℝ) : 0 ≤ gram axis F := by
  rcases Nat.eq_zero_or_pos n with rfl | h
  · rw [gram_zero]; exact zero_le_one
  · rw [← (raw_dot n h hn axis F).2]
    exact Finset.sum_nonneg fun i _ => mul_self_nonneg _

theorem gram_pos_of_det (n : Nat) (hn : n ≤ 2) (axis : Fin (n+1)) (F : Fin (n+1) → Fin (n+1) → ℝ)
    (h : Matrix.det (Matrix.of F) ≠ 0) : 0 < gram axis F := by
  rcases Nat.eq_zero_or_pos n with rfl | h1
  · rw [gram_zero]; exact zero_lt_one
  · refine lt_of_le_of_ne (gram_nonneg n hn axis F) fun e => h ?_
    obtain ⟨a, b⟩ := raw_dot n h1 hn axis F
    rw [← e] at b
    have z : ∀ i, rawNormal n axis F i = 0 := fun i =>
      mul_self_eq_zero.1 ((Finset.sum_eq_zero_iff_of_nonneg fun i _ => mul_self_nonneg _).1 b i (Finset.mem_univ i))
    have := a axis
    rw [if_pos rfl] at this
    rw [← this]
    exact Finset.sum_eq_zero fun i _ => by rw [z i, zero_mul]

/-- **C44**: for dimension 1, 2 and 3, every axis, side and gradient `F` of the geometry map (row `a` is the tangent in
parametric direction `a`):
the factor returned is nonnegative and its square is the Gram determinant of the tangents of the boundary;
the vector is orthogonal to every tangent of the boundary;
it has length one when these tangents are independent;
and it points out of the domain when the map preserves orientation: curves entering the domain have a negative
component along it. -/
theorem C44_normal (n : Nat) (hn : n ≤ 2) (axis : Fin (n+1)) (side : Int) (F : Fin (n+1) → Fin (n+1) → ℝ)
    (mem : ℝ × (Fin (n+1) → ℝ)) :
    (0 ≤ (getNormal (n+1) axis side F mem).1 ∧ (getNormal (n+1) axis side F mem).1 ^ 2 = gram axis F) ∧
    (∀ b, b ≠ axis → ∑ i, (getNormal (n+1) axis side F mem).2 i * F b i = 0) ∧
    (gram axis F ≠ 0 → ∑ i, (getNormal (n+1) axis side F mem).2 i ^ 2 = 1) ∧
    (0 < Matrix.det (Matrix.of F) → ∀ v, Enters axis side v →
      along (getNormal (n+1) axis side F mem).2 F v < 0) := by
  rcases Nat.eq_zero_or_pos n with rfl | h1
  · have e1 : (getNormal 1 axis side F mem).1 = 1 := by
      unfold getNormal; dsimp only; split_ifs <;> rfl
    have e2 : ∀ i, (getNormal 1 axis side F mem).2 i = if side = 0 then -1 else 1 := by
      intro i; unfold getNormal; dsimp only; split_ifs <;> rfl
    refine ⟨⟨?_, ?_⟩, fun b hb => absurd (by omega : b = axis) hb, fun _ => ?_, fun hd v hv => ?_⟩
    · rw [e1]; exact zero_le_one
    · rw [e1, gram_zero]; norm_num
    · rw [Fin.sum_univ_one, e2]; split_ifs <;> norm_num
    · have hd' : 0 < F 0 0 := by simpa using hd
      have : axis = 0 := by omega
      subst this
      unfold Enters at hv
      unfold along
      rw [Fin.sum_univ_one, Fin.sum_univ_one, e2]
      split_ifs at hv ⊢ <;> nlinarith
  · obtain ⟨a, b⟩ := raw_dot n h1 hn axis F
    obtain ⟨e1, e2⟩ := getNormal_eq n h1 hn axis side F mem
    have s2 : Real.sqrt (gram axis F) ^ 2 = gram axis F := Real.sq_sqrt (gram_nonneg n hn axis F)
    have dot : ∀ b, ∑ i, (getNormal (n+1) axis side F mem).2 i * F b i
        = (if side = 0 then -1 else 1) / Real.sqrt (gram axis F) * if b = axis then Matrix.det (Matrix.of F) else 0 := by
      intro b
      rw [← a b, Finset.mul_sum]
      exact Finset.sum_congr rfl fun i _ => by rw [e2 i]; ring
    refine ⟨⟨?_, ?_⟩, fun b hb => ?_, fun hg => ?_, fun hd v hv => ?_⟩
    · rw [e1]; exact Real.sqrt_nonneg _
    · rw [e1, s2]
    · rw [dot b, if_neg hb, mul_zero]
    · have : ∀ i, (getNormal (n+1) axis side F mem).2 i ^ 2
          = rawNormal n axis F i * rawNormal n axis F i / gram axis F := by
        intro i
        rw [e2 i]
        nth_rw 2 [← s2]
        rw [div_pow, mul_pow]
        split_ifs <;> ring
      rw [Finset.sum_congr rfl fun i _ => this i, ← Finset.sum_div, b, div_self hg]
    · have hp := Real.sqrt_pos.2 (gram_pos_of_det n hn axis F hd.ne')
      have : along (getNormal (n+1) axis side F mem).2 F v
          = v axis * ((if side = 0 then -1 else 1) / Real.sqrt (gram axis F) * Matrix.det (Matrix.of F)) := by
        unfold along
        simp only [Finset.mul_sum]
        rw [Finset.sum_comm]
        rw [Finset.sum_eq_single axis]
        · rw [show (if side = 0 then (-1:ℝ) else 1) / Real.sqrt (gram axis F) * Matrix.det (Matrix.of F)
            = ∑ i, (getNormal (n+1) axis side F mem).2 i * F axis i by rw [dot axis, if_pos rfl], Finset.mul_sum]
          exact Finset.sum_congr rfl fun i _ => by ring
        · intro c _ hc
          have := dot c
          rw [if_neg hc, mul_zero] at this
          rw [show ∑ i, (getNormal (n+1) axis side F mem).2 i * (v c * F c i)
            = v c * ∑ i, (getNormal (n+1) axis side F mem).2 i * F c i by
              rw [Finset.mul_sum]; exact Finset.sum_congr rfl fun i _ => by ring, this, mul_zero]
        · intro h; exact absurd (Finset.mem_univ _) h
      rw [this]
      have q : 0 < 1 / Real.sqrt (gram axis F) * Matrix.det (Matrix.of F) :=
        mul_pos (div_pos one_pos hp) hd
      unfold Enters at hv
      split_ifs at hv ⊢
      · rw [neg_div]; nlinarith
      · nlinarith

/-- The condition on the orientation is needed: on a reflected square the vector returned points into the domain. -/
theorem C44_reflected_refuted : ∃ (F : Fin 2 → Fin 2 → ℝ) (v : Fin 2 → ℝ), Matrix.det (Matrix.of F) < 0 ∧
    Enters 0 1 v ∧ ∀ mem, 0 < along (getNormal 2 0 1 F mem).2 F v := by
  refine ⟨fun a i => if a = i then (if a = 0 then 1 else -1) else 0, fun i => if i = 0 then -1 else 0, ?_, ?_, ?_⟩
  · rw [Matrix.det_fin_two]; simp
  · unfold Enters; simp
  · intro mem
    simp [along, getNormal, normal2d, Fin.sum_univ_two]

/-- Non-vacuity of C44: a sheared box in three dimensions. -/
example : 0 < Matrix.det (Matrix.of (fun a i : Fin 3 => if a = i then (2:ℝ) else if a = 0 then 1 else 0)) := by
  rw [Matrix.det_fin_three]; simp

end PetIGA.Ker
