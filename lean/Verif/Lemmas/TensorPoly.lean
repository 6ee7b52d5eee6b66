import Verif.Spec.Integral
import Verif.Lemmas.LinIndep
import Mathlib.Algebra.Polynomial.Derivative
import Mathlib.Algebra.Polynomial.Roots
/-
Sums of products of polynomials in one variable each: zero at enough points, zero derivatives.
-/
namespace PetIGA.Spec
open Polynomial

/-- A sum of multiples of products of polynomials. -/
noncomputable def sumAt (T : List (ℝ × List ℝ[X])) (xs : List ℝ) : ℝ := (T.map fun a => a.1 * evalProd a.2 xs).sum

/-- As a polynomial in the first variable. -/
noncomputable def headPoly (T : List (ℝ × List ℝ[X])) (xs : List ℝ) : ℝ[X] := (T.map fun a => C (a.1 * evalProd a.2.tail xs) * a.2.headD 0).sum

/-- With the first variable fixed. -/
noncomputable def tailTerms (T : List (ℝ × List ℝ[X])) (x : ℝ) : List (ℝ × List ℝ[X]) := T.map fun a => (a.1 * (a.2.headD 0).eval x, a.2.tail)

/-- The derivative in variable `j`. -/
noncomputable def dTerms (j : Nat) (T : List (ℝ × List ℝ[X])) : List (ℝ × List ℝ[X]) := T.map fun a => (a.1, a.2.modify j fun p => derivative p)

theorem headPoly_eval (T : List (ℝ × List ℝ[X])) (h : ∀ a ∈ T, a.2 ≠ []) (x : ℝ) (xs : List ℝ) : (headPoly T xs).eval x = sumAt T (x :: xs) := by
  induction T with
  | nil => simp [headPoly, sumAt]
  | cons a T ih =>
    have := ih fun b hb => h b (by simp [hb])
    obtain ⟨c, P⟩ := a
    have hP := h (c, P) (by simp)
    cases P with
    | nil => exact absurd rfl hP
    | cons p P =>
      unfold headPoly sumAt at *
      simp only [List.map_cons, List.sum_cons, eval_add, this, List.tail_cons, List.headD_cons, eval_mul, eval_C]
      rw [show evalProd (p :: P) (x :: xs) = p.eval x * evalProd P xs by simp [evalProd]]
      ring

theorem tailTerms_eval (T : List (ℝ × List ℝ[X])) (h : ∀ a ∈ T, a.2 ≠ []) (x : ℝ) (xs : List ℝ) : sumAt (tailTerms T x) xs = sumAt T (x :: xs) := by
  unfold sumAt tailTerms
  rw [List.map_map]
  congr 1
  refine List.map_congr_left fun a ha => ?_
  obtain ⟨c, P⟩ := a
  have hP := h _ ha
  cases P with
  | nil => exact absurd rfl hP
  | cons p P =>
    simp only [Function.comp, List.tail_cons, List.headD_cons, evalProd, List.zipWith_cons_cons, List.prod_cons]
    ring

theorem headPoly_deriv (T : List (ℝ × List ℝ[X])) (xs : List ℝ) (h : ∀ a ∈ T, a.2 ≠ []) : headPoly (dTerms 0 T) xs = derivative (headPoly T xs) := by
  induction T with
  | nil => simp [headPoly, dTerms]
  | cons a T ih =>
    have := ih fun b hb => h b (by simp [hb])
    obtain ⟨c, P⟩ := a
    have hP := h (c, P) (by simp)
    cases P with
    | nil => exact absurd rfl hP
    | cons p P =>
      unfold headPoly dTerms at *
      simp only [List.map_cons, List.sum_cons, derivative_add, this, List.modify_zero_cons, List.tail_cons, List.headD_cons, derivative_C_mul]

theorem tailTerms_deriv (T : List (ℝ × List ℝ[X])) (x : ℝ) (j : Nat) (h : ∀ a ∈ T, a.2 ≠ []) : tailTerms (dTerms (j+1) T) x = dTerms j (tailTerms T x) := by
  unfold tailTerms dTerms
  rw [List.map_map, List.map_map]
  refine List.map_congr_left fun a ha => ?_
  obtain ⟨c, P⟩ := a
  have hP := h _ ha
  cases P with
  | nil => exact absurd rfl hP
  | cons p P => rfl

theorem poly_zero_of_eval {P : ℝ[X]} (h : ∀ x, P.eval x = 0) : P = 0 := Polynomial.funext fun x => by rw [h x, eval_zero]

/-- Zero at a grid of enough points in each direction: zero everywhere. -/
theorem sumAt_zero : ∀ (degs : List Nat) (Xs : List (List ℝ)) (T : List (ℝ × List ℝ[X])),
    (∀ a ∈ T, List.Forall₂ (fun (p : ℝ[X]) (d : Nat) => p.degree ≤ d) a.2 degs) → List.Forall₂ (fun (d : Nat) (X : List ℝ) => X.Nodup ∧ d < X.length) degs Xs →
    (∀ pts, List.Forall₂ (fun X x => x ∈ X) Xs pts → sumAt T pts = 0) → ∀ xs : List ℝ, xs.length = degs.length → sumAt T xs = 0
  | [], _, T, _, hX, h, xs, hx => by
    cases hX
    have : xs = [] := List.length_eq_zero_iff.1 (by simpa using hx)
    rw [this]; exact h [] .nil
  | d :: degs, _, T, hT, hX, h, xs, hx => by
    cases hX with
    | @cons _ X _ Xs hX0 hX =>
    cases xs with
    | nil => simp at hx
    | cons x xs =>
    have hne : ∀ a ∈ T, a.2 ≠ [] := fun a ha h0 => by have := hT a ha; rw [h0] at this; cases this
    rw [← tailTerms_eval T hne]
    refine sumAt_zero degs Xs (tailTerms T x) ?_ hX ?_ xs (by simpa using hx)
    · intro a ha
      obtain ⟨b, hb, rfl⟩ := List.mem_map.1 ha
      have := hT b hb
      obtain ⟨c, P⟩ := b
      cases this with
      | cons _ h => exact h
    · intro pts hpts
      rw [tailTerms_eval T hne, ← headPoly_eval T hne]
      rw [Bsp.poly_zero_of_points (p := d) (P := headPoly T pts) ?_ hX0.1 hX0.2 ?_, eval_zero]
      · unfold headPoly
        clear h
        induction T with
        | nil => simp
        | cons a T ih =>
          simp only [List.map_cons, List.sum_cons]
          refine (degree_add_le _ _).trans (max_le ?_ (ih (fun b hb => hT b (by simp [hb])) fun b hb => hne b (by simp [hb])))
          have := hT a (by simp)
          obtain ⟨c, P⟩ := a
          cases this with
          | cons h0 _ => 
            refine (degree_mul_le _ _).trans ?_
            calc (C (c * evalProd _ pts) : ℝ[X]).degree + _ ≤ 0 + (d : WithBot ℕ) := add_le_add degree_C_le h0
              _ = d := zero_add _
      · intro y hy
        rw [headPoly_eval T hne]
        exact h _ (.cons hy hpts)

/-- Zero everywhere: zero derivatives. -/
theorem sumAt_deriv : ∀ (n : Nat) (T : List (ℝ × List ℝ[X])), (∀ a ∈ T, a.2.length = n) → (∀ xs : List ℝ, xs.length = n → sumAt T xs = 0) →
    ∀ j, j < n → ∀ xs : List ℝ, xs.length = n → sumAt (dTerms j T) xs = 0
  | 0, _, _, _, j, hj, _, _ => by omega
  | n+1, T, hT, h, j, hj, xs, hx => by
    cases xs with
    | nil => simp at hx
    | cons x xs =>
    have hx' : xs.length = n := by simpa using hx
    have hne : ∀ a ∈ T, a.2 ≠ [] := fun a ha h0 => by have := hT a ha; rw [h0] at this; simp at this
    have hne' : ∀ j, ∀ a ∈ dTerms j T, a.2 ≠ [] := fun j a ha h0 => by
      obtain ⟨b, hb, rfl⟩ := List.mem_map.1 ha
      have := congrArg List.length h0
      rw [List.length_modify, hT b hb] at this
      simp at this
    cases j with
    | zero =>
      rw [← headPoly_eval _ (hne' 0), headPoly_deriv T xs hne, poly_zero_of_eval (P := headPoly T xs) fun y => by
        rw [headPoly_eval T hne]; exact h _ (by simpa using hx')]
      simp
    | succ j =>
      rw [← tailTerms_eval _ (hne' (j+1)), tailTerms_deriv T x j hne]
      refine sumAt_deriv n _ ?_ ?_ j (by omega) xs hx'
      · intro a ha
        obtain ⟨b, hb, rfl⟩ := List.mem_map.1 ha
        simp [hT b hb]
      · intro ys hy
        rw [tailTerms_eval T hne]; exact h _ (by simpa using hy)

/-- All derivatives zero: constant. -/
theorem sumAt_const : ∀ (n : Nat) (T : List (ℝ × List ℝ[X])), (∀ a ∈ T, a.2.length = n) →
    (∀ j, j < n → ∀ xs : List ℝ, xs.length = n → sumAt (dTerms j T) xs = 0) → ∀ xs ys : List ℝ, xs.length = n → ys.length = n → sumAt T xs = sumAt T ys
  | 0, _, _, _, xs, ys, hx, hy => by rw [List.length_eq_zero_iff.1 hx, List.length_eq_zero_iff.1 hy]
  | n+1, T, hT, h, xs, ys, hx, hy => by
    cases xs with
    | nil => simp at hx
    | cons x xs =>
    cases ys with
    | nil => simp at hy
    | cons y ys =>
    have hx' : xs.length = n := by simpa using hx
    have hy' : ys.length = n := by simpa using hy
    have hne : ∀ a ∈ T, a.2 ≠ [] := fun a ha h0 => by have := hT a ha; rw [h0] at this; simp at this
    have hne' : ∀ j, ∀ a ∈ dTerms j T, a.2 ≠ [] := fun j a ha h0 => by
      obtain ⟨b, hb, rfl⟩ := List.mem_map.1 ha
      have := congrArg List.length h0
      rw [List.length_modify, hT b hb] at this
      simp at this
    have h0 : derivative (headPoly T xs) = 0 := poly_zero_of_eval fun z => by
      rw [← headPoly_deriv T xs hne, headPoly_eval _ (hne' 0)]
      exact h 0 (by omega) _ (by simpa using hx')
    have h1 : sumAt T (x :: xs) = sumAt T (y :: xs) := by
      rw [← headPoly_eval T hne, ← headPoly_eval T hne, eq_C_of_derivative_eq_zero h0, eval_C, eval_C]
    rw [h1, ← tailTerms_eval T hne, ← tailTerms_eval T hne]
    refine sumAt_const n _ ?_ ?_ xs ys hx' hy'
    · intro a ha
      obtain ⟨b, hb, rfl⟩ := List.mem_map.1 ha
      simp [hT b hb]
    · intro j hj zs hz
      rw [← tailTerms_deriv T y j hne, tailTerms_eval _ (hne' (j+1))]
      exact h (j+1) (by omega) _ (by simpa using hz)

theorem sumAt_append (S T : List (ℝ × List ℝ[X])) (xs : List ℝ) : sumAt (S ++ T) xs = sumAt S xs + sumAt T xs := by
  unfold sumAt; rw [List.map_append, List.sum_append]

end PetIGA.Spec
