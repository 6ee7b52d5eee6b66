import Verif.Props.Reproduce
import Verif.Props.ProbeEval
/-
C97 for IGAProbe: with the nodal values of a polynomial, the probe returns the polynomial and its derivatives.
-/
set_option linter.unusedSectionVars false
namespace PetIGA.Prb
open PetIGA.Spec PetIGA.Ker PetIGA.Ax PetIGA.Bsp PetIGA.Lay PetIGA.Asm Polynomial
variable {dof : Nat}

/-- One direction: the pieces on the span combine to the polynomial. -/
theorem pieces_repr {ax : Axis ℝ} {p : Nat} (hp : ax.p = p) (h : SortedKnots ax.m ax.U) {x : ℝ} {k : Int} (hk : SpanOf ax x k)
    (P : ℝ[X]) (hP : P.natDegree ≤ p) (y : ℝ) :
    ∑ a : Fin (p+1), polyCoef ax.U p P (k - p + a.val) * pieces ax.U k p a y = P.eval y := by
  have hel := hk.elem
  rw [hp] at hel
  have := poly_repr ax.U k p (Bsp.sep_of_sorted h (by have := hel.1; omega) (by have := hel.2.1; omega) hel.2.2) P hP
  conv_rhs => rw [← this]
  rw [eval_finset_sum, Finset.sum_range]
  refine Finset.sum_congr rfl fun a _ => ?_
  rw [eval_mul, eval_C]
  rfl

/-- **C97**, probe, one direction.  For every polynomial there are nodal values (the same for all points) with which
the probe returns, at every point and for every order, the derivative of the polynomial. -/
theorem C97_probe_1d (J : Bsp.Junk ℝ) (ax : Axis ℝ) (p : Nat) (hp : ax.p = p) (h : SortedKnots ax.m ax.U) (P : Fin dof → ℝ[X]) (hP : ∀ c, (P c).natDegree ≤ p) :
    ∃ f : List Int → Nat → ℝ, ∀ (x : ℝ) (k : Int), SpanOf ax x k → ∀ order der : Int, 0 ≤ order ∧ order ≤ 4 → 0 ≤ der ∧ der ≤ order →
      ∀ off collective : Bool, (off = true → collective = true) → ∀ (old : Tab ℝ 1 (Fin (p+1))) (mem : List (Fin 1) → Fin dof → ℝ),
      ∃ v, evaluate order der true off collective (tensor1 order (table J k x p order ax.U) old)
          (fun c a => coef (closureVals [ax] [k] dof f) dof c (flat (nens [ax]) [(a.val:Int)])) mem = .ok v ∧
        ∀ (l : List (Fin 1)) (c : Fin dof), (l.length : Int) = der → v l c = pdl l (fun y => (P c).eval (y 0)) (fun _ => x) := by
  refine ⟨fun z c => if hc : c < dof then polyCoef ax.U p (P ⟨c, hc⟩) (z.getD 0 0) else 0, fun x k hk order der ho hd off collective hoc old mem => ?_⟩
  obtain ⟨v, h1, h2⟩ := C52_value_1d J ax p hp h hk (fun z c => if hc : c < dof then polyCoef ax.U p (P ⟨c, hc⟩) (z.getD 0 0) else 0) order der ho hd off collective hoc old mem
  refine ⟨v, h1, fun l c hl => ?_⟩
  rw [h2 l c hl]
  congr 1
  funext y
  rw [← pieces_repr hp h hk (P c) (hP c) (y 0)]
  refine Finset.sum_congr rfl fun a _ => ?_
  rw [dif_pos c.isLt]
  simp

/-- **C97**, probe, two directions. -/
theorem C97_probe_2d (J : Bsp.Junk ℝ) (ax bx : Axis ℝ) (p q : Nat) (hp : ax.p = p) (hq : bx.p = q) (h : SortedKnots ax.m ax.U) (h' : SortedKnots bx.m bx.U)
    (T : Fin dof → List (ℝ[X] × ℝ[X])) (hT : ∀ c, ∀ t ∈ T c, t.1.natDegree ≤ p ∧ t.2.natDegree ≤ q) :
    ∃ f : List Int → Nat → ℝ, ∀ (x y : ℝ) (k j : Int), SpanOf ax x k → SpanOf bx y j → ∀ order der : Int, 0 ≤ order ∧ order ≤ 4 → 0 ≤ der ∧ der ≤ order →
      ∀ off collective : Bool, (off = true → collective = true) → ∀ (old : Tab ℝ 2 (Fin (p+1) × Fin (q+1))) (mem : List (Fin 2) → Fin dof → ℝ),
      ∃ v, evaluate order der true off collective (tensor2 order (table J k x p order ax.U) (table J j y q order bx.U) old)
          (fun c a => coef (closureVals [ax, bx] [k, j] dof f) dof c (flat (nens [ax, bx]) [(a.1.val:Int), (a.2.val:Int)])) mem = .ok v ∧
        ∀ (l : List (Fin 2)) (c : Fin dof), (l.length : Int) = der →
          v l c = pdl l (fun z => ((T c).map fun t => t.1.eval (z 0) * t.2.eval (z 1)).sum) (fun i => if i = 0 then x else y) := by
  refine ⟨fun z c => if hc : c < dof then ((T ⟨c, hc⟩).map fun t => polyCoef ax.U p t.1 (z.getD 0 0) * polyCoef bx.U q t.2 (z.getD 1 0)).sum else 0,
    fun x y k j hk hj order der ho hd off collective hoc old mem => ?_⟩
  obtain ⟨v, h1, h2⟩ := C52_value_2d J ax bx p q hp hq h h' hk hj
    (fun z c => if hc : c < dof then ((T ⟨c, hc⟩).map fun t => polyCoef ax.U p t.1 (z.getD 0 0) * polyCoef bx.U q t.2 (z.getD 1 0)).sum else 0)
    order der ho hd off collective hoc old mem
  refine ⟨v, h1, fun l c hl => ?_⟩
  rw [h2 l c hl]
  congr 1
  funext z
  have hT := hT c
  have e1 : ∀ a : Fin (p+1) × Fin (q+1), (if hc : (c:Nat) < dof then ((T ⟨c, hc⟩).map fun t =>
      polyCoef ax.U p t.1 (([k - p + a.1.val, j - q + a.2.val] : List Int).getD 0 0) * polyCoef bx.U q t.2 (([k - p + a.1.val, j - q + a.2.val] : List Int).getD 1 0)).sum else 0) =
      ((T c).map fun t => polyCoef ax.U p t.1 (k - p + a.1.val) * polyCoef bx.U q t.2 (j - q + a.2.val)).sum := by
    intro a
    rw [dif_pos c.isLt]
    rfl
  simp only [e1]
  clear e1 h2
  generalize T c = L at hT
  induction L with
  | nil => simp
  | cons t ts ih =>
    simp only [List.map_cons, List.sum_cons, add_mul, Finset.sum_add_distrib]
    rw [ih (fun t h => hT t (List.mem_cons_of_mem _ h))]
    congr 1
    obtain ⟨d1, d2⟩ := hT t (List.mem_cons_self ..)
    rw [← pieces_repr hp h hk t.1 d1 (z 0), ← pieces_repr hq h' hj t.2 d2 (z 1), Finset.sum_mul_sum, ← Finset.univ_product_univ, Finset.sum_product]
    refine Finset.sum_congr rfl fun a _ => Finset.sum_congr rfl fun b _ => ?_
    ring

/-- **C97**, probe, three directions. -/
theorem C97_probe_3d (J : Bsp.Junk ℝ) (ax bx cx : Axis ℝ) (p q s : Nat) (hp : ax.p = p) (hq : bx.p = q) (hs : cx.p = s) (h : SortedKnots ax.m ax.U)
    (h' : SortedKnots bx.m bx.U) (h'' : SortedKnots cx.m cx.U)
    (T : Fin dof → List (ℝ[X] × ℝ[X] × ℝ[X])) (hT : ∀ c, ∀ t ∈ T c, t.1.natDegree ≤ p ∧ t.2.1.natDegree ≤ q ∧ t.2.2.natDegree ≤ s) :
    ∃ f : List Int → Nat → ℝ, ∀ (x y w : ℝ) (k j i : Int), SpanOf ax x k → SpanOf bx y j → SpanOf cx w i →
      ∀ order der : Int, 0 ≤ order ∧ order ≤ 4 → 0 ≤ der ∧ der ≤ order →
      ∀ off collective : Bool, (off = true → collective = true) → ∀ (old : Tab ℝ 3 (Fin (p+1) × Fin (q+1) × Fin (s+1))) (mem : List (Fin 3) → Fin dof → ℝ),
      ∃ v, evaluate order der true off collective (tensor3 order (table J k x p order ax.U) (table J j y q order bx.U) (table J i w s order cx.U) old)
          (fun c a => coef (closureVals [ax, bx, cx] [k, j, i] dof f) dof c
            (flat (nens [ax, bx, cx]) [(a.1.val:Int), (a.2.1.val:Int), (a.2.2.val:Int)])) mem = .ok v ∧
        ∀ (l : List (Fin 3)) (c : Fin dof), (l.length : Int) = der →
          v l c = pdl l (fun z => ((T c).map fun t => t.1.eval (z 0) * t.2.1.eval (z 1) * t.2.2.eval (z 2)).sum)
            (fun m => if m = 0 then x else if m = 1 then y else w) := by
  refine ⟨fun z c => if hc : c < dof then ((T ⟨c, hc⟩).map fun t => polyCoef ax.U p t.1 (z.getD 0 0) * polyCoef bx.U q t.2.1 (z.getD 1 0) *
      polyCoef cx.U s t.2.2 (z.getD 2 0)).sum else 0,
    fun x y w k j i hk hj hi order der ho hd off collective hoc old mem => ?_⟩
  obtain ⟨v, h1, h2⟩ := C52_value_3d J ax bx cx p q s hp hq hs h h' h'' hk hj hi
    (fun z c => if hc : c < dof then ((T ⟨c, hc⟩).map fun t => polyCoef ax.U p t.1 (z.getD 0 0) * polyCoef bx.U q t.2.1 (z.getD 1 0) *
      polyCoef cx.U s t.2.2 (z.getD 2 0)).sum else 0)
    order der ho hd off collective hoc old mem
  refine ⟨v, h1, fun l c hl => ?_⟩
  rw [h2 l c hl]
  congr 1
  funext z
  have hT := hT c
  have e1 : ∀ a : Fin (p+1) × Fin (q+1) × Fin (s+1), (if hc : (c:Nat) < dof then ((T ⟨c, hc⟩).map fun t =>
      polyCoef ax.U p t.1 (([k - p + a.1.val, j - q + a.2.1.val, i - s + a.2.2.val] : List Int).getD 0 0) *
        polyCoef bx.U q t.2.1 (([k - p + a.1.val, j - q + a.2.1.val, i - s + a.2.2.val] : List Int).getD 1 0) *
        polyCoef cx.U s t.2.2 (([k - p + a.1.val, j - q + a.2.1.val, i - s + a.2.2.val] : List Int).getD 2 0)).sum else 0) =
      ((T c).map fun t => polyCoef ax.U p t.1 (k - p + a.1.val) * polyCoef bx.U q t.2.1 (j - q + a.2.1.val) * polyCoef cx.U s t.2.2 (i - s + a.2.2.val)).sum := by
    intro a
    rw [dif_pos c.isLt]
    rfl
  simp only [e1]
  clear e1 h2
  generalize T c = L at hT
  induction L with
  | nil => simp
  | cons t ts ih =>
    simp only [List.map_cons, List.sum_cons, add_mul, Finset.sum_add_distrib]
    rw [ih (fun t h => hT t (List.mem_cons_of_mem _ h))]
    congr 1
    obtain ⟨d1, d2, d3⟩ := hT t (List.mem_cons_self ..)
    rw [← pieces_repr hp h hk t.1 d1 (z 0), ← pieces_repr hq h' hj t.2.1 d2 (z 1), ← pieces_repr hs h'' hi t.2.2 d3 (z 2), Finset.sum_mul_sum]
    rw [← Finset.univ_product_univ, Finset.sum_product, Finset.sum_mul]
    refine Finset.sum_congr rfl fun a _ => ?_
    rw [← Finset.univ_product_univ, Finset.sum_product, Finset.sum_mul]
    refine Finset.sum_congr rfl fun b _ => ?_
    rw [Finset.mul_sum]
    refine Finset.sum_congr rfl fun d _ => ?_
    ring

/-- Hypotheses met: the quadratic axis `exR` and the polynomial `X^2 - X`. -/
example : SortedKnots exR.m exR.U ∧ SpanOf exR (1/2) 2 ∧ exR.p = (2:Nat) ∧ ((X:ℝ[X])^2 - X).natDegree ≤ 2 := by
  refine ⟨exR_sorted, exR_span, rfl, ?_⟩
  compute_degree

end PetIGA.Prb
