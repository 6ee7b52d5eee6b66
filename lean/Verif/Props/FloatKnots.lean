import Verif.Props.Float
import Verif.Props.FloatBinary
import Verif.Props.Axis
/-
Floating-point knots, Greville abscissae and quadrature points (C111).
-/
set_option linter.unusedSectionVars false
namespace PetIGA.Flt
open PetIGA.Bsp PetIGA.Spec PetIGA.Ax

variable {K : Type} [Field K] [LinearOrder K] [IsStrictOrderedRing K] {ε : K} {fl : K → K}

theorem err_exact (x : K) (k : Nat) {h : K} (hh : 1 ≤ h) : Err h k |x| x x := by
  refine ⟨le_refl _, ?_⟩
  rw [sub_self, abs_zero]
  have := one_le_pow₀ hh (n := k)
  exact mul_nonneg (by linarith) (abs_nonneg _)

theorem err_of_near {h : K} (hh : 1 ≤ h) {k : Nat} {x y : K} (n : Near h k x y) : Err h k x x y := by
  have := err_near hh n 1
  simpa using this

theorem addMul_err (R : Rounding ε fl) (fma : Bool) (a : K) {b b' c c' : K} {i j : Nat}
    (hb : Near (1-ε)⁻¹ i b b') (hc : Near (1-ε)⁻¹ j c c') :
    Err (1-ε)⁻¹ (i+j+2) (|a| + b * c) (a + b * c) (addMul fl fma a b' c') := by
  have hh := one_le_inv R
  unfold addMul
  split
  · exact err_mono hh (by omega) (err_fl R (err_add (err_exact a (i+j) hh) (err_of_near hh (near_mul hh hb hc))))
  · exact err_fl R (err_add (err_exact a (i+j+1) hh) (err_of_near hh (near_fl R (near_mul hh hb hc))))

/-! ### Knots -/

theorem break_err (R : Rounding ε fl) (fma : Bool) {N : Int} (hN : 1 ≤ N) {Ui Uf : K} (hU : Ui < Uf) {i : Int} (i0 : 0 ≤ i) (iN : i ≤ N) :
    |uniformBreak fl fma N Ui Uf i - (Ui + (i:K)/(N:K) * (Uf-Ui))| ≤ (1 / (1-ε)^4 - 1) * (|Ui| + (Uf - Ui)) := by
  have hh := one_le_inv R
  have hN' : (0:K) < (N:K) := by exact_mod_cast (by omega : 0 < N)
  have hp := one_le_pow₀ hh (n := 4)
  rw [one_div, ← inv_pow]
  have h0 : 0 ≤ ((1-ε)⁻¹ ^ 4 - 1) * (|Ui| + (Uf - Ui)) := mul_nonneg (by linarith) (by have := abs_nonneg Ui; linarith)
  unfold uniformBreak
  split_ifs with h1 h2
  · subst h1; simpa using h0
  · subst h2
    rw [div_self hN'.ne', one_mul, add_sub_cancel, sub_self, abs_zero]
    exact h0
  · have q0 : (0:K) ≤ (i:K)/(N:K) := div_nonneg (by exact_mod_cast i0) hN'.le
    have q1 : (i:K)/(N:K) ≤ 1 := by rw [div_le_one hN']; exact_mod_cast iN
    have := addMul_err R fma Ui (near_fl R (near_self hh 0 q0)) (near_fl R (near_self hh 0 (by linarith : 0 ≤ Uf - Ui)))
    refine this.2.trans ?_
    refine mul_le_mul_of_nonneg_left ?_ (by linarith)
    have : (i:K)/(N:K) * (Uf - Ui) ≤ 1 * (Uf - Ui) := mul_le_mul_of_nonneg_right q1 (by linarith)
    linarith

/-- **C111**, knots: if the elements are larger than twice the rounding error of the breaks, the breaks computed by
`IGAAxisInitUniform` are within that error of the equally spaced ones, the ends are exact, and the knot vector is what C07
promises for these breaks: legal, with one element per interval. -/
theorem C111_uniform (R : Rounding ε fl) (fma : Bool) (mem : Int → K) (ax : Axis K) (N : Int) (Ui Uf : K) (C : Int) (hper : ax.periodic = false)
    (h : (initUniform fl fma mem ax N Ui Uf C).1 = .ok ())
    (hc : 2 * ((1 / (1-ε)^4 - 1) * (|Ui| + (Uf - Ui))) < (Uf - Ui) / N) :
    GoodInit ax (initUniform fl fma mem ax N Ui Uf C).2 N (if C = PETSC_DECIDE then ax.p - 1 else C) (uniformBreak fl fma N Ui Uf) ∧
    uniformBreak fl fma N Ui Uf 0 = Ui ∧ uniformBreak fl fma N Ui Uf N = Uf ∧
    ∀ i, 0 ≤ i → i ≤ N → |uniformBreak fl fma N Ui Uf i - (Ui + (i:K)/(N:K) * (Uf-Ui))| ≤ (1 / (1-ε)^4 - 1) * (|Ui| + (Uf - Ui)) := by
  unfold initUniform at h
  dsimp only at h
  split_ifs at h with h1 h2 h3 h4 h4
  all_goals first | cases h | skip
  all_goals
    have hU : Ui < Uf := not_le.1 h3
    have hN : 1 ≤ N := by omega
    have hN' : (0:K) < (N:K) := by exact_mod_cast (by omega : 0 < N)
    have be := fun i (a : 0 ≤ i) (b : i ≤ N) => break_err R fma hN hU a b
    have hu : ∀ i j, 0 ≤ i → i < j → j ≤ N → uniformBreak fl fma N Ui Uf i < uniformBreak fl fma N Ui Uf j := by
      intro i j a b c
      have e1 := abs_le.1 (be i a (by omega))
      have e2 := abs_le.1 (be j (by omega) c)
      have e3 : (Uf - Ui) / N ≤ (j:K)/(N:K) * (Uf-Ui) - (i:K)/(N:K) * (Uf-Ui) := by
        rw [← sub_mul, ← sub_div, div_mul_eq_mul_div]
        refine div_le_div_of_nonneg_right ?_ hN'.le
        have : (1:K) ≤ (j:K) - (i:K) := by
          have : (i:K) + 1 ≤ (j:K) := by exact_mod_cast (by omega : i + 1 ≤ j)
          linarith
        nlinarith
      linarith [e1.2, e2.1]
    refine ⟨?_, by unfold uniformBreak; rw [if_pos rfl], by unfold uniformBreak; rw [if_neg (by omega), if_pos rfl], be⟩
    unfold initUniform
    dsimp only
    simp only [*, if_false, if_true]
  · exact goodInit_of_built (fillAxis_built ax N _ _ mem (by omega) hN (by omega) (by omega)) (by omega) hN (by omega) (by omega) hu
  · exact goodInit_of_built (fillAxis_built ax N _ _ mem (by omega) hN (by omega) (by omega)) (by omega) hN (by omega) (by omega) hu

/-! ### Greville abscissae -/

theorem grevSum_mono (R : Rounding ε fl) {m : Int} {U : Int → K} (hs : SortedKnots m U) {i : Int} (i0 : 0 ≤ i) :
    ∀ j : Nat, i + j + 1 ≤ m → grevSum fl i U j ≤ grevSum fl (i+1) U j
  | 0, _ => le_refl _
  | j+1, hj => by
    push_cast at hj
    have ih := grevSum_mono R hs i0 j (by omega)
    have := hs (i+j+1) (by omega) (by omega)
    simp only [grevSum]
    refine R.mono ?_
    rw [show i + 1 + (j:Int) + 1 = i + j + 1 + 1 by ring]
    linarith

/-- **C111**, Greville abscissae are in order whatever the rounding. -/
theorem C111_greville_ordered (R : Rounding ε fl) {p m : Int} {U : Int → K} (hs : SortedKnots m U) (hp : 1 ≤ p) {i : Int} (i0 : 0 ≤ i)
    (him : i + p + 1 ≤ m) : greville fl i p U ≤ greville fl (i+1) p U := by
  unfold greville
  rw [if_pos (by omega), if_pos (by omega)]
  refine R.mono ?_
  refine div_le_div_of_nonneg_right (grevSum_mono R hs i0 _ (by omega)) ?_
  exact_mod_cast (by omega : 0 ≤ p)

theorem grevSum_err (R : Rounding ε fl) {U : Int → K} {i : Int} {M : K} :
    ∀ j : Nat, (∀ t : Int, i < t → t ≤ i + j → |U t| ≤ M) → Err (1-ε)⁻¹ j (j * M) (Ax.grevSum i U j) (grevSum fl i U j)
  | 0, _ => by simp [Err, grevSum, Ax.grevSum]
  | j+1, hM => by
    have hh := one_le_inv R
    push_cast at hM
    simp only [grevSum, Ax.grevSum]
    have ih := grevSum_err R (U := U) (i := i) (M := M) j (fun t a b => hM t a (by omega))
    have hu : Err (1-ε)⁻¹ j M (U (i+j+1)) (U (i+j+1)) := by
      have e := err_exact (U (i+j+1)) j hh
      have hb := hM (i+j+1) (by omega) (by omega)
      refine ⟨hb, e.2.trans ?_⟩
      have := one_le_pow₀ hh (n := j)
      exact mul_le_mul_of_nonneg_left hb (by linarith)
    have := err_fl R (err_add ih hu)
    rw [show ((j+1 : Nat) : K) * M = j * M + M by push_cast; ring]
    exact this

/-- **C111**, Greville abscissae up to rounding: within `p+1` roundings of the largest knot of the exact ones, which lie in the
support of their function (C15). -/
theorem C111_greville_error (R : Rounding ε fl) {p : Int} {U : Int → K} (hp : 1 ≤ p) {i : Int} {M : K}
    (hM : ∀ t, i < t → t ≤ i + p → |U t| ≤ M) :
    |greville fl i p U - Ax.greville i p U| ≤ (1 / (1-ε) ^ (p.toNat + 1) - 1) * M := by
  have hp' : (0:K) < (p:K) := by exact_mod_cast (by omega : 0 < p)
  have hcast : ((p.toNat : Nat) : K) = (p:K) := by
    have : ((p.toNat : Nat) : Int) = p := by omega
    exact_mod_cast congrArg (Int.cast (R := K)) this
  obtain ⟨a, b⟩ := grevSum_err R (U := U) (i := i) (M := M) p.toNat (fun t x y => hM t x (by omega))
  rw [hcast] at a b
  have e : Err (1-ε)⁻¹ p.toNat M (Ax.grevSum i U p.toNat / p) (grevSum fl i U p.toNat / p) := by
    refine ⟨?_, ?_⟩
    · rw [abs_div, abs_of_pos hp', div_le_iff₀ hp']; linarith
    · rw [← sub_div, abs_div, abs_of_pos hp', div_le_iff₀ hp']; linarith
  have := (err_fl R e).2
  unfold greville Ax.greville
  rw [if_pos (by omega), if_pos (by omega), one_div, ← inv_pow]
  exact this

/-! ### Quadrature points -/

/-- **C111**, quadrature points: the size of the element is positive and the computed point is within five roundings of the exact
one; it does not lie before the element, and not behind it if it keeps that distance from the end. -/
theorem C111_points (R : Rounding ε fl) (fma : Bool) {u0 u1 X : K} (hu : u0 < u1) (hm : fl u0 = u0) (x0 : -1 ≤ X) (x1 : X ≤ 1) :
    0 < detJac fl u0 u1 ∧ u0 ≤ quadPoint fl fma u0 u1 X ∧
    |quadPoint fl fma u0 u1 X - (u0 + (X + 1) * ((u1 - u0) / 2))| ≤ (1 / (1-ε)^5 - 1) * (|u0| + (u1 - u0)) ∧
    ((1 / (1-ε)^5 - 1) * (|u0| + (u1 - u0)) ≤ (1 - X) * ((u1 - u0) / 2) → quadPoint fl fma u0 u1 X ≤ u1) := by
  have hh := one_le_inv R
  have dp : 0 < detJac fl u0 u1 := fl_pos R (div_pos (fl_pos R (by linarith)) (by norm_num))
  have n1 : Near (1-ε)⁻¹ 1 (X+1) (fl (X+1)) := near_fl R (near_self hh 0 (by linarith))
  have n2 : Near (1-ε)⁻¹ 2 ((u1 - u0)/2) (detJac fl u0 u1) := by
    have := near_div hh (near_fl R (near_self hh 0 (by linarith : 0 ≤ u1 - u0))) (near_self hh 0 (by norm_num : (0:K) ≤ 2))
    exact near_fl R this
  have he := addMul_err R fma u0 n1 n2
  have hp := one_le_pow₀ hh (n := 5)
  have hb : |quadPoint fl fma u0 u1 X - (u0 + (X + 1) * ((u1 - u0) / 2))| ≤ (1 / (1-ε)^5 - 1) * (|u0| + (u1 - u0)) := by
    rw [one_div, ← inv_pow]
    refine he.2.trans ?_
    refine mul_le_mul_of_nonneg_left ?_ (by norm_num at hp ⊢; linarith)
    nlinarith
  refine ⟨dp, ?_, hb, ?_⟩
  · have hz : 0 ≤ fl (X+1) := n1.2.1
    have hw : u0 ≤ fl (u0 + fl (X+1) * detJac fl u0 u1) := by
      have := R.mono (show u0 ≤ u0 + fl (X+1) * detJac fl u0 u1 by have := mul_nonneg hz dp.le; linarith)
      rwa [hm] at this
    unfold quadPoint addMul
    split
    · exact hw
    · have h0 : 0 ≤ fl (fl (X+1) * detJac fl u0 u1) := by
        have := R.mono (mul_nonneg hz dp.le)
        rwa [fl_zero R] at this
      have := R.mono (show u0 ≤ u0 + fl (fl (X+1) * detJac fl u0 u1) by linarith)
      rwa [hm] at this
  · intro hc
    have := (abs_le.1 hb).2
    linarith

/-! ### Where rounding shows -/

/-- The machine number next to `x`. -/
def d (x : ℚ) : ℚ := binary 52 x

/-- **C111** fails for small elements: four elements between the machine numbers `2^53` and `2^53 + 2` are accepted, but the first
one is empty and the knot vector is not legal. -/
theorem C111_uniform_refuted : ∃ (ax : Axis ℚ) (Ui Uf : ℚ), binary 52 Ui = Ui ∧ binary 52 Uf = Uf ∧ ax.periodic = false ∧
    (initUniform (binary 52) false (fun _ => 0) ax 4 Ui Uf (-1)).1 = .ok () ∧
    ∃ k, (initUniform (binary 52) false (fun _ => 0) ax 4 Ui Uf (-1)).2.span[0]? = some k ∧
      (initUniform (binary 52) false (fun _ => 0) ax 4 Ui Uf (-1)).2.U k = (initUniform (binary 52) false (fun _ => 0) ax 4 Ui Uf (-1)).2.U (k+1) := by
  refine ⟨{ p := 2, m := 1, U := fun _ => 0, periodic := false, nel := 0, span := [], nnp := 0 }, 2^53, 2^53 + 2, by decide +kernel, by decide +kernel, rfl,
    by decide +kernel, 2, by decide +kernel, by decide +kernel⟩

/-- **C111**: in floating-point a Greville abscissa can lie outside the domain: the last one of the cubic functions on
`[0, 0.1]`. -/
theorem C111_greville_refuted : ∃ (U : Int → ℚ), SortedKnots 7 U ∧ (∀ i, binary 52 (U i) = U i) ∧ U 3 < U 4 ∧ U 4 < greville (binary 52) 3 3 U := by
  have h0 : binary 52 0 = 0 := by decide +kernel
  have hd : binary 52 (d (1/10)) = d (1/10) := by decide +kernel
  have hp : 0 < d (1/10) := by decide +kernel
  refine ⟨fun i => if i ≤ 3 then 0 else d (1/10), ?_, ?_, by decide +kernel, by decide +kernel⟩
  · intro i _ _
    dsimp only
    split_ifs
    · exact le_refl _
    · exact hp.le
    · omega
    · exact le_refl _
  · intro i
    dsimp only
    split_ifs
    · exact h0
    · exact hd

/-- **C111**: so can the last point of a Lobatto rule, which should be the end of the element: on `[0.3, 0.9]` it is behind it. -/
theorem C111_lobatto_refuted : ∃ u0 u1 : ℚ, binary 52 u0 = u0 ∧ binary 52 u1 = u1 ∧ u0 < u1 ∧ u1 < quadPoint (binary 52) false u0 u1 1 := by
  refine ⟨d (3/10), d (9/10), ?_⟩
  decide +kernel

/-! ### Examples -/

/-- The condition of `C111_uniform` holds for a thousand elements of `[0, 1]` in double precision, and the breaks are rounded. -/
example : 2 * ((1 / (1-((1/2 : ℚ)^53))^4 - 1) * (|(0:ℚ)| + (1 - 0))) < (1 - 0) / ((1000 : Int) : ℚ) ∧
    (initUniform (binary 52) false (fun _ => 0) { p := 2, m := 1, U := fun _ => 0, periodic := false, nel := 0, span := [], nnp := 0 } 1000 0 1 (-1)).1 = .ok () ∧
    uniformBreak (binary 52) false 1000 0 1 3 ≠ 3/1000 := by
  refine ⟨by norm_num, by decide +kernel, by decide +kernel⟩

/-- `C111_points` for the two-point Gauss rule (its point replaced by one nearby) on `[0.3, 0.9]`. -/
example : d (3/10) < d (9/10) ∧ binary 52 (d (3/10)) = d (3/10) ∧
    (1 / (1-((1/2 : ℚ)^53))^5 - 1) * (|d (3/10)| + (d (9/10) - d (3/10))) ≤ (1 - 577/1000) * ((d (9/10) - d (3/10)) / 2) := by
  decide +kernel

/-- `C111_greville_ordered` and `C111_greville_error` for the knots of `C111_greville_refuted`: the largest knot bounds all. -/
example : ∃ U : Int → ℚ, SortedKnots 7 U ∧ ∀ t, (0:Int) < t → t ≤ 0 + 3 → |U t| ≤ d (1/10) := by
  have hp : 0 < d (1/10) := by decide +kernel
  refine ⟨fun i => if i ≤ 3 then 0 else d (1/10), ?_, ?_⟩
  · intro i _ _
    dsimp only
    split_ifs
    · exact le_refl _
    · exact hp.le
    · omega
    · exact le_refl _
  · intro t _ _
    dsimp only
    rw [if_pos (by omega), abs_zero]
    exact hp.le

end PetIGA.Flt
