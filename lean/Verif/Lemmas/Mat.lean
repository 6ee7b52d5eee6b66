import Verif.Model.Mat
import Verif.Spec.Coupling
import Verif.Lemmas.Layout
import Verif.Props.Axis
import Mathlib.Tactic.Linarith
import Mathlib.Tactic.Ring

/-! Lemmas about the column ranges of one direction. -/

set_option linter.unusedSectionVars false

namespace PetIGA.Mat
open PetIGA.Ax PetIGA.Lay PetIGA.Grid PetIGA.Spec

variable {K : Type} [Field K] [LinearOrder K] [IsStrictOrderedRing K]

theorem next_le {m : Int} {U : Int → K} (hs : SortedKnots m U) {i k : Int} (h0 : 0 ≤ i) (hi : i ≤ k) (hk : k + 1 ≤ m)
    (hlt : U k < U (k+1)) : nextKnot m U i 1 ≤ k + 1 := by
  obtain ⟨a, b, c, d⟩ := nextKnot_fwd U h0 (show i < m by omega)
  by_contra hc
  have := c (k+1) (by omega) (by omega)
  have h2 := sorted_mono hs h0 hi (by omega)
  exact this (lt_of_le_of_lt h2 hlt)

theorem next_mono {m : Int} {U : Int → K} (hs : SortedKnots m U) {i j : Int} (h0 : 0 ≤ i) (hij : i ≤ j) (hj : j < m) :
    nextKnot m U i 1 ≤ nextKnot m U j 1 := by
  obtain ⟨a, b, c, d⟩ := nextKnot_fwd U (show 0 ≤ j by omega) hj
  obtain ⟨a', b', c', d'⟩ := nextKnot_fwd U h0 (show i < m by omega)
  by_contra hc
  have h1 := d (by omega)
  have h2 := sorted_mono hs h0 hij (by omega)
  exact c' _ (by omega) (by omega) (lt_of_le_of_lt h2 h1)

/-- The interval just before the returned knot is non-empty (unless the end was reached). -/
theorem next_step {m : Int} {U : Int → K} (hs : SortedKnots m U) {i : Int} (h0 : 0 ≤ i) (hi : i < m)
    (hn : nextKnot m U i 1 < m) : U (nextKnot m U i 1 - 1) < U (nextKnot m U i 1) := by
  obtain ⟨a, b, c, d⟩ := nextKnot_fwd U h0 hi
  rw [nextKnot_run hs h0 hi (by omega) (by omega)]
  exact d hn

theorem prev_ge {m : Int} {U : Int → K} {i k : Int} (h0 : 0 ≤ k) (hi : k < i) (hm : i ≤ m)
    (hlt : U k < U i) : k ≤ nextKnot m U i (-1) := by
  obtain ⟨a, b, c, d⟩ := C04_next_knot_backward m U i (by omega) hm
  by_contra hc
  exact absurd hlt (not_lt.2 (c k (by omega) hi))

theorem prev_range {m : Int} {U : Int → K} {i : Int} (hi : 0 < i) (hm : i ≤ m) :
    0 ≤ nextKnot m U i (-1) ∧ nextKnot m U i (-1) < i ∧ (0 < nextKnot m U i (-1) → U (nextKnot m U i (-1)) < U i) := by
  obtain ⟨a, b, c, d⟩ := C04_next_knot_backward m U i hi hm
  exact ⟨by omega, by omega, fun h => d h⟩

theorem prev_mono {m : Int} {U : Int → K} (hs : SortedKnots m U) {i j : Int} (h0 : 0 < i) (hij : i ≤ j) (hj : j ≤ m) :
    nextKnot m U i (-1) ≤ nextKnot m U j (-1) := by
  obtain ⟨a, b, c⟩ := prev_range (U := U) h0 (show i ≤ m by omega)
  obtain ⟨a', b', c'⟩ := prev_range (U := U) (show 0 < j by omega) hj
  by_cases h : 0 < nextKnot m U i (-1)
  · exact prev_ge (by omega) (by omega) hj (lt_of_lt_of_le (c h) (sorted_mono hs (by omega) hij hj))
  · omega

/-- Column ranges of the Galerkin method. -/
def galF (ax : Axis K) (i : Int) : Int :=
  if ax.periodic = false then (if i ≤ ax.p then 0 else nextKnot ax.m ax.U i 1 - ax.p - 1)
  else if i = 0 then nextKnot ax.m ax.U ax.nnp 1 - ax.nnp - ax.p - 1
  else nextKnot ax.m ax.U i 1 - ax.p - 1

/-- Column ranges of the Galerkin method. -/
def galL (ax : Axis K) (i : Int) : Int :=
  if ax.periodic = false ∧ i ≥ ax.m - ax.p - 1 - ax.p then ax.m - ax.p - 1
  else nextKnot ax.m ax.U (i + ax.p + 1) (-1)

theorem stencil_gal {ax : Axis K} (h : WF ax) (offset : List Int) (i : Int) :
    stencil false offset ax i = .ok (galF ax i, galL ax i) := by
  have hn := h.nnp
  unfold stencil galF galL
  cases hp : ax.periodic with
  | false => simp
  | true =>
    have hn' : ax.nnp = ax.m - ax.p - 1 - (ax.p - (nextKnot ax.m ax.U (ax.m - ax.p - 1 + 1) 1 - (ax.m - ax.p - 1 + 1))) := by
      rw [hn]; simp only [computeNnp, hp, if_true]
    by_cases hi : i = 0
    · rw [sub_add_cancel] at hn'
      simp [hi]
      rw [← hn']
    · simp [hi]

/-- The knots of a periodic axis repeat after `nnp` knots, or the axis closes with continuity zero. -/
def PeriodicOK (ax : Axis K) : Prop :=
  ax.periodic = true → ax.nnp = ax.m - ax.p - 1 ∨
    ∀ j : Int, 0 ≤ j → j + ax.nnp ≤ ax.m → ax.U (j + ax.nnp) = ax.U j + (ax.U (ax.m - ax.p) - ax.U ax.p)

theorem strict_of_legal {p m : Int} {U : Int → K} (h : LegalKnots p m U) {i : Int} (h0 : 0 ≤ i) (h1 : i + p + 1 ≤ m) :
    U i < U (i+p+1) := by
  have hp := h.degree
  have hm := h.enough
  by_cases hi : i + p + 1 < m
  · have := h.mult (i+1) (by omega) (by omega)
    rw [show i + 1 + p = i + p + 1 by ring] at this
    exact lt_of_le_of_lt (h.sorted i h0 (by omega)) this
  · have := h.mult i (by omega) (by omega)
    exact lt_of_lt_of_le this (h.sorted (i+p) (by omega) (by omega))

theorem next_bound {ax : Axis K} (h : WF ax) {i : Int} (h0 : 0 ≤ i) (h1 : i + ax.p + 1 ≤ ax.m) :
    i + 1 ≤ nextKnot ax.m ax.U i 1 ∧ nextKnot ax.m ax.U i 1 ≤ i + ax.p + 1 := by
  obtain ⟨a, b, c, d⟩ := nextKnot_fwd ax.U h0 (show i < ax.m by have := h.legal.degree; omega)
  refine ⟨by omega, ?_⟩
  by_contra hc
  exact c (i+ax.p+1) (by have := h.legal.degree; omega) (by omega) (strict_of_legal h.legal h0 h1)

theorem prev_bound {ax : Axis K} (h : WF ax) {i : Int} (h0 : 0 ≤ i) (h1 : i + ax.p + 1 ≤ ax.m) :
    i ≤ nextKnot ax.m ax.U (i+ax.p+1) (-1) ∧ nextKnot ax.m ax.U (i+ax.p+1) (-1) ≤ i + ax.p := by
  have hp := h.legal.degree
  obtain ⟨a, b, c⟩ := prev_range (U := ax.U) (show 0 < i + ax.p + 1 by omega) h1
  exact ⟨prev_ge h0 (by omega) h1 (strict_of_legal h.legal h0 h1), by omega⟩

/-- The range contains the row itself and at most `p` nodes on each side. -/
theorem gal_bounds {ax : Axis K} (h : WF ax) {i : Int} (h0 : 0 ≤ i) (h1 : i < ax.m - ax.p) :
    galF ax i ≤ i ∧ i ≤ galL ax i ∧ i - ax.p ≤ galF ax i ∧ galL ax i ≤ i + ax.p := by
  obtain ⟨n1, n2, n3, n4⟩ := nnp_bounds h
  have hp := h.legal.degree
  have hm := h.legal.enough
  have a := next_bound h h0 (by omega)
  have b := prev_bound h h0 (by omega)
  unfold galF galL
  cases hper : ax.periodic with
  | false =>
    simp only [if_true, true_and]
    have := n3 hper
    split_ifs <;> omega
  | true =>
    have := n4 hper
    have c := next_bound h (i := ax.nnp) (by omega) (by omega)
    simp only [Bool.true_eq_false, if_false, false_and]
    split_ifs <;> omega

theorem gal_self {ax : Axis K} (h : WF ax) {i : Int} (h0 : 0 ≤ i) (h1 : i < ax.nnp) :
    galF ax i ≤ i ∧ i ≤ galL ax i ∧ i - ax.p ≤ galF ax i ∧ galL ax i ≤ i + ax.p :=
  gal_bounds h h0 (by have := nnp_bounds h; omega)

theorem gal_mono {ax : Axis K} (h : WF ax) (hper : PeriodicOK ax) {i j : Int} (h0 : 0 ≤ i) (hij : i ≤ j) (h1 : j < ax.nnp) :
    galF ax i ≤ galF ax j ∧ galL ax i ≤ galL ax j := by
  obtain ⟨n1, n2, n3, n4⟩ := nnp_bounds h
  have hp := h.legal.degree
  have hm := h.legal.enough
  have hs := h.legal.sorted
  have a := next_mono hs h0 hij (by omega)
  have b := prev_mono hs (i := i + ax.p + 1) (j := j + ax.p + 1) (by omega) (by omega) (by omega)
  have a1 := next_bound h h0 (by omega)
  have a2 := next_bound h (i := j) (by omega) (by omega)
  have b1 := prev_bound h h0 (by omega)
  have b2 := prev_bound h (i := j) (by omega) (by omega)
  unfold galF galL
  cases hq : ax.periodic with
  | false =>
    simp only [if_true, true_and]
    have := n3 hq
    constructor <;> split_ifs <;> omega
  | true =>
    have hnn := n4 hq
    have c := next_bound h (i := ax.nnp) (by omega) (by omega)
    simp only [Bool.true_eq_false, if_false, false_and]
    refine ⟨?_, by omega⟩
    by_cases hi : i = 0
    · by_cases hj : j = 0
      · simp only [hi, hj]; omega
      · simp only [if_pos hi, if_neg hj]
        rcases hper hq with hC | hT
        · -- continuity zero: the range of row 0 starts at `-p`
          have hlt : ax.U ax.nnp < ax.U (ax.nnp + 1) := by
            have hn := h.nnp
            rw [computeNnp, hq, if_pos rfl] at hn
            simp only at hn
            have hk : nextKnot ax.m ax.U (ax.m - ax.p - 1 + 1) 1 = ax.m := by omega
            have h1 := h.legal.mult ax.nnp (by omega) (by omega)
            have h2 : ax.U (ax.nnp + ax.p) = ax.U (ax.m - ax.p - 1 + 1) :=
              nextKnot_run hs (k := ax.m - ax.p - 1 + 1) (by omega) (by omega) (by omega) (by omega)
            rw [h2] at h1
            rw [hC] at h1 ⊢
            exact h1
          have := next_le hs (i := ax.nnp) (k := ax.nnp) (by omega) (le_refl _) (by omega) hlt
          omega
        · by_cases hk : nextKnot ax.m ax.U j 1 ≤ ax.p + 1
          · have hst := next_step hs (i := j) (by omega) (by omega) (by omega)
            have t1 := hT (nextKnot ax.m ax.U j 1 - 1) (by omega) (by omega)
            have t2 := hT (nextKnot ax.m ax.U j 1) (by omega) (by omega)
            have := next_le hs (i := ax.nnp) (k := nextKnot ax.m ax.U j 1 - 1 + ax.nnp) (by omega) (by omega) (by omega) (by
              rw [t1, show nextKnot ax.m ax.U j 1 - 1 + ax.nnp + 1 = nextKnot ax.m ax.U j 1 + ax.nnp by ring, t2]
              linarith)
            omega
          · omega
    · have hj : j ≠ 0 := by omega
      simp only [if_neg hi, if_neg hj]
      omega

/-- Shifting an interval of a repeating knot vector by a number of periods. -/
theorem strict_shift {ax : Axis K} (hT : ∀ j : Int, 0 ≤ j → j + ax.nnp ≤ ax.m → ax.U (j + ax.nnp) = ax.U j + (ax.U (ax.m - ax.p) - ax.U ax.p))
    (hn : 0 ≤ ax.nnp) : ∀ (t : Nat) (k : Int), 0 ≤ k → k + (t:Int) * ax.nnp + 1 ≤ ax.m →
      ax.U (k + (t:Int) * ax.nnp) < ax.U (k + (t:Int) * ax.nnp + 1) → ax.U k < ax.U (k+1)
  | 0, k, _, _, h => by simpa using h
  | t+1, k, h0, h1, h => by
    have e : k + ((t+1 : Nat) : Int) * ax.nnp = k + (t:Int) * ax.nnp + ax.nnp := by push_cast; ring
    rw [e] at h h1
    have hnn : 0 ≤ (t:Int) * ax.nnp := by positivity
    rw [show k + (t:Int) * ax.nnp + ax.nnp + 1 = k + (t:Int) * ax.nnp + 1 + ax.nnp by ring,
      hT (k + (t:Int) * ax.nnp) (by omega) (by omega), hT (k + (t:Int) * ax.nnp + 1) (by omega) (by omega)] at h
    exact strict_shift hT hn t k h0 (by omega) (by linarith)

/-- Every coupled node appears, possibly shifted by whole periods, in the column range. -/
theorem gal_cover {ax : Axis K} (h : WF ax) (hper : PeriodicOK ax) {i j : Int} (hc : Coupled ax.p ax.m ax.U ax.nnp i j) :
    ∃ c t : Int, galF ax i ≤ c ∧ c ≤ galL ax i ∧ c = j + t * ax.nnp := by
  obtain ⟨n1, n2, n3, n4⟩ := nnp_bounds h
  have hp := h.legal.degree
  have hm := h.legal.enough
  have hs := h.legal.sorted
  obtain ⟨k, a, b, ⟨k1, k2, k3⟩, a1, a2, b1, b2, ⟨i0, i1, t, ht⟩, ⟨j0, j1, u, hu⟩⟩ := hc
  cases hq : ax.periodic with
  | false =>
    have hN := n3 hq
    have ht0 : t = 0 := by
      by_contra hne
      rcases lt_or_gt_of_ne hne with hl | hl
      · have : t * ax.nnp ≤ (-1) * ax.nnp := by apply mul_le_mul_of_nonneg_right <;> omega
        omega
      · have : 1 * ax.nnp ≤ t * ax.nnp := by apply mul_le_mul_of_nonneg_right <;> omega
        omega
    have hu0 : u = 0 := by
      by_contra hne
      rcases lt_or_gt_of_ne hne with hl | hl
      · have : u * ax.nnp ≤ (-1) * ax.nnp := by apply mul_le_mul_of_nonneg_right <;> omega
        omega
      · have : 1 * ax.nnp ≤ u * ax.nnp := by apply mul_le_mul_of_nonneg_right <;> omega
        omega
    subst ht0 hu0
    have e1 := next_le hs (i := i) (k := k) i0 (by omega) (by omega) k3
    have e2 := prev_ge (m := ax.m) (U := ax.U) (i := i + ax.p + 1) (k := k) (by omega) (by omega) (by omega)
      (lt_of_lt_of_le k3 (sorted_mono hs (by omega) (by omega) (by omega)))
    refine ⟨j, 0, ?_, ?_, by ring⟩
    · unfold galF; simp only [hq, if_true]; split_ifs <;> omega
    · unfold galL; simp only [hq, true_and]; split_ifs <;> omega
  | true =>
    have hnn := n4 hq
    have hN : 1 ≤ ax.nnp := by omega
    have t0 : 0 ≤ t := by
      by_contra hne
      have : t * ax.nnp ≤ (-1) * ax.nnp := by apply mul_le_mul_of_nonneg_right <;> omega
      omega
    obtain ⟨T, rfl⟩ := Int.eq_ofNat_of_zero_le t0
    -- the standard argument, for a non-empty interval `k0` among those of function `i`
    have std : ∀ k0 c : Int, 0 ≤ k0 → k0 ≤ ax.m - ax.p - 1 → ax.U k0 < ax.U (k0+1) → k0 - ax.p ≤ i → i ≤ k0 → k0 - ax.p ≤ c → c ≤ k0 →
        (i = 0 → galF ax 0 ≤ c) → galF ax i ≤ c ∧ c ≤ galL ax i := by
      intro k0 c q0 q1 q2 q3 q4 q5 q6 q7
      have e1 := next_le hs (i := i) (k := k0) i0 q4 (by omega) q2
      have e2 := prev_ge (m := ax.m) (U := ax.U) (i := i + ax.p + 1) (k := k0) q0 (by omega) (by omega)
        (lt_of_lt_of_le q2 (sorted_mono hs (by omega) (by omega) (by omega)))
      constructor
      · by_cases hi : i = 0
        · rw [hi]; exact q7 hi
        · unfold galF; simp only [hq, Bool.true_eq_false, if_false, if_neg hi]; omega
      · unfold galL; simp only [hq, Bool.true_eq_false, false_and, if_false]; omega
    rcases hper hq with hC | hT
    · have g0 : galF ax 0 = - ax.p := by
        have hlt : ax.U ax.nnp < ax.U (ax.nnp + 1) := by
          have hn := h.nnp
          rw [computeNnp, hq, if_pos rfl] at hn
          simp only at hn
          have h1 := h.legal.mult ax.nnp (by omega) (by omega)
          have h2 : ax.U (ax.nnp + ax.p) = ax.U (ax.m - ax.p - 1 + 1) :=
            nextKnot_run hs (k := ax.m - ax.p - 1 + 1) (by omega) (by omega) (by omega) (by omega)
          rw [h2] at h1
          rw [hC] at h1 ⊢
          exact h1
        have q1 := next_le hs (i := ax.nnp) (k := ax.nnp) (by omega) (le_refl _) (by omega) hlt
        have q2 := next_bound h (i := ax.nnp) (by omega) (by omega)
        unfold galF
        simp only [hq, Bool.true_eq_false, if_false, if_true]
        omega
      by_cases hT0 : T = 0
      · subst hT0
        have hai : a = i := by rw [ht]; simp
        obtain ⟨q1, q2⟩ := std k b (by omega) k2 k3 (by omega) (by omega) b1 b2 (by intro; rw [g0]; omega)
        exact ⟨b, u, q1, q2, hu⟩
      · have : 1 * ax.nnp ≤ (T:Int) * ax.nnp := by apply mul_le_mul_of_nonneg_right <;> omega
        have hk : k = ax.nnp := by omega
        have hi : i = 0 := by omega
        have hself := gal_self h (i := 0) (le_refl _) (by omega)
        refine ⟨b - ax.nnp, u - 1, ?_, ?_, by rw [hu]; ring⟩
        · rw [hi, g0]; omega
        · rw [hi]; omega
    · have hTn : 0 ≤ (T:Int) * ax.nnp := by positivity
      have hk0 : 0 ≤ k - (T:Int) * ax.nnp := by omega
      have hst := strict_shift hT (by omega) T (k - (T:Int) * ax.nnp) hk0 (by omega)
        (by rw [show k - (T:Int) * ax.nnp + (T:Int) * ax.nnp = k by ring]; exact k3)
      obtain ⟨q1, q2⟩ := std (k - (T:Int) * ax.nnp) (b - (T:Int) * ax.nnp) hk0 (by omega) hst (by omega) (by omega) (by omega) (by omega) (by
        intro hi
        have t1 := hT (k - (T:Int) * ax.nnp) (by omega) (by omega)
        have t2 := hT (k - (T:Int) * ax.nnp + 1) (by omega) (by omega)
        have := next_le hs (i := ax.nnp) (k := k - (T:Int) * ax.nnp + ax.nnp) (by omega) (by omega) (by omega) (by
          rw [t1, show k - (T:Int) * ax.nnp + ax.nnp + 1 = k - (T:Int) * ax.nnp + 1 + ax.nnp by ring, t2]
          linarith)
        unfold galF
        simp only [hq, Bool.true_eq_false, if_false, if_true]
        omega)
      exact ⟨b - (T:Int) * ax.nnp, u - (T:Int), q1, q2, by rw [hu]; ring⟩

/-- A column that stands for node `j` in a range around a node can be chosen so that one wrap gives `j`. -/
theorem wrap_choice {N f l i c j t : Int} (hi0 : 0 ≤ i) (hi1 : i ≤ l) (hfc : f ≤ c) (hcl : c ≤ l) (hj0 : 0 ≤ j) (hj1 : j < N)
    (hc : c = j + t * N) : ∃ c', f ≤ c' ∧ c' ≤ l ∧ wrap N c' = j := by
  have hwrap : ∀ c', -N ≤ c' → (∃ t, c' = j + t * N) → wrap N c' = j := by
    intro c' h1 ⟨t, ht⟩
    unfold wrap
    by_cases h2 : c' < 0
    · rw [if_pos h2]
      have : t = -1 := by nlinarith
      subst this; omega
    · rw [if_neg h2]
      have ht0 : 0 ≤ t := by
        by_contra hne
        have : t * N ≤ (-1) * N := by apply mul_le_mul_of_nonneg_right <;> omega
        omega
      by_cases h3 : c' ≥ N
      · rw [if_pos h3, Int.tmod_eq_emod_of_nonneg (by omega), ht, Int.add_mul_emod_self_right]
        exact Int.emod_eq_of_lt hj0 hj1
      · rw [if_neg h3]
        have : t = 0 := by
          by_contra hne
          have : 1 * N ≤ t * N := by apply mul_le_mul_of_nonneg_right <;> omega
          omega
        subst this; omega
  by_cases hn : -N ≤ c
  · exact ⟨c, hfc, hcl, hwrap c hn ⟨t, hc⟩⟩
  · refine ⟨j - N, ?_, by omega, hwrap _ (by omega) ⟨-1, by ring⟩⟩
    omega

end PetIGA.Mat
