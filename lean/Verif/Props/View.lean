import Verif.Model.View
import Verif.Props.Axis
import Verif.Props.Assemble
import Mathlib.Data.Int.Interval
import Mathlib.Tactic.IntervalCases
import Mathlib.Algebra.BigOperators.Group.List.Basic
import Mathlib.Order.Bounds.Basic
import Mathlib.Order.Interval.Finset.Basic
/-
What `IGAView` reports (C113).
-/
set_option linter.unusedSectionVars false
namespace PetIGA.Vw
open PetIGA.Ax PetIGA.Lay PetIGA.Spec PetIGA.Grid PetIGA.Part

variable {K : Type} [Field K] [LinearOrder K] [IsStrictOrderedRing K]

/-! ### Specification -/

/-- How often `v` occurs among the knots `U 1, …, U (m-1)` (the first and the last knot have no influence on the splines). -/
noncomputable def mult (m : Int) (U : Int → K) (v : K) : Nat := ((Finset.Ioo 0 m).filter fun i => U i = v).card

/-- The knots strictly inside the domain. -/
def Inner (ax : Axis K) : Set K := { v | ax.U ax.p < v ∧ v < ax.U (ax.m - ax.p) ∧ ∃ i, 0 ≤ i ∧ i ≤ ax.m ∧ ax.U i = v }

/-- The knots of a period. -/
def Round (ax : Axis K) : Set K := { v | ax.U ax.p ≤ v ∧ v < ax.U (ax.m - ax.p) ∧ ∃ i, 0 ≤ i ∧ i ≤ ax.m ∧ ax.U i = v }

/-- The continuity the splines of degree `p` have at a knot, C96. -/
noncomputable def contAt (ax : Axis K) (v : K) : Int := ax.p - mult ax.m ax.U v

/-! ### The loop -/

variable {p m : Int} {U : Int → K}

theorem le_of_sorted (hs : SortedKnots m U) : ∀ (d : Nat) {i : Int}, 0 ≤ i → i + d ≤ m → U i ≤ U (i + d)
  | 0, i, _, _ => by simp
  | d+1, i, h0, h1 => by
    have a := le_of_sorted hs d (i := i) h0 (by push_cast at h1; omega)
    have b := hs (i + d) (by omega) (by push_cast at h1; omega)
    push_cast
    rw [← add_assoc]
    exact a.trans b

theorem mono (hs : SortedKnots m U) {i j : Int} (h0 : 0 ≤ i) (hij : i ≤ j) (h1 : j ≤ m) : U i ≤ U j := by
  have := le_of_sorted hs (j - i).toNat (i := i) h0 (by omega)
  rwa [show i + ((j - i).toNat : Int) = j by omega] at this

/-- An index at which a run of equal knots begins. -/
def Start (U : Int → K) (ks i : Int) : Prop := i = ks ∨ U (i-1) < U i

theorem contLoop_spec (hs : SortedKnots m U) {ke ks : Int} (he : ke < m) : ∀ (f : Nat) (k : Int) (C : Int × Int), 1 ≤ ks → ks ≤ k → ke - k ≤ f → (k < ke → Start U ks k) →
    let run := fun i => nextKnot m U i 1 - i
    let R := contLoop p m U ke f k C
    (R.1 ≤ C.1 ∧ C.2 ≤ R.2 ∧ ∀ i, k ≤ i → i < ke → Start U ks i → R.1 ≤ p - run i ∧ p - run i ≤ R.2) ∧
    (R.1 = C.1 ∨ ∃ i, k ≤ i ∧ i < ke ∧ Start U ks i ∧ R.1 = p - run i) ∧ (R.2 = C.2 ∨ ∃ i, k ≤ i ∧ i < ke ∧ Start U ks i ∧ R.2 = p - run i)
  | 0, k, C, _, _, hf, _ => by
    refine ⟨⟨le_refl _, le_refl _, ?_⟩, Or.inl rfl, Or.inl rfl⟩
    intro i h1 h2
    omega
  | f+1, k, C, h1, h2, hf, hk => by
    intro run R
    by_cases hc : k < ke
    · obtain ⟨a, b, c, d⟩ := nextKnot_fwd U (m := m) (k := k) (by omega) (by omega)
      have hrun := fun i => @nextKnot_run K _ _ _ m U hs k (by omega) (by omega) i
      have hR : R = contLoop p m U ke f (nextKnot m U k 1) (min C.1 (p - run k), max C.2 (p - run k)) := by
        simp only [R, contLoop, if_pos hc, run]
      have hst : nextKnot m U k 1 < ke → Start U ks (nextKnot m U k 1) := by
        intro hj
        right
        rw [hrun _ (by omega) (by omega)]
        exact d (by omega)
      obtain ⟨⟨A1, A2, A3⟩, A4, A5⟩ := contLoop_spec hs he f (nextKnot m U k 1) (min C.1 (p - run k), max C.2 (p - run k)) h1 (by omega) (by omega) hst
      rw [← hR] at A1 A2 A3 A4 A5
      dsimp only at A1 A2 A4 A5
      clear_value R
      have A1' := A1.trans (min_le_left _ _)
      have A1'' := A1.trans (min_le_right _ _)
      have A2' := (le_max_left _ _).trans A2
      have A2'' := (le_max_right _ _).trans A2
      refine ⟨⟨A1', A2', ?_⟩, ?_, ?_⟩
      · intro i i1 i2 i3
        by_cases hi : i = k
        · subst hi; exact ⟨A1'', A2''⟩
        · by_cases hj : i < nextKnot m U k 1
          · exfalso
            rcases i3 with i3 | i3
            · omega
            · rw [hrun i i1 hj, hrun (i-1) (by omega) (by omega)] at i3
              exact lt_irrefl _ i3
          · exact A3 i (by omega) i2 i3
      · rcases A4 with A4 | ⟨i, i1, i2, i3, i4⟩
        · rcases min_choice C.1 (p - run k) with e | e
          · left; rw [A4, e]
          · right; exact ⟨k, le_refl _, hc, hk hc, by rw [A4, e]⟩
        · right; exact ⟨i, by clear A1 A2; omega, i2, i3, i4⟩
      · rcases A5 with A5 | ⟨i, i1, i2, i3, i4⟩
        · rcases max_choice C.2 (p - run k) with e | e
          · left; rw [A5, e]
          · right; exact ⟨k, le_refl _, hc, hk hc, by rw [A5, e]⟩
        · right; exact ⟨i, by clear A1 A2; omega, i2, i3, i4⟩
    · have hR : R = C := by simp only [R, contLoop, if_neg hc]
      rw [hR]
      exact ⟨⟨le_refl _, le_refl _, fun i i1 i2 => by omega⟩, Or.inl rfl, Or.inl rfl⟩

/-- The length of a run is the multiplicity. -/
theorem run_mult (hs : SortedKnots m U) {i : Int} (h1 : 1 ≤ i) (h2 : i < m) (hi : i = 1 ∨ U (i-1) < U i) :
    nextKnot m U i 1 - i = mult m U (U i) := by
  obtain ⟨a, b, c, d⟩ := nextKnot_fwd U (m := m) (k := i) (by omega) h2
  have hrun := fun l => @nextKnot_run K _ _ _ m U hs i (by omega) h2 l
  have : (Finset.Ioo 0 m).filter (fun l => U l = U i) = Finset.Ico i (nextKnot m U i 1) := by
    ext l
    simp only [Finset.mem_filter, Finset.mem_Ioo, Finset.mem_Ico]
    constructor
    · rintro ⟨⟨l0, l1⟩, e⟩
      refine ⟨?_, ?_⟩
      · by_contra hc
        rcases hi with hi | hi
        · omega
        · have := mono hs (i := l) (j := i-1) (by omega) (by omega) (by omega)
          rw [e] at this
          exact absurd hi (not_lt.2 this)
      · by_contra hc
        have hj : nextKnot m U i 1 < m := by omega
        have := mono hs (i := nextKnot m U i 1) (j := l) (by omega) (by omega) (by omega)
        rw [e] at this
        exact absurd (d hj) (not_lt.2 this)
    · rintro ⟨l0, l1⟩
      exact ⟨⟨by omega, by omega⟩, hrun l l0 l1⟩
  unfold mult
  rw [this, Int.card_Ico]
  omega

/-- The first index of a knot value. -/
theorem first_index (hs : SortedKnots m U) {a : Int} (ha : 1 ≤ a) : ∀ (d : Nat), a + d ≤ m → (a = 1 ∨ U (a-1) < U a) →
    ∃ i, a ≤ i ∧ i ≤ a + d ∧ U i = U (a + d) ∧ (i = 1 ∨ U (i-1) < U i)
  | 0, _, h => ⟨a, le_refl _, by simp, by simp, h⟩
  | d+1, hd, h => by
    by_cases hc : U (a + d) < U (a + (d+1:Nat))
    · exact ⟨a + (d+1:Nat), by omega, le_refl _, rfl, Or.inr (by rwa [show a + ((d+1:Nat):Int) - 1 = a + d by push_cast; omega])⟩
    · obtain ⟨i, h1, h2, h3, h4⟩ := first_index hs ha d (by push_cast at hd; omega) h
      have e : U (a + d) = U (a + (d+1:Nat)) := by
        refine le_antisymm ?_ (not_lt.1 hc)
        exact mono hs (by omega) (by push_cast; omega) hd
      exact ⟨i, h1, by push_cast; omega, by rw [h3, e], h4⟩

theorem mult_bounds (hl : LegalKnots p m U) {i : Int} (h1 : 1 ≤ i) (h2 : i < m) (hi : i = 1 ∨ U (i-1) < U i) :
    1 ≤ (mult m U (U i) : Int) ∧ (mult m U (U i) : Int) ≤ p := by
  obtain ⟨a, b, c, d⟩ := nextKnot_fwd U (m := m) (k := i) (by omega) h2
  have e := run_mult hl.sorted h1 h2 hi
  refine ⟨by omega, ?_⟩
  by_contra hc
  have hr := nextKnot_run hl.sorted (k := i) (i := i + p) (by omega) h2 (by have := hl.degree; omega) (by omega)
  have := hl.mult i h1 (by omega)
  rw [hr] at this
  exact lt_irrefl _ this

/-- The loop finds the smallest and the largest continuity of the knots of an index range. -/
theorem contLoop_least (hl : LegalKnots p m U) {ks ke : Int} (h1 : 1 ≤ ks) (he : ke < m) (hke : ks < ke) (hk : ks = 1 ∨ U (ks-1) < U ks) :
    let V := { c : Int | ∃ i, ks ≤ i ∧ i < ke ∧ c = p - mult m U (U i) }
    let R := contLoop p m U ke (m+1).toNat ks (p, -1)
    IsLeast V R.1 ∧ IsGreatest V R.2 := by
  intro V R
  have hs := hl.sorted
  have first : ∀ i, ks ≤ i → i < ke → ∃ j, ks ≤ j ∧ j < ke ∧ U j = U i ∧ (j = 1 ∨ U (j-1) < U j) := by
    intro i i1 i2
    obtain ⟨j, a, b, c, d⟩ := first_index hs h1 (i - ks).toNat (by omega) hk
    rw [show ks + ((i - ks).toNat : Int) = i by omega] at b c
    exact ⟨j, a, by omega, c, d⟩
  have st : ∀ j, Start U ks j → (j = 1 ∨ U (j-1) < U j) := by
    rintro j (rfl | h)
    · exact hk
    · exact Or.inr h
  have st' : ∀ j, ks ≤ j → (j = 1 ∨ U (j-1) < U j) → Start U ks j := by
    rintro j hj (rfl | h)
    · exact Or.inl (by omega)
    · exact Or.inr h
  obtain ⟨⟨A1, A2, A3⟩, A4, A5⟩ := contLoop_spec (p := p) hs (ks := ks) he (m+1).toNat ks (p, -1) h1 (le_refl _) (by omega) (fun _ => Or.inl rfl)
  have B := A3 ks (le_refl _) hke (Or.inl rfl)
  have mb := mult_bounds hl h1 (by omega) hk
  have rm := run_mult hs h1 (by omega) hk
  dsimp only at A4 A5 B
  have lower : ∀ i, ks ≤ i → i < ke → R.1 ≤ p - mult m U (U i) ∧ p - mult m U (U i) ≤ R.2 := by
    intro i i1 i2
    obtain ⟨j, j1, j2, j3, j4⟩ := first i i1 i2
    have := A3 j j1 j2 (st' j j1 j4)
    rw [← j3, ← run_mult hs (by omega) (by omega) j4]
    exact this
  refine ⟨⟨?_, ?_⟩, ⟨?_, ?_⟩⟩
  · rcases A4 with A4 | ⟨i, i1, i2, i3, i4⟩
    · exfalso; rw [A4] at B; omega
    · refine ⟨i, i1, i2, ?_⟩
      rw [← run_mult hs (by omega) (by omega) (st i i3)]
      exact i4
  · rintro c ⟨i, i1, i2, rfl⟩
    exact (lower i i1 i2).1
  · rcases A5 with A5 | ⟨i, i1, i2, i3, i4⟩
    · exfalso; rw [A5] at B; omega
    · refine ⟨i, i1, i2, ?_⟩
      rw [← run_mult hs (by omega) (by omega) (st i i3)]
      exact i4
  · rintro c ⟨i, i1, i2, rfl⟩
    exact (lower i i1 i2).2

/-! ### The continuity of an axis -/

/-- **C113**, continuity, not periodic: if the domain begins and ends with an element, the axis is printed with `*` exactly
if it has no knot inside the domain, and otherwise with the smallest and the largest continuity its splines have at the
knots inside the domain.  Partial: the two hypotheses are needed, see below. -/
theorem C113_continuity_partial {ax : Axis K} (h : WF ax) (hp : ax.periodic = false)
    (hfirst : ax.U ax.p < ax.U (ax.p + 1)) (hlast : ax.U (ax.m - ax.p - 1) < ax.U (ax.m - ax.p)) :
    match continuity ax with
    | none => Inner ax = ∅
    | some (a, b) => IsLeast (contAt ax '' Inner ax) a ∧ IsGreatest (contAt ax '' Inner ax) b := by
  have hl := h.legal
  have hs := hl.sorted
  have hd := hl.degree
  have hn := hl.enough
  obtain ⟨c1, c2⟩ := computeSpans_spec hs hd (show ax.p ≤ ax.m by omega)
  rw [← h.span] at c1 c2
  have nel1 : ax.nel = 1 ↔ ax.m = 2 * ax.p + 1 := by
    rw [h.nel]
    have m1 : ax.p ∈ ax.span := (c1 _).2 ⟨le_refl _, by omega, hfirst⟩
    have m2 : ax.m - ax.p - 1 ∈ ax.span := (c1 _).2 ⟨by omega, le_refl _, by rwa [show ax.m - ax.p - 1 + 1 = ax.m - ax.p by omega]⟩
    constructor
    · intro e
      obtain ⟨x, hx⟩ := List.length_eq_one_iff.1 (show ax.span.length = 1 by omega)
      rw [hx, List.mem_singleton] at m1 m2
      omega
    · intro e
      have : ∀ k ∈ ax.span, k = ax.p := fun k hk => by
        obtain ⟨a, b, _⟩ := (c1 k).1 hk
        omega
      match hsp : ax.span, m1, this, c2 with
      | [x], _, _, _ => rfl
      | x :: y :: l, _, this, c2 =>
        have h1 := this x (by simp)
        have h2 := this y (by simp)
        have := (List.pairwise_cons.1 c2).1 y (by simp)
        omega
  have inner : ∀ v, v ∈ Inner ax ↔ ∃ i, ax.p + 1 ≤ i ∧ i < ax.m - ax.p ∧ ax.U i = v := by
    intro v
    constructor
    · rintro ⟨v1, v2, i, i0, i1, rfl⟩
      refine ⟨i, ?_, ?_, rfl⟩
      · by_contra hc
        exact absurd v1 (not_lt.2 (mono hs i0 (by omega) (by omega)))
      · by_contra hc
        exact absurd v2 (not_lt.2 (mono hs (by omega) (by omega) i1))
    · rintro ⟨i, i0, i1, rfl⟩
      exact ⟨lt_of_lt_of_le hfirst (mono hs (by omega) i0 (by omega)), lt_of_le_of_lt (mono hs (by omega) (by omega) (by omega)) hlast,
        i, by omega, by omega, rfl⟩
  by_cases e : ax.nel = 1
  · have : continuity ax = none := by simp [continuity, e, hp]
    rw [this]
    dsimp only
    ext v
    rw [inner]
    simp only [Set.mem_empty_iff_false, iff_false]
    rintro ⟨i, i0, i1, _⟩
    have := nel1.1 e
    omega
  · have hc : continuity ax = some (contLoop ax.p ax.m ax.U (ax.m - ax.p) (ax.m + 1).toNat (ax.p + 1) (ax.p, -1)) := by
      simp [continuity, e, hp]
    rw [hc]
    dsimp only
    have := contLoop_least hl (ks := ax.p + 1) (ke := ax.m - ax.p) (by omega) (by omega)
      (by have := mt nel1.2 e; omega) (Or.inr (by rwa [show ax.p + 1 - 1 = ax.p by omega]))
    have hV : { c : Int | ∃ i, ax.p + 1 ≤ i ∧ i < ax.m - ax.p ∧ c = ax.p - mult ax.m ax.U (ax.U i) } = contAt ax '' Inner ax := by
      ext c
      simp only [Set.mem_setOf_eq, Set.mem_image, inner]
      constructor
      · rintro ⟨i, i0, i1, rfl⟩
        exact ⟨_, ⟨i, i0, i1, rfl⟩, rfl⟩
      · rintro ⟨v, ⟨i, i0, i1, rfl⟩, rfl⟩
        exact ⟨i, i0, i1, rfl⟩
    dsimp only at this
    rw [hV] at this
    exact this

/-- **C113**, continuity, periodic: if the knot that closes the period has the same multiplicity at both ends, the smallest and the
largest continuity at the knots of a period, the seam included.  Partial: the hypotheses. -/
theorem C113_continuity_periodic_partial {ax : Axis K} (h : WF ax) (hp : ax.periodic = true)
    (hfirst : ax.U ax.p < ax.U (ax.p + 1)) (hlast : ax.U (ax.m - ax.p - 1) < ax.U (ax.m - ax.p))
    (hseam : mult ax.m ax.U (ax.U ax.p) = mult ax.m ax.U (ax.U (ax.m - ax.p))) :
    ∃ a b, continuity ax = some (a, b) ∧ IsLeast (contAt ax '' Round ax) a ∧ IsGreatest (contAt ax '' Round ax) b := by
  have hl := h.legal
  have hs := hl.sorted
  have hd := hl.degree
  have hn := hl.enough
  obtain ⟨ks, hks⟩ : ∃ ks, ks = nextKnot ax.m ax.U ax.p (-1) + 1 := ⟨_, rfl⟩
  obtain ⟨ke, hke⟩ : ∃ ke, ke = nextKnot ax.m ax.U (ax.m - ax.p) 1 - 1 := ⟨_, rfl⟩
  refine ⟨_, _, by simp only [continuity, hp, if_true, Bool.true_eq_false, and_false, if_false]; rfl, ?_⟩
  rw [← hks, ← hke]
  obtain ⟨a1, a2, a3, a4⟩ := C04_next_knot_backward ax.m ax.U ax.p (by omega) (by omega)
  obtain ⟨b1, b2, b3, b4⟩ := nextKnot_fwd ax.U (m := ax.m) (k := ax.m - ax.p) (by omega) (by omega)
  have brun := fun i => @nextKnot_run K _ _ _ ax.m ax.U hs (ax.m - ax.p) (by omega) (by omega) i
  have eks : ∀ i, ks ≤ i → i ≤ ax.p → ax.U i = ax.U ax.p := by
    intro i i1 i2
    rcases eq_or_lt_of_le i2 with rfl | i2'
    · rfl
    · exact le_antisymm (mono hs (by omega) i2 (by omega)) (a3 i (by omega) i2')
  have := contLoop_least hl (ks := ks) (ke := ke) (by omega) (by omega) (by omega) (by
    by_cases hz : 0 < nextKnot ax.m ax.U ax.p (-1)
    · right
      rw [eks ks (le_refl _) (by omega), hks, show nextKnot ax.m ax.U ax.p (-1) + 1 - 1 = nextKnot ax.m ax.U ax.p (-1) by omega]
      exact a4 hz
    · left; omega)
  have hV : { c : Int | ∃ i, ks ≤ i ∧ i < ke ∧ c = ax.p - mult ax.m ax.U (ax.U i) } = contAt ax '' Round ax := by
    ext c
    simp only [Set.mem_setOf_eq, Set.mem_image]
    constructor
    · rintro ⟨i, i0, i1, rfl⟩
      by_cases hi : i < ax.m - ax.p
      · refine ⟨ax.U i, ⟨?_, lt_of_le_of_lt (mono hs (by omega) (by omega) (by omega)) hlast, i, by omega, by omega, rfl⟩, rfl⟩
        by_cases hi' : i ≤ ax.p
        · rw [eks i i0 hi']
        · exact mono hs (by omega) (by omega) (by omega)
      · refine ⟨ax.U ax.p, ⟨le_refl _, lt_of_lt_of_le hfirst (mono hs (by omega) (by omega) (by omega)), ax.p, by omega, by omega, rfl⟩, ?_⟩
        unfold contAt
        rw [hseam, brun i (by omega) (by omega)]
    · rintro ⟨v, ⟨v1, v2, i, i0, i1, rfl⟩, rfl⟩
      by_cases hi : i ≤ ax.p
      · refine ⟨ax.p, by omega, by omega, ?_⟩
        unfold contAt
        rw [le_antisymm (mono hs i0 hi (by omega)) v1]
      · refine ⟨i, by omega, ?_, rfl⟩
        by_contra hc
        exact absurd v2 (not_lt.2 (mono hs (by omega) (by omega) i1))
  dsimp only at this
  rw [hV] at this
  exact this

/-! ### The partition -/

theorem blocks_zip {Ns s l : List Int} (hb : Blocks Ns s l) : (s.zip l).map Prod.fst = s ∧ (s.zip l).map Prod.snd = l ∧
    (∀ q ∈ s.zip l, 0 ≤ q.2) := by
  induction hb with
  | nil => simp
  | cons h _ ih =>
    obtain ⟨a, b, c⟩ := ih
    refine ⟨by simp [a], by simp [b], ?_⟩
    intro q hq
    rw [List.zip_cons_cons, List.mem_cons] at hq
    rcases hq with rfl | hq
    · dsimp only; omega
    · exact c q hq

theorem box_whole : ∀ (Ns x : List Int), InBlock (Ns.map fun _ => 0) Ns x ↔ InBox Ns x
  | [], x => by
    constructor
    · intro h; cases h; exact .nil
    · intro h; cases h; exact .nil
  | N :: Ns, x => by
    constructor
    · intro h
      cases h with
      | cons h1 h2 => exact .cons (by dsimp only at h1; omega) ((box_whole Ns _).1 h2)
    · intro h
      cases h with
      | cons h1 h2 => exact .cons (by dsimp only; omega) ((box_whole Ns _).2 h2)

/-- The blocks of a partition together have as many points as the grid. -/
theorem partition_sum {Ns : List Int} {P : Nat} {st ln : Nat → List Int} (h : Partitions Ns P st ln) (hN : ∀ n ∈ Ns, 0 ≤ n) :
    ((List.range P).map fun r => prod (ln r)).sum = prod Ns := by
  have e1 : ∀ r ∈ List.range P, prod (ln r) = ((box ((st r).zip (ln r))).length : Int) := by
    intro r hr
    obtain ⟨-, b, c⟩ := blocks_zip (h.inside r (List.mem_range.1 hr))
    rw [length_box _ c, b]
  rw [List.map_congr_left e1]
  have hz : (Ns.map fun _ => (0:Int)).zip Ns = Ns.map fun n => (0, n) := by
    clear h hN e1
    induction Ns with
    | nil => rfl
    | cons a as ih => rw [List.map_cons, List.map_cons, List.zip_cons_cons, ih]
  have e2 : prod Ns = ((box (Ns.map fun n => (0, n))).length : Int) := by
    rw [length_box _ (by simpa using hN), List.map_map]
    simp [Function.comp_def]
  rw [e2]
  have mem : ∀ r, r < P → ∀ x, x ∈ box ((st r).zip (ln r)) ↔ InBlock (st r) (ln r) x := by
    intro r hr x
    obtain ⟨a, b, c⟩ := blocks_zip (h.inside r hr)
    rw [mem_box, a, b]
  have perm : ((List.range P).flatMap fun r => box ((st r).zip (ln r))).Perm (box (Ns.map fun n => (0, n))) := by
    refine (List.perm_ext_iff_of_nodup ?_ (nodup_box _)).2 ?_
    · rw [List.nodup_flatMap]
      refine ⟨fun r _ => nodup_box _, ?_⟩
      refine List.Pairwise.imp_of_mem ?_ (List.nodup_range (n := P))
      intro r r' hr hr' hne x hx hx'
      rw [List.mem_range] at hr hr'
      rw [mem r hr] at hx
      rw [mem r' hr'] at hx'
      obtain ⟨q, -, hu⟩ := h.owner x (inBlock_inBox (h.inside r hr) hx)
      exact hne ((hu r hr hx).trans (hu r' hr' hx').symm)
    · intro x
      rw [List.mem_flatMap, mem_box, List.map_map, List.map_map]
      have : InBlock (Ns.map (Prod.fst ∘ fun n : Int => ((0:Int), n))) (Ns.map (Prod.snd ∘ fun n : Int => ((0:Int), n))) x ↔ InBox Ns x := by
        rw [← box_whole]
        simp [Function.comp_def]
      rw [this]
      constructor
      · rintro ⟨r, hr, hx⟩
        rw [List.mem_range] at hr
        exact inBlock_inBox (h.inside r hr) ((mem r hr x).1 hx)
      · intro hx
        obtain ⟨r, ⟨hr, hb⟩, -⟩ := h.owner x hx
        exact ⟨r, List.mem_range.2 hr, (mem r hr x).2 hb⟩
  rw [← perm.length_eq, List.length_flatMap]
  clear e1 e2 perm mem
  induction List.range P with
  | nil => rfl
  | cons a as ih => simp [ih]

theorem ownCounts_eq (d : List Dir) : ownCounts d = (prod (d.map Dir.nodeLwidth), prod (d.map Dir.elemWidth)) := by
  have : ∀ (d : List Dir) (a b : Int), d.foldl (fun a d => (a.1 * d.nodeLwidth, a.2 * d.elemWidth)) (a, b) =
      (a * prod (d.map Dir.nodeLwidth), b * prod (d.map Dir.elemWidth)) := by
    intro d
    induction d with
    | nil => intro a b; simp [prod]
    | cons x xs ih => intro a b; simp only [List.foldl_cons, ih, List.map_cons, prod, Int.mul_assoc]
  unfold ownCounts
  rw [this]
  simp

theorem foldl_min_spec : ∀ (l : List Int) (a : Int), IsLeast {c | c ∈ a :: l} (l.foldl min a)
  | [], a => by simp [IsLeast, lowerBounds]
  | b :: l, a => by
    obtain ⟨h1, h2⟩ := foldl_min_spec l (min a b)
    refine ⟨?_, ?_⟩
    · rw [List.foldl_cons]
      simp only [Set.mem_setOf_eq, List.mem_cons] at h1 ⊢
      rcases h1 with h1 | h1
      · rw [h1]
        rcases min_choice a b with e | e <;> rw [e] <;> simp
      · exact Or.inr (Or.inr h1)
    · rw [List.foldl_cons]
      rintro c hc
      simp only [Set.mem_setOf_eq, List.mem_cons] at hc
      have h3 := h2 (show min a b ∈ _ by simp)
      rcases hc with rfl | rfl | hc
      · exact h3.trans (min_le_left _ _)
      · exact h3.trans (min_le_right _ _)
      · exact h2 (by simp [hc])

theorem foldl_max_spec : ∀ (l : List Int) (a : Int), IsGreatest {c | c ∈ a :: l} (l.foldl max a)
  | [], a => by simp [IsGreatest, upperBounds]
  | b :: l, a => by
    obtain ⟨h1, h2⟩ := foldl_max_spec l (max a b)
    refine ⟨?_, ?_⟩
    · rw [List.foldl_cons]
      simp only [Set.mem_setOf_eq, List.mem_cons] at h1 ⊢
      rcases h1 with h1 | h1
      · rw [h1]
        rcases max_choice a b with e | e <;> rw [e] <;> simp
      · exact Or.inr (Or.inr h1)
    · rw [List.foldl_cons]
      rintro c hc
      simp only [Set.mem_setOf_eq, List.mem_cons] at hc
      have h3 := h2 (show max a b ∈ _ by simp)
      rcases hc with rfl | rfl | hc
      · exact (le_max_left _ _).trans h3
      · exact (le_max_right _ _).trans h3
      · exact h2 (by simp [hc])

theorem foldl_add (l : List Int) (a : Int) : l.foldl (· + ·) a = (a :: l).sum := by
  induction l generalizing a with
  | nil => simp
  | cons b l ih => rw [List.foldl_cons, ih]; simp [add_assoc]

theorem reduce_spec {x : List Int} (h : x ≠ []) : (reduce x).1 = x.sum ∧ IsLeast {c | c ∈ x} (reduce x).2.1 ∧ IsGreatest {c | c ∈ x} (reduce x).2.2 := by
  match x, h with
  | a :: as, _ => exact ⟨foldl_add as a, foldl_min_spec as a, foldl_max_spec as a⟩

theorem parts {g2 : Guess2} {g3 : Guess3} {colloc : Bool} {size : Int} {procs : List Int} {axes axs : List (Axis K)} {Ls : List (Layout K)}
    (S : Asm.Setup g2 g3 colloc size procs axes axs Ls) (st ln : Dir → Int) (sz : Axis K → Int)
    (ht : ∀ ax ∈ axs, ∀ P, 1 ≤ P → P ≤ gridSize colloc ax →
      Tiles P (sz ax) (fun r => st (dirAt colloc ax P r)) (fun r => ln (dirAt colloc ax P r))) :
    Partitions (axs.map sz) Ls.length (fun r => ((Ls[r]?.map fun L => L.dir.map st).getD [])) (fun r => ((Ls[r]?.map fun L => L.dir.map ln).getD [])) := by
  have hlen := S.ranks.1
  have hne := S.nonempty
  obtain ⟨L, hL⟩ : ∃ L, Ls[0]? = some L := ⟨Ls[0]'(by omega), by simp⟩
  obtain ⟨h1, h2, -, -⟩ := S.get hL
  subst h2
  obtain ⟨a1, a2⟩ := lift S.reached h1 st ln sz ht
  have lget : ∀ r, r < Ls.length → ∃ Lr, Ls[r]? = some Lr := fun r hr' => ⟨Ls[r], by simp [hr']⟩
  constructor
  · intro r hr'
    obtain ⟨Lr, e⟩ := lget r hr'
    obtain ⟨Lr', b1, -, -, b2⟩ := a1 r (by omega) (by omega)
    rw [S.ranks.2 r Lr e] at b1
    simp only [Res.ok.injEq] at b1
    subst b1
    simp only [e, Option.map_some, Option.getD_some]
    exact b2
  · intro x hx
    obtain ⟨r, ⟨r0, r1, Lr, b1, b2⟩, hu⟩ := a2 x hx
    obtain ⟨q, rfl⟩ : ∃ q : Nat, r = q := ⟨r.toNat, by omega⟩
    obtain ⟨Lq, e⟩ := lget q (by omega)
    rw [S.ranks.2 q Lq e] at b1
    simp only [Res.ok.injEq] at b1
    subst b1
    refine ⟨q, ⟨by omega, by simp only [e, Option.map_some, Option.getD_some]; exact b2⟩, ?_⟩
    intro r' hr' hb'
    obtain ⟨L', e'⟩ := lget r' hr'
    simp only [e', Option.map_some, Option.getD_some] at hb'
    have := hu r' ⟨by omega, by omega, L', S.ranks.2 r' L' e', hb'⟩
    omega

theorem map_range {α β : Type} (l : List α) (f : α → β) (d : β) : l.map f = (List.range l.length).map fun r => ((l[r]?.map f).getD d) := by
  apply List.ext_getElem?
  intro i
  by_cases h : i < l.length
  · simp [h]
  · simp [h]

/-- **C113**, axes and partition: after every successful set-up on any number of processes the printed degrees, periodicities and
numbers of nodes and elements are those of the axes, the product of the printed process grid and the printed total are the
number of processes, the printed sums are the numbers of nodes and elements of the whole grid, and the printed minimum
and maximum are the smallest and the largest number a process owns. -/
theorem C113_partition {g2 : Guess2} {g3 : Guess3} {colloc : Bool} {size : Int} {procs : List Int} {axes axs : List (Axis K)} {Ls : List (Layout K)}
    (S : Asm.Setup g2 g3 colloc size procs axes axs Ls) :
    let R := print Ls
    let nodes := fun L : Layout K => prod (L.dir.map Dir.nodeLwidth)
    let elems := fun L : Layout K => prod (L.dir.map Dir.elemWidth)
    R.axes.map (fun a => (a.p, a.periodic, a.nnp, a.nel)) = axs.map (fun ax => (ax.p, ax.periodic, ax.nnp, gridSize colloc ax)) ∧
    R.axes.map (·.C) = axs.map continuity ∧
    prod R.procs = size ∧ R.total = size ∧
    R.nnp.1 = prod (axs.map Axis.nnp) ∧ R.nel.1 = prod (axs.map (gridSize colloc)) ∧
    IsLeast {c | ∃ L ∈ Ls, c = nodes L} R.nnp.2.1 ∧ IsGreatest {c | ∃ L ∈ Ls, c = nodes L} R.nnp.2.2 ∧
    IsLeast {c | ∃ L ∈ Ls, c = elems L} R.nel.2.1 ∧ IsGreatest {c | ∃ L ∈ Ls, c = elems L} R.nel.2.2 := by
  intro R nodes elems
  have hlen := S.ranks.1
  have hne := S.nonempty
  obtain ⟨L, hL⟩ : ∃ L, Ls[0]? = some L := ⟨Ls[0]'(by omega), by simp⟩
  have hhead : Ls.head? = some L := by rw [List.head?_eq_getElem?]; exact hL
  obtain ⟨h1, h2, h3, -⟩ := S.get hL
  obtain ⟨hw, hf, hp, hall, huniq⟩ := stage1_all S.reached h1
  have hdir : List.Forall₂ (fun (ax : Axis K) (d : Dir) => d.nodeSize = ax.nnp ∧ d.elemSize = gridSize colloc ax) axs L.dir := by
    obtain ⟨c, hb, hs⟩ := hall 0 (by omega) (by omega)
    have : stage1 g2 g3 colloc size 0 procs axes = .ok L := by simpa using h1
    rw [this] at hs
    simp only [Res.ok.injEq] at hs
    rw [hs, ← h2]
    refine mkDirs_all (Q := fun _ => True) colloc (fun ax P r _ _ _ _ _ _ => ?_) (fun ax ha => ⟨hw ax ha, trivial⟩) hf hb
    cases colloc
    · exact ⟨rfl, rfl⟩
    · exact ⟨rfl, rfl⟩
  have hn : Ls.map (fun L => (ownCounts L.dir).1) = Ls.map nodes := by
    apply List.map_congr_left; intro L _; rw [ownCounts_eq]
  have he : Ls.map (fun L => (ownCounts L.dir).2) = Ls.map elems := by
    apply List.map_congr_left; intro L _; rw [ownCounts_eq]
  have hLs : Ls ≠ [] := by rintro rfl; simp at hL
  have nn := reduce_spec (x := Ls.map nodes) (by simpa using hLs)
  have ne := reduce_spec (x := Ls.map elems) (by simpa using hLs)
  have hRn : R.nnp = reduce (Ls.map nodes) := by rw [← hn]; rfl
  have hRe : R.nel = reduce (Ls.map elems) := by rw [← he]; rfl
  have hRp : R.procs = L.procs := by simp only [R, print, hhead, Option.map_some, Option.getD_some]
  have hRt : R.total = prod L.procs := by
    simp only [R, print, hhead, Option.map_some, Option.getD_some]
    rw [PetIGA.Part.foldl_mul, one_mul]
  have hRa : R.axes = (axs.zip L.dir).map fun x => axisLine x.1 x.2 := by
    simp only [R, print, hhead, Option.map_some, Option.getD_some, h2]
  have sets : ∀ f : Layout K → Int, {c | c ∈ Ls.map f} = {c | ∃ L ∈ Ls, c = f L} := by
    intro f; ext c; simp only [List.mem_map, Set.mem_setOf_eq, eq_comm]
  rw [sets] at nn ne
  rw [hRn, hRe, hRp, hRt, hRa]
  have hpos : ∀ ax ∈ axs, 0 ≤ ax.nnp ∧ 0 ≤ gridSize colloc ax := by
    intro ax ha
    have g := S.grid.2 ax.nnp (List.mem_map_of_mem ha)
    refine ⟨by omega, ?_⟩
    cases colloc
    · show 0 ≤ ax.nel
      have := (hw ax (by rwa [h2])).nel
      omega
    · show 0 ≤ ax.nnp
      omega
  refine ⟨?_, ?_, hp, hp, ?_, ?_, nn.2.1, nn.2.2, ne.2.1, ne.2.2⟩
  · clear_value R
    clear h1 h2 h3 hall huniq hf hw hp hRa hRn hRe hRp hRt hhead hL hpos S
    generalize L.dir = ds at hdir ⊢
    induction hdir with
    | nil => rfl
    | cons h _ ih =>
      obtain ⟨a, b⟩ := h
      simp only [List.zip_cons_cons, List.map_cons, List.cons.injEq]
      exact ⟨by simp only [axisLine, a, b], ih⟩
  · clear_value R
    clear h1 h2 h3 hall huniq hf hw hp hRa hRn hRe hRp hRt hhead hL hpos S
    generalize L.dir = ds at hdir ⊢
    induction hdir with
    | nil => rfl
    | cons h _ ih =>
      simp only [List.zip_cons_cons, List.map_cons, List.cons.injEq]
      exact ⟨rfl, ih⟩
  · rw [nn.1, map_range Ls nodes 1, ← partition_sum (parts S Dir.nodeLstart Dir.nodeLwidth Axis.nnp
      (fun ax ha P hP hN => node_tiles colloc (hw ax (by rwa [h2])) hP hN (fun e => ((S.cond ax ha).1 e).1)))
      (by intro n hn'; obtain ⟨ax, ha, rfl⟩ := List.mem_map.1 hn'; exact (hpos ax ha).1)]
    congr 1
    apply List.map_congr_left
    intro r hr
    have hr := List.mem_range.1 hr
    simp [hr, nodes]
  · rw [ne.1, map_range Ls elems 1, ← partition_sum (parts S Dir.elemStart Dir.elemWidth (gridSize colloc)
      (fun ax ha P hP hN => elem_tiles colloc hP hN))
      (by intro n hn'; obtain ⟨ax, ha, rfl⟩ := List.mem_map.1 hn'; exact (hpos ax ha).2)]
    congr 1
    apply List.map_congr_left
    intro r hr
    have hr := List.mem_range.1 hr
    simp [hr, elems]

/-- **C113**, what is done with a viewer: nothing before the set-up; afterwards a binary viewer gets the saved discretisation (C45),
a text viewer the report, a drawing, VTK or GLVis viewer the picture (C109), and any other viewer nothing. -/
theorem C113_view (setup : Bool) (v : Option Viewer) :
    (view setup v = .save ↔ setup = true ∧ v = some .binary) ∧
    (view setup v = .print ↔ setup = true ∧ (v = none ∨ v = some .ascii)) ∧
    (view setup v = .draw ↔ setup = true ∧ (v = some .draw ∨ v = some .vtk ∨ v = some .glvis)) := by
  rcases v with _ | v
  · cases setup <;> simp [view]
  · cases setup <;> cases v <;> simp [view]

/-! ### Where the report is wrong -/

/-- The knots `-1 -1 0 0 1 1 2 3 3` of degree 2 with the domain `[0, 2]`. -/
def exBad : Axis Rat := (setKnots ((setDegree (Ax.create fun _ => 0) 2).2) 8
  (fun i => if i ≤ 1 then -1 else if i ≤ 3 then 0 else if i ≤ 5 then 1 else if i = 6 then 2 else 3)).2

/-- **C113**, refuted in general: for these knots, which the library accepts, the splines are only continuous at the one knot
inside the domain, but the report says `0:1`. -/
theorem C113_continuity_refuted : (setKnots ((setDegree (Ax.create fun _ => (0:Rat)) 2).2) 8
      (fun i => if i ≤ 1 then -1 else if i ≤ 3 then 0 else if i ≤ 5 then 1 else if i = 6 then 2 else 3)).1 = .ok () ∧
    continuity exBad = some (0, 1) ∧ contAt exBad '' Inner exBad = {0} := by
  refine ⟨by decide +kernel, by decide +kernel, ?_⟩
  have h : (setKnots ((setDegree (Ax.create fun _ => (0:Rat)) 2).2) 8
      (fun i => if i ≤ 1 then -1 else if i ≤ 3 then 0 else if i ≤ 5 then 1 else if i = 6 then 2 else 3)).1 = .ok () := by decide +kernel
  have hw : WF exBad := setKnots_wf _ _ _ h
  have hm : exBad.m = 8 := rfl
  have hp : exBad.p = 2 := rfl
  have hI : Inner exBad = {1} := by
    ext v
    simp only [Inner, Set.mem_setOf_eq, Set.mem_singleton_iff, hm, hp]
    constructor
    · rintro ⟨v1, v2, i, i0, i1, rfl⟩
      revert v1 v2
      interval_cases i <;> decide +kernel
    · rintro rfl
      exact ⟨by decide +kernel, by decide +kernel, 4, by decide, by decide, by decide +kernel⟩
  rw [hI, Set.image_singleton]
  congr 1

/-! ### The hypotheses are met -/

/-- Degree 3, knots `0 0 0 0 1 1 2 3 3 3 3`. -/
def exGood : Axis Rat := (setKnots ((setDegree (Ax.create fun _ => 0) 3).2) 10
  (fun i => if i ≤ 3 then 0 else if i ≤ 5 then 1 else if i = 6 then 2 else 3)).2

example : WF exGood ∧ exGood.periodic = false ∧ exGood.U exGood.p < exGood.U (exGood.p + 1) ∧
    exGood.U (exGood.m - exGood.p - 1) < exGood.U (exGood.m - exGood.p) ∧ continuity exGood = some (1, 2) :=
  ⟨setKnots_wf _ _ _ (by decide +kernel), rfl, by decide +kernel, by decide +kernel, by decide +kernel⟩

/-- The periodic axis of the examples meets the hypotheses: its seam is reported like its other knots. -/
example : exAx0.periodic = true ∧ exAx0.U exAx0.p < exAx0.U (exAx0.p + 1) ∧
    exAx0.U (exAx0.m - exAx0.p - 1) < exAx0.U (exAx0.m - exAx0.p) ∧ continuity exAx0 = some (1, 1) ∧
    mult exAx0.m exAx0.U (exAx0.U exAx0.p) = mult exAx0.m exAx0.U (exAx0.U (exAx0.m - exAx0.p)) :=
  ⟨by decide +kernel, by decide +kernel, by decide +kernel, by decide +kernel, by decide +kernel⟩

example (g2 : Guess2) (g3 : Guess3) : ∃ Ls, Asm.Setup g2 g3 false 4 [2,2] [exAx0, exAx1] Asm.exAxs Ls ∧
    (print Ls).total = 4 ∧ (print Ls).nnp.1 = 18 ∧ (print Ls).nel.1 = 12 := by
  obtain ⟨Ls, S⟩ := Asm.exSetup g2 g3
  obtain ⟨-, -, -, h1, h2, h3, -⟩ := C113_partition S
  exact ⟨Ls, S, h1, by rw [h2]; decide +kernel, by rw [h3]; decide +kernel⟩

end PetIGA.Vw
