import Verif.Lemmas.AxisInit
/-! Property theorems about knot vectors and axes (C04–C09, C63). -/
set_option linter.unusedSectionVars false
namespace PetIGA.Ax
open PetIGA.Spec

variable {K : Type} [Field K] [LinearOrder K] [IsStrictOrderedRing K]

/-- A concrete knot vector for the examples: `0 0 0 1 2 2 3 3 3`, degree 2. -/
def exU : Int → Rat := fun i =>
  if i ≤ 2 then 0 else if i = 3 then 1 else if i ≤ 5 then 2 else 3

/-- **C04**, forward: for any start index inside the array the result is the first later index with a
strictly larger knot, or the last index `m` when there is none before `m`. -/
theorem C04_next_knot_forward (m : Int) (U : Int → K) (k : Int) (h0 : 0 ≤ k) (h1 : k < m) :
    let j := nextKnot m U k 1
    k < j ∧ j ≤ m ∧ (∀ i, k < i → i < j → U i ≤ U k) ∧ (j < m → U k < U j) := by
  obtain ⟨a, b, c, d⟩ := nextKnot_fwd U h0 h1
  exact ⟨a, b, fun i h h' => not_lt.1 (c i h h'), d⟩

/-- **C04**, backward. -/
theorem C04_next_knot_backward (m : Int) (U : Int → K) (k : Int) (h0 : 0 < k) (h1 : k ≤ m) :
    let j := nextKnot m U k (-1)
    0 ≤ j ∧ j < k ∧ (∀ i, j < i → i < k → U k ≤ U i) ∧ (0 < j → U j < U k) := by
  have e : nextKnot m U k (-1) = scanDown U (U k) (k-1).toNat (k-1) := by
    unfold nextKnot; rw [if_neg (by omega), if_neg (by omega)]
  obtain ⟨a, b, c, d⟩ := scanDown_spec U (U k) (k-1).toNat (k-1) (by omega)
  rw [← e] at a b c d
  exact ⟨a, by omega, fun i h h' => not_lt.1 (c i h (by omega)), d⟩

/-- **C04**, start index outside the array: the result is clamped. -/
theorem C04_next_knot_clamped (m : Int) (U : Int → K) (k : Int) (hm : 0 ≤ m) :
    (k < 0 → nextKnot m U k 1 = 0) ∧ (m ≤ k → nextKnot m U k 1 = m) ∧
    (k ≤ 0 → nextKnot m U k (-1) = 0) ∧ (m < k → nextKnot m U k (-1) = m) := by
  refine ⟨fun h => ?_, fun h => nextKnot_end m U (by omega) h, fun h => ?_, fun h => ?_⟩
  · unfold nextKnot; rw [if_pos (by omega), if_pos h]
  · unfold nextKnot
    rw [if_neg (by omega), if_neg (by omega)]
    have : (k-1).toNat = 0 := by omega
    rw [this]; rfl
  · unfold nextKnot; rw [if_neg (by omega), if_pos (by omega)]

/-- **C04**, bounds: the result depends only on the knots `U 0 … U m`, for any start index. -/
theorem C04_reads_in_range (m : Int) (U V : Int → K) (h : ∀ i, 0 ≤ i → i ≤ m → U i = V i)
    (k dir : Int) : nextKnot m U k dir = nextKnot m V k dir := nextKnot_congr h k dir

example : nextKnot 8 exU 4 1 = 6 ∧ nextKnot 8 exU 6 1 = 8 ∧ nextKnot 8 exU 5 (-1) = 3 := by
  decide +kernel

/-- **C05.** The knot vector is accepted exactly when the degree has been set and the knots are legal. -/
theorem C05_accepts_exactly_legal (ax : Axis K) (m : Int) (U : Int → K) :
    (setKnots ax m U).1 = .ok () ↔ LegalKnots ax.p m U := by
  unfold setKnots
  by_cases h1 : ax.p < 1
  · rw [if_pos h1]; simp only [reduceCtorEq, false_iff]; intro h; have := h.degree; omega
  rw [if_neg h1]
  by_cases h2 : m < 2*ax.p+1
  · rw [if_pos h2]; simp only [reduceCtorEq, false_iff]; intro h; have := h.enough; omega
  rw [if_neg h2]
  by_cases h3 : increasing m U = true
  · rw [if_neg (not_not.2 h3)]
    have hs := (increasing_iff m U).1 h3
    have hmul := multOk_iff hs (show 1 ≤ ax.p by omega) m.toNat 1 (by omega) (by omega)
    by_cases h4 : multOk ax.p m U m.toNat 1 = true
    · rw [if_neg (not_not.2 h4)]
      simp only [true_iff]
      exact ⟨by omega, by omega, hs, hmul.1 h4⟩
    · rw [if_pos h4]
      simp only [reduceCtorEq, false_iff]
      intro h; exact h4 (hmul.2 h.mult)
  · rw [if_pos h3]
    simp only [reduceCtorEq, false_iff]
    intro h; exact h3 ((increasing_iff m U).2 h.sorted)

/-- **C05.** A refused call leaves the axis unchanged (and is an error return, not undefined behaviour);
an accepted one stores exactly the given knots and keeps degree and periodicity. -/
theorem C05_effect (ax : Axis K) (m : Int) (U : Int → K) :
    ((setKnots ax m U).1 = .ok () →
      (setKnots ax m U).2.m = m ∧ (setKnots ax m U).2.U = U ∧
      (setKnots ax m U).2.p = ax.p ∧ (setKnots ax m U).2.periodic = ax.periodic) ∧
    ((setKnots ax m U).1 ≠ .ok () → (setKnots ax m U).2 = ax ∧ ∃ e, (setKnots ax m U).1 = .err e) := by
  unfold setKnots
  split_ifs <;> simp

/-- Non-vacuity of C05: a legal vector is accepted, an illegal one refused. -/
example : (setKnots { create (fun _ => (0:Rat)) with p := 2 } 8 exU).1 = .ok () ∧
    (setKnots { create (fun _ => (0:Rat)) with p := 1 } 8 exU).1 = .err .outOfRange := by
  decide +kernel

/-- **C06.** After an accepted `SetKnots` the span list is strictly increasing and consists exactly of the
non-empty knot intervals of the parametric domain; the reported number of elements is its length. -/
theorem C06_spans_are_elements (ax : Axis K) (m : Int) (U : Int → K)
    (h : (setKnots ax m U).1 = .ok ()) :
    let ax' := (setKnots ax m U).2
    ax'.span.Pairwise (· < ·) ∧ (∀ k, k ∈ ax'.span ↔ IsElement ax.p m U k) ∧
    ax'.nel = ax'.span.length := by
  have hl := (C05_accepts_exactly_legal ax m U).1 h
  obtain ⟨a, b⟩ := computeSpans_spec hl.sorted hl.degree (by have := hl.degree; have := hl.enough; omega)
  have e : (setKnots ax m U).2.span = computeSpans ax.p m U ∧
      (setKnots ax m U).2.nel = (computeSpans ax.p m U).length := by
    unfold setKnots at h ⊢
    split_ifs at h ⊢ <;> simp_all
  dsimp only
  rw [e.1, e.2]
  exact ⟨b, a, rfl⟩

example : (setKnots { create (fun _ => (0:Rat)) with p := 2 } 8 exU).2.span = [2, 3, 5] := by
  decide +kernel

theorem initBreaks_ok {mem : Int → K} {ax : Axis K} {nu : Int} {u : Int → K} {C : Int}
    (h : (initBreaks mem ax nu u C).1 = .ok ()) :
    ∃ C', C' = (if C = PETSC_DECIDE then ax.p - 1 else C) ∧ 1 ≤ ax.p ∧ 2 ≤ nu ∧ 0 ≤ C' ∧ C' < ax.p ∧
      (∀ i j, 0 ≤ i → i < j → j ≤ nu - 1 → u i < u j) ∧
      (initBreaks mem ax nu u C).2 = fillAxis ax (nu-1) C' u mem := by
  refine ⟨_, rfl, ?_⟩
  unfold initBreaks at h ⊢
  dsimp only at h ⊢
  generalize (if C = PETSC_DECIDE then ax.p - 1 else C) = C' at *
  split_ifs at h with h1 h2 h3 h4
  · have hb : ∀ i, 0 ≤ i → i < nu - 1 → u i < u (i+1) := by
      rw [List.all_eq_true] at h3
      intro i a b
      have := h3 i.toNat (by simp; omega)
      rw [show ((i.toNat : Nat) : Int) = i by omega] at this
      simpa using this
    refine ⟨by omega, by omega, by omega, by omega, ?_, ?_⟩
    · intro i j h0 hij hj
      obtain ⟨d, rfl⟩ : ∃ d : Nat, j = i + 1 + d := ⟨(j-i-1).toNat, by omega⟩
      induction d with
      | zero => simpa using hb i h0 (by omega)
      | succ d ih =>
        have := ih (by omega) (by omega)
        have h5 := hb (i+1+d) (by omega) (by push_cast at hj; omega)
        rw [show i + 1 + ((d+1:Nat):Int) = i + 1 + d + 1 by push_cast; ring]
        exact lt_trans this h5
    · rw [if_neg h1, if_neg h2, if_neg (not_not.2 h3), if_neg h4]

theorem initUniform_ok {mem : Int → K} {ax : Axis K} {N : Int} {Ui Uf : K} {C : Int}
    (h : (initUniform mem ax N Ui Uf C).1 = .ok ()) :
    ∃ C', C' = (if C = PETSC_DECIDE then ax.p - 1 else C) ∧ 1 ≤ ax.p ∧ 1 ≤ N ∧ 0 ≤ C' ∧ C' < ax.p ∧
      Ui < Uf ∧
      (initUniform mem ax N Ui Uf C).2 = fillAxis ax N C' (uniformBreak N Ui Uf) mem := by
  refine ⟨_, rfl, ?_⟩
  unfold initUniform at h ⊢
  dsimp only at h ⊢
  generalize (if C = PETSC_DECIDE then ax.p - 1 else C) = C' at *
  split_ifs at h with h1 h2 h3 h4
  · refine ⟨by omega, by omega, by omega, by omega, by simpa using h3, ?_⟩
    rw [if_neg h1, if_neg h2, if_neg h3, if_neg h4]

theorem uniformBreak_eq {N : Int} (hN : 1 ≤ N) (Ui Uf : K) (i : Int) :
    uniformBreak N Ui Uf i = Ui + (i:K)/(N:K) * (Uf-Ui) := by
  have hN' : (N:K) ≠ 0 := by exact_mod_cast (by omega : N ≠ 0)
  unfold uniformBreak
  split_ifs with a b
  · subst a; simp
  · subst b; field_simp; ring
  · rfl

theorem uniformBreak_lt {N : Int} (hN : 1 ≤ N) {Ui Uf : K} (h : Ui < Uf) (i j : Int) (hij : i < j) :
    uniformBreak N Ui Uf i < uniformBreak N Ui Uf j := by
  rw [uniformBreak_eq hN, uniformBreak_eq hN]
  have hN' : (0:K) < (N:K) := by exact_mod_cast (by omega : 0 < N)
  have h1 : (i:K) < (j:K) := by exact_mod_cast hij
  have h2 : (i:K)/(N:K) < (j:K)/(N:K) := by gcongr
  have h3 : 0 < Uf - Ui := by linarith
  nlinarith

/-- What the two initialisers promise, stated for an axis `ax'` obtained from `ax` with breaks
`u 0 < … < u r` and continuity `C`. -/
structure GoodInit (ax ax' : Axis K) (r C : Int) (u : Int → K) : Prop where
  /-- degree and periodicity are kept -/
  kept : ax'.p = ax.p ∧ ax'.periodic = ax.periodic
  /-- the knot vector has `2(p+1)+(r-1)(p-C)` entries and is legal -/
  len : ax'.m + 1 = 2*(ax.p+1) + (r-1)*(ax.p-C)
  legal : LegalKnots ax.p ax'.m ax'.U
  /-- the domain is `[u 0, u r]` -/
  dom : ax'.U ax.p = u 0 ∧ ax'.U (ax'.m - ax.p) = u r
  /-- exactly `r` elements; element `i` is `[u i, u (i+1)]` -/
  nel : ax'.nel = r ∧ ax'.span.length = r
  elem : ∀ i : Nat, (i:Int) < r → ∃ k, ax'.span[i]? = some k ∧ ax'.U k = u i ∧ ax'.U (k+1) = u (i+1)
  /-- every interior break has multiplicity exactly `p-C` inside the domain: consecutive elements are
  `p-C` knots apart -/
  mult : ∀ i : Nat, (i:Int) < r → ax'.span[i]? = some (ax.p + i*(ax.p-C))
  /-- node count -/
  nnp : ax'.nnp = if ax.periodic then r*(ax.p-C) else ax.p + 1 + (r-1)*(ax.p-C)
  /-- `SetKnots` with these knots would accept them and store exactly the same axis -/
  same : setKnots ax ax'.m ax'.U = (.ok (), ax')
  /-- and `SetUp` changes nothing -/
  idem : setUp ax' = (.ok (), ax')

theorem goodInit_of_built {ax ax' : Axis K} {r C : Int} {u : Int → K} (B : Built ax ax' r C u)
    (hp : 1 ≤ ax.p) (hr : 1 ≤ r) (hC : 0 ≤ C) (hCp : C < ax.p)
    (hu : ∀ i j, 0 ≤ i → i < j → j ≤ r → u i < u j) : GoodInit ax ax' r C u := by
  have hl := B.legal hp hr hC hCp hu
  have hsp := B.spans hp hr hC hCp hu
  have hnn := B.nnp hp hr hC hCp hu
  have hlen : (ax'.span.length : Int) = r := by rw [B.span_eq]; simp; omega
  have hget : ∀ i : Nat, (i:Int) < r → ax'.span[i]? = some (ax.p + i*(ax.p-C)) := by
    intro i hi
    rw [B.span_eq, List.getElem?_map, List.getElem?_range (by omega)]; rfl
  have hm := B.m_eq
  have hq : 0 ≤ (r-1)*(ax.p-C) := Int.mul_nonneg (by omega) (by omega)
  refine ⟨⟨B.p_eq, B.per_eq⟩, by omega, hl, ⟨B.U_p hp hr hC hCp, B.U_mp hp hr hC hCp⟩,
    ⟨B.nel_eq, hlen⟩, ?_, hget, B.nnp_eq, ?_, ?_⟩
  · intro i hi
    refine ⟨_, hget i hi, ?_, ?_⟩
    · have h3 : i*(ax.p-C) ≤ (r-1)*(ax.p-C) := Int.mul_le_mul_of_nonneg_right (by omega) (by omega)
      have h4 : 0 ≤ i*(ax.p-C) := Int.mul_nonneg (by omega) (by omega)
      rw [B.mid _ (by split_ifs <;> omega), brk_at (by omega) hr (by omega) hi]
    · have h3 : i*(ax.p-C) ≤ (r-1)*(ax.p-C) := Int.mul_le_mul_of_nonneg_right (by omega) (by omega)
      have h4 : 0 ≤ i*(ax.p-C) := Int.mul_nonneg (by omega) (by omega)
      rw [B.mid _ (by split_ifs <;> omega), brk_at_succ (by omega) hr (by omega) hi]
  · have hok := (C05_accepts_exactly_legal ax ax'.m ax'.U).2 hl
    unfold setKnots at hok ⊢
    split_ifs at hok ⊢
    rw [hsp, hnn]
    have e1 := B.p_eq
    have e2 := B.per_eq
    have e3 := B.nel_eq
    dsimp only
    rw [hlen, ← e1, ← e2, ← e3]
  · unfold setUp
    have e1 := B.p_eq
    have e2 := B.per_eq
    rw [e1, e2, if_neg (by omega), if_neg (by omega), hnn]
    have hne : ax'.span ≠ [] := by
      intro h; rw [h] at hlen; simp at hlen; omega
    dsimp only
    rw [if_neg hne, if_neg hne, ← e1, ← e2]

/-- **C07** for `IGAAxisInitBreaks`: any accepted call, periodic or not, whatever the memory contained. -/
theorem C07_initBreaks (mem : Int → K) (ax : Axis K) (nu : Int) (u : Int → K) (C : Int)
    (h : (initBreaks mem ax nu u C).1 = .ok ()) :
    GoodInit ax (initBreaks mem ax nu u C).2 (nu-1) (if C = PETSC_DECIDE then ax.p - 1 else C) u := by
  obtain ⟨C', e, h1, h2, h3, h4, h5, h6⟩ := initBreaks_ok h
  rw [h6, ← e]
  exact goodInit_of_built (fillAxis_built ax (nu-1) C' u mem h1 (by omega) h3 h4) h1 (by omega) h3 h4 h5

/-- **C07** for `IGAAxisInitUniform`: the breaks are `Ui + i/N (Uf-Ui)`. -/
theorem C07_initUniform (mem : Int → K) (ax : Axis K) (N : Int) (Ui Uf : K) (C : Int)
    (h : (initUniform mem ax N Ui Uf C).1 = .ok ()) :
    GoodInit ax (initUniform mem ax N Ui Uf C).2 N (if C = PETSC_DECIDE then ax.p - 1 else C)
      (fun i => Ui + (i:K)/(N:K) * (Uf-Ui)) := by
  obtain ⟨C', e, h1, h2, h3, h4, h5, h6⟩ := initUniform_ok h
  rw [h6, ← e]
  have hfun : (fun i : Int => Ui + (i:K)/(N:K) * (Uf-Ui)) = uniformBreak N Ui Uf := by
    funext i; rw [uniformBreak_eq h2]
  rw [hfun]
  exact goodInit_of_built (fillAxis_built ax N C' _ mem h1 h2 h3 h4) h1 h2 h3 h4
    (fun i j _ hij _ => uniformBreak_lt h2 h5 i j hij)

/-- **C07** acceptance: the uniform initialiser accepts exactly valid arguments. -/
theorem C07_initUniform_accepts (mem : Int → K) (ax : Axis K) (N : Int) (Ui Uf : K) (C : Int) :
    (initUniform mem ax N Ui Uf C).1 = .ok () ↔
      1 ≤ ax.p ∧ 1 ≤ N ∧ Ui < Uf ∧ (C = -1 ∨ (0 ≤ C ∧ C < ax.p)) := by
  unfold initUniform PETSC_DECIDE
  dsimp only
  split_ifs with h1 h2 h3 h4 <;> simp only [false_iff, true_iff] <;>
    first
      | (intro h; omega)
      | (rintro ⟨_, _, h, _⟩; exact absurd h (not_lt.2 h3))
      | exact ⟨by omega, by omega, not_le.1 h3, by omega⟩

/-- **C07**, acceptance: `InitBreaks` succeeds exactly when the degree is set, there are at least two breaks, they are
strictly increasing and the continuity is left to the library or lies in `0..p-1`. -/
theorem C07_initBreaks_accepts (mem : Int → K) (ax : Axis K) (nu : Int) (u : Int → K) (C : Int) :
    (initBreaks mem ax nu u C).1 = .ok () ↔
      1 ≤ ax.p ∧ 2 ≤ nu ∧ (∀ i, 0 ≤ i → i < nu - 1 → u i < u (i+1)) ∧ (C = -1 ∨ (0 ≤ C ∧ C < ax.p)) := by
  have hall : ((List.range (nu-1).toNat).all fun i => !decide (u (i:Int) ≥ u ((i:Int)+1))) = true ↔
      ∀ i, 0 ≤ i → i < nu - 1 → u i < u (i+1) := by
    rw [List.all_eq_true]
    constructor
    · intro h i a b
      have := h i.toNat (by simp; omega)
      rw [show ((i.toNat : Nat) : Int) = i by omega] at this
      simpa using this
    · intro h i hi
      have := h i (by omega) (by simp at hi; omega)
      simpa using this
  unfold initBreaks PETSC_DECIDE
  dsimp only
  split_ifs with h1 h2 h3 h4 <;> simp only [false_iff, true_iff] <;>
    first
      | (intro h; omega)
      | (rintro ⟨_, _, h, _⟩; exact h3 (hall.2 h))
      | exact ⟨by omega, by omega, hall.1 h3, by omega⟩

/-- Non-vacuity of C07/C08: periodic, degree 3, continuity 1, 2 elements – fewer nodes than the wrapped
knots reach. -/
example :
    let ax := { create (fun _ => (0:Rat)) with p := 3, periodic := true }
    let r := initUniform (fun _ => 77) ax 2 0 1 1
    r.1 = .ok () ∧ r.2.m = 9 ∧ r.2.nnp = 4 ∧
      (List.range 10).map (fun i => r.2.U i) = [-1/2, -1/2, 0, 0, 1/2, 1/2, 1, 1, 3/2, 3/2] := by
  decide +kernel

/-- **C08** for `InitBreaks`: on a periodic axis, shifting by `nnp` shifts the knots by the period. -/
theorem C08_initBreaks_periodic (mem : Int → K) (ax : Axis K) (nu : Int) (u : Int → K) (C : Int)
    (hper : ax.periodic = true) (h : (initBreaks mem ax nu u C).1 = .ok ()) :
    let ax' := (initBreaks mem ax nu u C).2
    ax'.nnp = (nu-1) * (ax.p - (if C = PETSC_DECIDE then ax.p - 1 else C)) ∧
    ∀ j, 0 ≤ j → j + ax'.nnp ≤ ax'.m →
      ax'.U (j + ax'.nnp) = ax'.U j + (ax'.U (ax'.m - ax'.p) - ax'.U ax'.p) := by
  obtain ⟨C', e, h1, h2, h3, h4, h5, h6⟩ := initBreaks_ok h
  rw [h6, ← e]
  have B := fillAxis_built ax (nu-1) C' u mem h1 (by omega) h3 h4
  refine ⟨by rw [B.nnp_eq, if_pos hper], fun j h0 hj => ?_⟩
  rw [B.p_eq, B.U_p h1 (by omega) h3 h4, B.U_mp h1 (by omega) h3 h4]
  exact B.trans h1 (by omega) h3 h4 hper h0 hj

/-- **C08** for `InitUniform`. -/
theorem C08_initUniform_periodic (mem : Int → K) (ax : Axis K) (N : Int) (Ui Uf : K) (C : Int)
    (hper : ax.periodic = true) (h : (initUniform mem ax N Ui Uf C).1 = .ok ()) :
    let ax' := (initUniform mem ax N Ui Uf C).2
    ax'.nnp = N * (ax.p - (if C = PETSC_DECIDE then ax.p - 1 else C)) ∧
    ∀ j, 0 ≤ j → j + ax'.nnp ≤ ax'.m → ax'.U (j + ax'.nnp) = ax'.U j + (Uf - Ui) := by
  obtain ⟨C', e, h1, h2, h3, h4, h5, h6⟩ := initUniform_ok h
  rw [h6, ← e]
  have B := fillAxis_built ax N C' (uniformBreak N Ui Uf) mem h1 h2 h3 h4
  refine ⟨by rw [B.nnp_eq, if_pos hper], fun j h0 hj => ?_⟩
  have := B.trans h1 h2 h3 h4 hper h0 hj
  rw [this]
  unfold uniformBreak
  rw [if_pos rfl, if_neg (by omega), if_pos rfl]

/-- **C09** is false: `0 0 1 1 2 2` with degree 2 is accepted but its domain `[1,1]` has no element. -/
theorem C09_accepted_axis_has_element_refuted :
    ∃ (ax : Axis Rat) (m : Int) (U : Int → Rat),
      (setKnots ax m U).1 = .ok () ∧ (setKnots ax m U).2.nel = 0 ∧
      (setUp (setKnots ax m U).2).1 = .ok () := by
  refine ⟨{ create (fun _ => (0:Rat)) with p := 2 }, 5, fun i => if i ≤ 1 then 0 else if i ≤ 3 then 1 else 2, ?_⟩
  decide +kernel

/-- **C09**, the part that holds: if the domain is not degenerate (`U p < U (m-p)`) there is at least one
element. Missing: the code does not check this condition. -/
theorem C09_accepted_axis_has_element_partial (ax : Axis K) (m : Int) (U : Int → K)
    (h : (setKnots ax m U).1 = .ok ()) (hd : U ax.p < U (m - ax.p)) :
    1 ≤ (setKnots ax m U).2.nel := by
  have hl := (C05_accepts_exactly_legal ax m U).1 h
  obtain ⟨h1, h2, h3⟩ := C06_spans_are_elements ax m U h
  rw [h3]
  have hex : ∃ k, IsElement ax.p m U k := by
    by_contra hc
    have heq : ∀ (d : Nat), ax.p + d ≤ m - ax.p → U (ax.p + d) = U ax.p := by
      intro d
      induction d with
      | zero => simp
      | succ d ih =>
        intro hle
        have e := ih (by push_cast at hle; omega)
        rw [← e]
        have hs := hl.sorted (ax.p + d) (by have := hl.degree; omega)
          (by have := hl.degree; push_cast at hle; omega)
        have hn : ¬ U (ax.p + d) < U (ax.p + d + 1) := fun hlt =>
          hc ⟨ax.p + d, by omega, by push_cast at hle; omega, hlt⟩
        rw [show ax.p + ((d+1:Nat):Int) = ax.p + d + 1 by push_cast; ring]
        exact le_antisymm (not_lt.1 hn) hs
    have := heq (m - 2*ax.p).toNat (by have := hl.enough; omega)
    rw [show ax.p + (((m - 2*ax.p).toNat:Nat):Int) = m - ax.p by have := hl.enough; omega] at this
    rw [this] at hd
    exact lt_irrefl _ hd
  obtain ⟨k, hk⟩ := hex
  have := (h2 k).2 hk
  have := List.length_pos_of_mem this
  omega

example : (exU (2:Int)) < exU (8 - 2) := by decide +kernel

/-- **C63** is false: `IGAAxisInit` with a bad knot vector returns an error but has already changed the
degree, leaving knots and spans of the old degree behind; the following `SetUp` succeeds on the mixture. -/
theorem C63_refused_init_unchanged_refuted :
    ∃ (ax : Axis Rat) (p m : Int) (U : Int → Rat),
      setUp ax = (.ok (), ax) ∧
      (init ax p m U).1 = .err .outOfRange ∧ (init ax p m U).2.p ≠ ax.p ∧
      (setUp (init ax p m U).2).1 = .ok () ∧
      (setUp (init ax p m U).2).2.span ≠ computeSpans p ax.m ax.U := by
  refine ⟨(setKnots { create (fun _ => (0:Rat)) with p := 2 } 8 exU).2, 3, 8, fun _ => 0, ?_, ?_⟩
  · have h : (setKnots { create (fun _ => (0:Rat)) with p := 2 } 8 exU).1 = .ok () := by decide +kernel
    unfold setKnots at h ⊢
    split_ifs at h ⊢
    · have hsp : computeSpans 2 8 exU = [2,3,5] := by decide +kernel
      have hn : computeNnp false 2 8 exU = 6 := by decide +kernel
      simp [setUp, create, hsp, hn]
  · decide +kernel

/-- **C63**, the part that holds: a call refused because of its degree changes nothing but resets the
degree; a call whose knots are legal for the new degree succeeds from any state and stores exactly them. -/
theorem C63_init_partial (ax : Axis K) (p m : Int) (U : Int → K) (h : LegalKnots p m U) :
    (init ax p m U).1 = .ok () ∧ (init ax p m U).2.p = p ∧ (init ax p m U).2.m = m ∧
      (init ax p m U).2.U = U ∧ (init ax p m U).2.span = computeSpans p m U := by
  have hd : setDegree { ax with p := 0 } p = (.ok (), { ax with p := p }) := by
    unfold setDegree
    rw [if_neg (by have := h.degree; omega), if_neg (by simp)]
  have e : init ax p m U = setKnots { ax with p := p } m U := by
    unfold init; dsimp only; rw [hd]
  have hok := (C05_accepts_exactly_legal { ax with p := p } m U).2 h
  rw [e]
  refine ⟨hok, ?_⟩
  unfold setKnots at hok ⊢
  split_ifs at hok ⊢
  simp

end PetIGA.Ax
