import Verif.Model.Span
import Verif.Lemmas.Axis
import Mathlib.Tactic.FieldSimp
/-! Property theorems about the span search and the Greville abscissae (C10, C15). -/
set_option linter.unusedSectionVars false
namespace PetIGA.Ax
open PetIGA.Spec

variable {K : Type} [Field K] [LinearOrder K] [IsStrictOrderedRing K]

theorem findLoop_spec {p n : Int} {U : Int → K} {u : K} : ∀ (f : Nat) (low high : Int),
    (∀ i, low ≤ i → i < high → U i ≤ U (i+1)) → 0 ≤ low →
    low < high → high - low ≤ f → U low ≤ u → u < U high →
    ∃ k, findLoop u U f low high = some k ∧ low ≤ k ∧ k < high ∧ U k ≤ u ∧ u < U (k+1)
  | 0, low, high, _, _, h1, h2, _, _ => by omega
  | f+1, low, high, hs, hl0, h1, h2, h3, h4 => by
    have ht : Int.tdiv (high+low) 2 = (high+low)/2 := Int.tdiv_eq_ediv_of_nonneg (by omega)
    unfold findLoop
    dsimp only
    rw [ht]
    have ha : low ≤ (high+low)/2 := by omega
    have hb : (high+low)/2 < high := by omega
    generalize hsp : (high+low)/2 = sp at *
    split
    · rename_i hc
      split
      · rename_i hlt
        have hne : sp ≠ low := by rintro rfl; exact absurd h3 (not_le.2 hlt)
        obtain ⟨k, e, a, b, c, d⟩ := @findLoop_spec p n U u f low sp
          (fun i x y => hs i x (by omega)) hl0 (by omega) (by omega) h3 hlt
        exact ⟨k, e, a, by omega, c, d⟩
      · rename_i hge
        have h5 : u ≥ U (sp+1) := by rcases hc with h | h; exact absurd h hge; exact h
        have hne : sp + 1 ≠ high := by intro e; rw [e] at h5; exact absurd h4 (not_lt.2 h5)
        have h6 : low < sp := by omega
        obtain ⟨k, e, a, b, c, d⟩ := @findLoop_spec p n U u f sp high
          (fun i x y => hs i (by omega) y) (by omega) hb (by omega) (not_lt.1 hge) h4
        exact ⟨k, e, by omega, b, c, d⟩
    · rename_i hc
      rw [not_or] at hc
      exact ⟨sp, rfl, ha, hb, not_lt.1 hc.1, not_le.1 hc.2⟩

/-- **C10**, full statement for points not on the left end: for every sorted knot vector and every point
strictly inside the domain the search terminates (within `n+1-p` iterations) and returns the unique
interval containing the point. -/
theorem C10_find_span_brackets (n p : Int) (U : Int → K) (u : K) (fuel : Nat)
    (hs : SortedKnots (n+p+1) U) (hp : 0 ≤ p) (hn : p ≤ n) (hf : n + 1 - p ≤ fuel)
    (h0 : U p < u) (h1 : u < U (n+1)) :
    ∃ k, findSpan fuel n p u U = some k ∧ p ≤ k ∧ k ≤ n ∧ U k ≤ u ∧ u < U (k+1) ∧
      ∀ k', p ≤ k' → k' ≤ n → U k' ≤ u → u < U (k'+1) → k' = k := by
  unfold findSpan
  rw [if_neg (not_le.2 h0), if_neg (not_le.2 h1)]
  obtain ⟨k, e, a, b, c, d⟩ := @findLoop_spec K _ _ _ p n U u fuel p (n+1)
    (fun i x y => hs i (by omega) (by omega)) hp (by omega) (by omega) (le_of_lt h0) h1
  refine ⟨k, e, a, by omega, c, d, fun k' a' b' c' d' => ?_⟩
  rcases lt_trichotomy k' k with h | h | h
  · have := sorted_mono hs (i := k'+1) (j := k) (by omega) (by omega) (by omega)
    exact absurd (lt_of_lt_of_le d' this) (not_lt.2 c)
  · exact h
  · have := sorted_mono hs (i := k+1) (j := k') (by omega) (by omega) (by omega)
    exact absurd (lt_of_lt_of_le d this) (not_lt.2 c')

/-- **C10**, clamping: at or before the left end the first interval, at or beyond the right end the last
one; never an endless loop. -/
theorem C10_find_span_clamps (n p : Int) (U : Int → K) (u : K) (fuel : Nat) :
    (u ≤ U p → findSpan fuel n p u U = some p) ∧
    (U p < u → U (n+1) ≤ u → findSpan fuel n p u U = some n) := by
  unfold findSpan
  constructor
  · intro h; rw [if_pos h]
  · intro h h'; rw [if_neg (not_le.2 h), if_pos h']

theorem findLoop_congr {p n : Int} {U V : Int → K} (u : K)
    (h : ∀ i, p ≤ i → i ≤ n+1 → U i = V i) : ∀ (f : Nat) (low high : Int), p ≤ low → 0 ≤ p →
    low < high → high ≤ n + 1 →
    findLoop u U f low high = findLoop u V f low high ∨ ¬ (U low ≤ u ∧ u < U high)
  | 0, _, _, _, _, _, _ => Or.inl rfl
  | f+1, low, high, h1, h0, h2, h3 => by
    have ht : Int.tdiv (high+low) 2 = (high+low)/2 := Int.tdiv_eq_ediv_of_nonneg (by omega)
    by_cases hin : U low ≤ u ∧ u < U high
    · left
      unfold findLoop
      dsimp only
      rw [ht]
      have ha : low ≤ (high+low)/2 := by omega
      have hb : (high+low)/2 < high := by omega
      generalize hsp : (high+low)/2 = sp at *
      rw [← h sp (by omega) (by omega), ← h (sp+1) (by omega) (by omega)]
      split
      · rename_i hc
        split
        · rename_i hlt
          have hne : sp ≠ low := by rintro rfl; exact absurd hin.1 (not_le.2 hlt)
          rcases findLoop_congr u h f low sp h1 h0 (by omega) (by omega) with e | e
          · exact e
          · exact absurd ⟨hin.1, hlt⟩ e
        · rename_i hge
          rcases findLoop_congr u h f sp high (by omega) h0 hb h3 with e | e
          · exact e
          · exact absurd ⟨not_lt.1 hge, hin.2⟩ e
      · rfl
    · exact Or.inr hin

/-- **C10**, bounds: the search only depends on the knots `U p … U (n+1)`. -/
theorem C10_find_span_reads (n p : Int) (U V : Int → K) (u : K) (fuel : Nat) (hp : 0 ≤ p)
    (hn : p ≤ n) (h : ∀ i, p ≤ i → i ≤ n+1 → U i = V i) :
    findSpan fuel n p u U = findSpan fuel n p u V := by
  unfold findSpan
  rw [← h p (by omega) (by omega), ← h (n+1) (by omega) (by omega)]
  split
  · rfl
  · split
    · rfl
    · rename_i a b
      rcases findLoop_congr u h fuel p (n+1) (le_refl _) hp (by omega) (le_refl _) with e | e
      · exact e
      · exact absurd ⟨le_of_lt (not_le.1 a), not_le.1 b⟩ e

/-- **C10** at the left end fails on legal knot vectors whose first domain interval is empty: the search
returns an empty interval although the point lies in a non-empty one. -/
theorem C10_left_end_refuted :
    ∃ (n p : Int) (U : Int → Rat) (u : Rat) (k : Int), LegalKnots p (n+p+1) U ∧
      U p ≤ u ∧ u < U (n+1) ∧ (∀ fuel, findSpan fuel n p u U = some k) ∧ ¬ u < U (k+1) := by
  refine ⟨3, 2, fun i => if i ≤ 0 then 0 else if i ≤ 1 then 1/2 else if i ≤ 3 then 1 else i - 2, 1, 2,
    ?_, ?_, ?_, ?_, ?_⟩
  · refine ⟨by decide, by decide, ?_, ?_⟩
    · intro i h0 h1
      have : i = 0 ∨ i = 1 ∨ i = 2 ∨ i = 3 ∨ i = 4 ∨ i = 5 := by omega
      rcases this with rfl | rfl | rfl | rfl | rfl | rfl <;> norm_num
    · intro i h0 h1
      have : i = 1 ∨ i = 2 ∨ i = 3 := by omega
      rcases this with rfl | rfl | rfl <;> norm_num
  · norm_num
  · norm_num
  · intro fuel; exact (C10_find_span_clamps 3 2 _ 1 fuel).1 (by norm_num)
  · norm_num

/-- **C10** including both ends, for knot vectors whose first and last domain intervals are non-empty (for
instance all clamped ones and all those built by the initialisers): the returned interval is always a
non-empty element, and it contains the point clamped to the domain. -/
theorem C10_find_span_element_partial (n p : Int) (U : Int → K) (u : K) (fuel : Nat)
    (hs : SortedKnots (n+p+1) U) (hp : 0 ≤ p) (hn : p ≤ n) (hf : n + 1 - p ≤ fuel)
    (hfirst : U p < U (p+1)) (hlast : U n < U (n+1)) :
    ∃ k, findSpan fuel n p u U = some k ∧ IsElement p (n+p+1) U k ∧
      (U p ≤ u → u < U (n+1) → U k ≤ u ∧ u < U (k+1)) ∧
      (u < U p → k = p) ∧ (U (n+1) ≤ u → k = n) := by
  have hdom : U p < U (n+1) := by
    have := sorted_mono hs (i := p+1) (j := n+1) (by omega) (by omega) (by omega)
    exact lt_of_lt_of_le hfirst this
  rcases le_or_gt u (U p) with h | h
  · refine ⟨p, (C10_find_span_clamps n p U u fuel).1 h, ⟨le_refl _, by omega, hfirst⟩, ?_, ?_, ?_⟩
    · intro h2 h3
      exact ⟨h2, lt_of_le_of_lt h hfirst⟩
    · intro _; rfl
    · intro h2; exact absurd (lt_of_lt_of_le hdom h2) (not_lt.2 h)
  · rcases le_or_gt (U (n+1)) u with h2 | h2
    · refine ⟨n, (C10_find_span_clamps n p U u fuel).2 h h2, ⟨hn, by omega, hlast⟩, ?_, ?_, ?_⟩
      · intro _ h3; exact absurd h3 (not_lt.2 h2)
      · intro h3; exact absurd h (not_lt.2 (le_of_lt h3))
      · intro _; rfl
    · obtain ⟨k, e, a, b, c, d, _⟩ := C10_find_span_brackets n p U u fuel hs hp hn hf h h2
      refine ⟨k, e, ⟨a, by omega, lt_of_le_of_lt c d⟩, fun _ _ => ⟨c, d⟩, ?_, ?_⟩
      · intro h3; exact absurd h (not_lt.2 (le_of_lt h3))
      · intro h3; exact absurd h2 (not_lt.2 h3)

example : findSpan 4 5 2 (5/2) (fun i => if i ≤ 2 then 0 else if i = 3 then 1 else if i ≤ 5 then 2 else (3:Rat))
    = some 5 := by decide +kernel

theorem grevSum_bounds {m : Int} {U : Int → K} (hs : SortedKnots m U) {i : Int} (hi : 0 ≤ i + 1) :
    ∀ (j : Nat), i + j ≤ m → (j:K) * U (i+1) ≤ grevSum i U j ∧ (0 < j → grevSum i U j ≤ (j:K) * U (i+j))
  | 0, _ => by simp [grevSum]
  | j+1, h => by
    push_cast at h
    obtain ⟨a, b⟩ := grevSum_bounds hs hi j (by omega)
    have c := sorted_mono hs (i := i+1) (j := i+j+1) (by omega) (by omega) (by omega)
    unfold grevSum
    push_cast
    refine ⟨by rw [add_mul, one_mul]; linarith, fun _ => ?_⟩
    rw [add_mul, one_mul, ← add_assoc]
    rcases Nat.eq_zero_or_pos j with h0 | h0
    · subst h0; simp [grevSum]
    · have d := sorted_mono hs (i := i+j) (j := i+j+1) (by omega) (by omega) (by omega)
      have hj : (0:K) ≤ (j:K) := by positivity
      have := mul_le_mul_of_nonneg_left d hj
      linarith [b h0]

theorem grevSum_shift (i : Int) (U : Int → K) : ∀ (j : Nat),
    grevSum (i+1) U j = grevSum i U j + U (i+j+1) - U (i+1)
  | 0 => by simp [grevSum]
  | j+1 => by
    unfold grevSum
    rw [grevSum_shift i U j]
    have e : i + 1 + (j:Int) + 1 = i + ((j+1:Nat):Int) + 1 := by push_cast; ring
    rw [e]; ring

/-- **C15.** Every Greville abscissa lies between the first and last interior knot of its basis
function, hence inside its support. -/
theorem C15_greville_in_support (i p m : Int) (U : Int → K) (hs : SortedKnots m U) (hp : 1 ≤ p)
    (hi : 0 ≤ i) (him : i + p + 1 ≤ m) :
    U (i+1) ≤ greville i p U ∧ greville i p U ≤ U (i+p) ∧
    U i ≤ greville i p U ∧ greville i p U ≤ U (i+p+1) := by
  obtain ⟨a, b⟩ := grevSum_bounds hs (i := i) (by omega) p.toNat (by omega)
  have hpp : (0:K) < (p:K) := by exact_mod_cast (by omega : 0 < p)
  have hcast : ((p.toNat : Nat) : K) = (p:K) := by
    have : ((p.toNat : Nat) : Int) = p := by omega
    exact_mod_cast congrArg (Int.cast (R := K)) this
  rw [hcast] at a b
  rw [show ((p.toNat : Nat) : Int) = p by omega] at b
  have b := b (by omega)
  have h1 : U (i+1) ≤ greville i p U := by
    unfold greville; rw [if_pos (by omega), le_div_iff₀ hpp, mul_comm]; exact a
  have h2 : greville i p U ≤ U (i+p) := by
    unfold greville; rw [if_pos (by omega), div_le_iff₀ hpp, mul_comm]; exact b
  exact ⟨h1, h2, le_trans (hs i hi (by omega)) h1, le_trans h2 (hs (i+p) (by omega) (by omega))⟩

/-- **C15.** Greville abscissae are non-decreasing, and strictly increasing exactly when the knots
`U (i+1) < U (i+p+1)` differ. -/
theorem C15_greville_increasing (i p m : Int) (U : Int → K) (hs : SortedKnots m U) (hp : 1 ≤ p)
    (hi : 0 ≤ i) (him : i + p + 1 ≤ m) :
    greville i p U ≤ greville (i+1) p U ∧
    (greville i p U < greville (i+1) p U ↔ U (i+1) < U (i+p+1)) := by
  have hpp : (0:K) < (p:K) := by exact_mod_cast (by omega : 0 < p)
  have e : greville (i+1) p U = greville i p U + (U (i+p+1) - U (i+1)) / (p:K) := by
    unfold greville
    rw [if_pos (by omega), if_pos (by omega), grevSum_shift, show ((p.toNat : Nat) : Int) = p by omega]
    field_simp; ring
  have hle := sorted_mono hs (i := i+1) (j := i+p+1) (by omega) (by omega) (by omega)
  rw [e]
  constructor
  · have : 0 ≤ (U (i+p+1) - U (i+1)) / (p:K) := div_nonneg (by linarith) (le_of_lt hpp)
    linarith
  · constructor
    · intro h
      by_contra hc
      have heq : U (i+p+1) - U (i+1) = 0 := by linarith [le_antisymm hle (not_lt.1 hc)]
      rw [heq] at h; simp at h
    · intro h
      have : 0 < (U (i+p+1) - U (i+1)) / (p:K) := div_pos (by linarith) hpp
      linarith

/-- **C15.** For a legal knot vector consecutive collocation points are distinct. -/
theorem C15_greville_distinct (i p m : Int) (U : Int → K) (hl : LegalKnots p m U)
    (hi : 0 ≤ i) (him : i + 1 + p < m) : greville i p U < greville (i+1) p U := by
  have := hl.mult (i+1) (by omega) him
  rw [(C15_greville_increasing i p m U hl.sorted hl.degree hi (by omega)).2]
  rwa [show i + p + 1 = i + 1 + p by ring]

/-- **C15.** With an open (clamped) knot vector the first and last abscissae are the domain ends. -/
theorem C15_greville_clamped (p m : Int) (U : Int → K) (hp : 1 ≤ p)
    (h0 : ∀ i, 0 ≤ i → i ≤ p → U i = U p) (h1 : ∀ i, m - p ≤ i → i ≤ m → U i = U (m-p)) :
    greville 0 p U = U p ∧ greville (m-p-1) p U = U (m-p) := by
  have hpp : (p:K) ≠ 0 := by exact_mod_cast (by omega : p ≠ 0)
  have key : ∀ (i : Int) (c : K) (j : Nat), (∀ k, i + 1 ≤ k → k ≤ i + j → U k = c) →
      grevSum i U j = (j:K) * c := by
    intro i c j
    induction j with
    | zero => intro _; simp [grevSum]
    | succ j ih =>
      intro h
      unfold grevSum
      rw [ih (fun k a b => h k a (by push_cast; omega)), h (i+j+1) (by omega) (by push_cast; omega)]
      push_cast; ring
  have hcast : ((p.toNat : Nat) : K) = (p:K) := by
    have : ((p.toNat : Nat) : Int) = p := by omega
    exact_mod_cast congrArg (Int.cast (R := K)) this
  unfold greville
  rw [if_pos (by omega), if_pos (by omega),
    key 0 (U p) p.toNat (fun k a b => h0 k (by omega) (by omega)),
    key (m-p-1) (U (m-p)) p.toNat (fun k a b => h1 k (by omega) (by omega)), hcast]
  constructor <;> field_simp

example : greville 2 2 (fun i => if i ≤ 2 then 0 else if i = 3 then 1 else if i ≤ 5 then 2 else (3:Rat))
    = 3/2 := by decide +kernel

end PetIGA.Ax
