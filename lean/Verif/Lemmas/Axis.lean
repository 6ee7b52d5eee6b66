import Verif.Model.Axis
import Verif.Spec.Knots
import Mathlib.Tactic.Linarith
import Mathlib.Tactic.Ring
import Mathlib.Tactic.NormNum
/-! Helper lemmas about knots, spans and axis initialisers. -/
set_option linter.unusedSectionVars false
namespace PetIGA.Ax
open PetIGA.Spec

variable {K : Type} [Field K] [LinearOrder K] [IsStrictOrderedRing K]

theorem sorted_mono {m : Int} {U : Int → K} (h : SortedKnots m U) {i j : Int} (hi : 0 ≤ i)
    (hij : i ≤ j) (hj : j ≤ m) : U i ≤ U j := by
  obtain ⟨d, rfl⟩ : ∃ d : Nat, j = i + d := ⟨(j-i).toNat, by omega⟩
  induction d with
  | zero => simp
  | succ d ih =>
    have h1 := ih (by omega) (by omega)
    have h2 := h (i+d) (by omega) (by omega)
    have : i + ((d+1:Nat):Int) = i + d + 1 := by push_cast; ring
    rw [this]
    exact le_trans h1 h2

theorem scanUp_spec (m : Int) (U : Int → K) (u : K) : ∀ (f : Nat) (j : Int), j + f = m →
    j ≤ scanUp m U u f j ∧ scanUp m U u f j ≤ m ∧
    (∀ i, j ≤ i → i < scanUp m U u f j → ¬ U i > u) ∧
    (scanUp m U u f j < m → U (scanUp m U u f j) > u)
  | 0, j, h => by
    have h : j = m := by omega
    unfold scanUp
    exact ⟨by omega, by omega, fun i h1 h2 => by omega, fun h' => by omega⟩
  | f+1, j, h => by
    unfold scanUp
    split
    · rename_i hj
      exact ⟨by omega, by omega, fun i h1 h2 => by omega, fun _ => hj⟩
    · rename_i hj
      obtain ⟨a, b, c, d⟩ := scanUp_spec m U u f (j+1) (by omega)
      refine ⟨by omega, b, fun i h1 h2 => ?_, d⟩
      by_cases hi : i = j
      · subst hi; exact hj
      · exact c i (by omega) h2

theorem scanDown_spec (U : Int → K) (u : K) : ∀ (f : Nat) (j : Int), j = f →
    0 ≤ scanDown U u f j ∧ scanDown U u f j ≤ j ∧
    (∀ i, scanDown U u f j < i → i ≤ j → ¬ U i < u) ∧
    (0 < scanDown U u f j → U (scanDown U u f j) < u)
  | 0, j, h => by
    unfold scanDown
    exact ⟨by omega, by omega, fun i h1 h2 => by omega, fun h' => by omega⟩
  | f+1, j, h => by
    unfold scanDown
    split
    · rename_i hj
      exact ⟨by omega, by omega, fun i h1 h2 => by omega, fun _ => hj⟩
    · rename_i hj
      obtain ⟨a, b, c, d⟩ := scanDown_spec U u f (j-1) (by omega)
      refine ⟨a, by omega, fun i h1 h2 => ?_, d⟩
      by_cases hi : i = j
      · subst hi; exact hj
      · exact c i h1 (by omega)

theorem nextKnot_fwd {m : Int} (U : Int → K) {k : Int} (h0 : 0 ≤ k) (h1 : k < m) :
    k < nextKnot m U k 1 ∧ nextKnot m U k 1 ≤ m ∧
    (∀ i, k < i → i < nextKnot m U k 1 → ¬ U i > U k) ∧
    (nextKnot m U k 1 < m → U (nextKnot m U k 1) > U k) := by
  have e : nextKnot m U k 1 = scanUp m U (U k) (m - (k+1)).toNat (k+1) := by
    unfold nextKnot; rw [if_pos (by omega), if_neg (by omega)]
  rw [e]
  obtain ⟨a, b, c, d⟩ := scanUp_spec m U (U k) (m - (k+1)).toNat (k+1) (by omega)
  exact ⟨by omega, b, fun i h1 h2 => c i (by omega) h2, d⟩

theorem nextKnot_end (m : Int) (U : Int → K) {k : Int} (h0 : 0 ≤ k) (h : m ≤ k) :
    nextKnot m U k 1 = m := by
  unfold nextKnot
  rw [if_pos (by omega), if_neg (by omega)]
  have : (m - (k+1)).toNat = 0 := by omega
  rw [this]; rfl

/-- On sorted knots all knots before the returned one equal the start knot. -/
theorem nextKnot_run {m : Int} {U : Int → K} (hs : SortedKnots m U) {k : Int} (h0 : 0 ≤ k)
    (h1 : k < m) {i : Int} (hi : k ≤ i) (hj : i < nextKnot m U k 1) : U i = U k := by
  obtain ⟨a, b, c, d⟩ := nextKnot_fwd U h0 h1
  rcases eq_or_lt_of_le hi with h | h
  · rw [h]
  · exact le_antisymm (not_lt.1 (c i h hj)) (sorted_mono hs h0 hi (by omega))

theorem scanUp_congr {m : Int} {U V : Int → K} (h : ∀ i, 0 ≤ i → i ≤ m → U i = V i) (u : K) :
    ∀ (f : Nat) (j : Int), 0 ≤ j → j + f ≤ m → scanUp m U u f j = scanUp m V u f j
  | 0, _, _, _ => rfl
  | f+1, j, h0, h1 => by
    unfold scanUp
    rw [h j h0 (by omega), scanUp_congr h u f (j+1) (by omega) (by omega)]

theorem scanDown_congr {m : Int} {U V : Int → K} (h : ∀ i, 0 ≤ i → i ≤ m → U i = V i) (u : K) :
    ∀ (f : Nat) (j : Int), j ≤ m → f ≤ j → scanDown U u f j = scanDown V u f j
  | 0, _, _, _ => rfl
  | f+1, j, h0, h1 => by
    unfold scanDown
    rw [h j (by omega) (by omega), scanDown_congr h u f (j-1) (by omega) (by omega)]

theorem nextKnot_congr {m : Int} {U V : Int → K} (h : ∀ i, 0 ≤ i → i ≤ m → U i = V i)
    (k dir : Int) : nextKnot m U k dir = nextKnot m V k dir := by
  unfold nextKnot
  split_ifs
  · rfl
  · by_cases hk : k + 1 ≤ m
    · rw [h k (by omega) (by omega)]
      exact scanUp_congr h _ _ _ (by omega) (by omega)
    · have : (m - (k+1)).toNat = 0 := by omega
      rw [this]; rfl
  · rfl
  · by_cases hk : 0 < k
    · rw [h k (by omega) (by omega)]
      exact scanDown_congr h _ _ _ (by omega) (by omega)
    · have : (k-1).toNat = 0 := by omega
      rw [this]; rfl

theorem increasing_iff (m : Int) (U : Int → K) : increasing m U = true ↔ SortedKnots m U := by
  unfold increasing SortedKnots
  rw [List.all_eq_true]
  constructor
  · intro h i h0 h1
    have := h i.toNat (by simp; omega)
    rw [show ((i.toNat : Nat) : Int) = i by omega] at this
    simpa using this
  · intro h k hk
    simp at hk
    have := h k (by omega) (by omega)
    simpa using this

theorem multOk_iff {p m : Int} {U : Int → K} (hs : SortedKnots m U) (hp : 1 ≤ p) :
    ∀ (f : Nat) (k : Int), 0 ≤ k → m - k ≤ f →
      (multOk p m U f k = true ↔ ∀ i, k ≤ i → i + p < m → U i < U (i+p))
  | 0, k, h0, h1 => by
    unfold multOk
    simp only [true_iff]
    intro i a b; omega
  | f+1, k, h0, h1 => by
    unfold multOk
    split
    · rename_i hk
      obtain ⟨a, b, c, d⟩ := nextKnot_fwd U h0 hk
      have hrun := fun i => @nextKnot_run K _ _ _ m U hs k h0 hk i
      dsimp only
      generalize nextKnot m U k 1 = j at *
      split
      · rename_i hjk
        simp only [Bool.false_eq_true, false_iff]
        intro h
        have h2 := h k (by omega) (by omega)
        have h3 := hrun (k+p) (by omega) (by omega)
        rw [h3] at h2
        exact lt_irrefl _ h2
      · rename_i hjk
        rw [multOk_iff hs hp f j (by omega) (by omega)]
        constructor
        · intro h i hi hip
          rcases lt_or_ge i j with hlt | hge
          · rw [hrun i hi hlt]
            have hjm : j < m := by omega
            exact lt_of_lt_of_le (d hjm) (sorted_mono hs (by omega) (by omega) (by omega))
          · exact h i hge hip
        · intro h i hi hip; exact h i (by omega) hip
    · simp only [true_iff]
      intro i a b; omega

theorem spansLoop_spec {p m : Int} {U : Int → K} (hs : SortedKnots m U) (hp : 1 ≤ p) :
    ∀ (f : Nat) (k : Int), 0 ≤ k → k ≤ m → m + 1 - k ≤ f →
      (∀ i, i ∈ spansLoop (m-p-1) m U f k ↔ k ≤ i ∧ i ≤ m-p-1 ∧ U i < U (i+1)) ∧
      (spansLoop (m-p-1) m U f k).Pairwise (· < ·)
  | 0, k, h0, h1, h2 => by omega
  | f+1, k, h0, h1, h2 => by
    unfold spansLoop
    dsimp only
    rcases eq_or_lt_of_le h1 with he | hk
    · have : nextKnot m U k 1 = m := nextKnot_end m U h0 (by omega)
      rw [this, if_neg (by omega)]
      refine ⟨fun i => ?_, List.Pairwise.nil⟩
      simp only [List.not_mem_nil, false_iff]
      rintro ⟨_, _, _⟩; omega
    · obtain ⟨a, b, c, d⟩ := nextKnot_fwd U h0 hk
      have hrun := fun i => @nextKnot_run K _ _ _ m U hs k h0 hk i
      generalize nextKnot m U k 1 = j at *
      split
      · rename_i hj
        obtain ⟨ih1, ih2⟩ := spansLoop_spec hs hp f j (by omega) b (by omega)
        have hlt : U (j-1) < U j := by rw [hrun (j-1) (by omega) (by omega)]; exact d (by omega)
        refine ⟨fun i => ?_, ?_⟩
        · rw [List.mem_cons, ih1]
          constructor
          · rintro (rfl | ⟨x, y, z⟩)
            · refine ⟨by omega, by omega, ?_⟩
              rw [show j - 1 + 1 = j by ring]; exact hlt
            · exact ⟨by omega, y, z⟩
          · rintro ⟨x, y, z⟩
            rcases lt_or_ge i j with h3 | h3
            · left
              by_contra hne
              have e1 := hrun i x h3
              have e2 := hrun (i+1) (by omega) (by omega)
              rw [e1, e2] at z; exact lt_irrefl _ z
            · exact Or.inr ⟨h3, y, z⟩
        · rw [List.pairwise_cons]
          refine ⟨fun i hi => ?_, ih2⟩
          have := (ih1 i).1 hi
          omega
      · rename_i hj
        refine ⟨fun i => ?_, List.Pairwise.nil⟩
        simp only [List.not_mem_nil, false_iff]
        rintro ⟨x, y, z⟩
        have e1 := hrun i x (by omega)
        have e2 := hrun (i+1) (by omega) (by omega)
        rw [e1, e2] at z; exact lt_irrefl _ z

theorem computeSpans_spec {p m : Int} {U : Int → K} (hs : SortedKnots m U) (hp : 1 ≤ p)
    (hm : p ≤ m) :
    (∀ i, i ∈ computeSpans p m U ↔ IsElement p m U i) ∧ (computeSpans p m U).Pairwise (· < ·) := by
  unfold computeSpans IsElement
  exact spansLoop_spec hs hp (m+1).toNat p (by omega) hm (by omega)

/-- Two strictly increasing lists with the same members are equal. -/
theorem pairwise_ext : ∀ {l l' : List Int}, l.Pairwise (· < ·) → l'.Pairwise (· < ·) →
    (∀ i, i ∈ l ↔ i ∈ l') → l = l'
  | [], [], _, _, _ => rfl
  | [], b :: _, _, _, h => absurd ((h b).2 (by simp)) (by simp)
  | a :: _, [], _, _, h => absurd ((h a).1 (by simp)) (by simp)
  | a :: l, b :: l', h1, h2, h => by
    rw [List.pairwise_cons] at h1 h2
    have hab : a = b := by
      have m1 : a ∈ b :: l' := (h a).1 (by simp)
      have m2 : b ∈ a :: l := (h b).2 (by simp)
      rcases List.mem_cons.1 m1 with e | e
      · exact e
      · rcases List.mem_cons.1 m2 with e' | e'
        · exact e'.symm
        · have := h1.1 b e'; have := h2.1 a e; omega
    subst hab
    congr 1
    apply pairwise_ext h1.2 h2.2
    intro i
    have := h i
    simp only [List.mem_cons] at this
    constructor
    · intro hi
      rcases this.1 (Or.inr hi) with e | e
      · have := h1.1 i hi; omega
      · exact e
    · intro hi
      rcases this.2 (Or.inr hi) with e | e
      · have := h2.1 i hi; omega
      · exact e

end PetIGA.Ax
