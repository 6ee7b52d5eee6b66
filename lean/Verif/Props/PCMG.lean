import Verif.Model.PCMG
import Verif.Lemmas.Grid
import Mathlib.Tactic.Ring
import Mathlib.Tactic.Linarith
import Mathlib.Tactic.NormNum
import Mathlib.Data.List.Forall2

/-! C53 and C74: the multigrid hierarchy. -/

namespace PetIGA.MG
open PetIGA.Spec

theorem minFactor_ok (M : Int) (h : 2 ≤ M) : 2 ≤ minFactor M ∧ minFactor M ∣ M := by
  unfold minFactor
  split
  · next q hq =>
    have h1 := List.find?_some hq
    have h2 := List.mem_of_find?_eq_some hq
    rw [decide_eq_true_eq] at h1
    have h3 : ∀ q ∈ primes, 2 ≤ q := by decide
    exact ⟨h3 q h2, Int.dvd_of_tmod_eq_zero h1⟩
  · exact ⟨h, Int.dvd_refl M⟩

/-- Invariant of the last loop: `m` is the largest number of intervals. -/
def Inv (M f : List Int) (m : Int) : Prop :=
  f.length = M.length ∧ ∀ i : Nat, i < M.length → M.getD i 0 ≤ m ∧ 2 ≤ M.getD i 0 ∧
    f.getD i 0 ∣ M.getD i 0 ∧ (2 ≤ f.getD i 0 ∨ f.getD i 0 = 1 ∧ M.getD i 0 < m)

theorem avoidStep_inv {M f : List Int} {m : Int} (h : Inv M f m) {i j : Nat} (hi : i < M.length) (hj : j < M.length) :
    Inv M (avoidStep M f (i, j)) m := by
  unfold avoidStep
  dsimp only
  split
  · next hc =>
    obtain ⟨h0, h1⟩ := h
    refine ⟨by rw [List.length_set]; exact h0, fun k hk => ?_⟩
    obtain ⟨a1, a2, a3, a4⟩ := h1 k hk
    by_cases e : i = k
    · subst e
      have e1 : (f.set i 1).getD i 0 = 1 := by
        rw [List.getD_eq_getElem?_getD, List.getElem?_set_self (by omega)]; rfl
      rw [e1]
      refine ⟨a1, a2, one_dvd _, Or.inr ⟨rfl, ?_⟩⟩
      obtain ⟨b1, b2, ⟨c, b3⟩, b4⟩ := h1 j hj
      have hc2 := hc.2
      rcases b4 with b4 | ⟨b4, b5⟩
      · have hcpos : 1 ≤ c := by
          by_contra hcon
          have : f.getD j 0 * c ≤ 0 := Int.mul_nonpos_of_nonneg_of_nonpos (by omega) (by omega)
          omega
        rw [b3, Int.mul_tdiv_cancel_left _ (by omega)] at hc2
        have : c < f.getD j 0 * c := by nlinarith
        omega
      · rw [b4, Int.tdiv_one] at hc2
        omega
    · have e1 : (f.set i 1).getD k 0 = f.getD k 0 := by
        rw [List.getD_eq_getElem?_getD, List.getElem?_set_ne e, ← List.getD_eq_getElem?_getD]
      rw [e1]
      exact ⟨a1, a2, a3, a4⟩
  · exact h

theorem avoid_inv {M : List Int} {m : Int} : ∀ (l : List (Nat × Nat)) (f : List Int), Inv M f m →
    (∀ q ∈ l, q.1 < M.length ∧ q.2 < M.length) → Inv M (l.foldl (avoidStep M) f) m
  | [], f, h, _ => h
  | (i, j) :: l, f, h, hl => by
    rw [List.foldl_cons]
    have := hl (i, j) (by simp)
    exact avoid_inv l _ (avoidStep_inv h this.1 this.2) fun q hq => hl q (by simp [hq])

theorem exists_max : ∀ M : List Int, M ≠ [] → ∃ i : Nat, i < M.length ∧ ∀ j : Nat, j < M.length → M.getD j 0 ≤ M.getD i 0
  | [], h => absurd rfl h
  | [a], _ => ⟨0, by simp, fun j hj => by
      have : j = 0 := by simpa using hj
      subst this; exact le_refl _⟩
  | a :: b :: l, _ => by
    obtain ⟨i, hi, h⟩ := exists_max (b :: l) (by simp)
    by_cases hc : a ≤ (b :: l).getD i 0
    · refine ⟨i+1, by simp at hi ⊢; omega, fun j hj => ?_⟩
      match j with
      | 0 => exact hc
      | j+1 => exact h j (by simpa using hj)
    · refine ⟨0, by simp, fun j hj => ?_⟩
      match j with
      | 0 => exact le_refl _
      | j+1 => exact le_trans (h j (by simpa using hj)) (by simpa using le_of_lt (not_le.1 hc))

/-- C53: when `CoarsenFactor` reports that coarsening is possible, every factor is at least 1 and divides the number of
intervals of its direction, and some factor is at least 2. -/
theorem C53_factors (M P f : List Int) (hP : ∀ p ∈ P, 1 ≤ p) (hl : P.length = M.length)
    (h : coarsenFactor M P = (true, f)) :
    f.length = M.length ∧ (∀ i : Nat, i < M.length → 1 ≤ f.getD i 0 ∧ f.getD i 0 ∣ M.getD i 0 ∧ P.getD i 0 < M.getD i 0) ∧
    ∃ i : Nat, i < M.length ∧ 2 ≤ f.getD i 0 := by
  unfold coarsenFactor at h
  split at h
  · simp at h
  · next h1 =>
    split at h
    · simp at h
    · next h2 =>
      split at h
      · simp at h
      · next h3 =>
        simp only [Prod.mk.injEq, true_and] at h
        have hne : M ≠ [] := by rintro rfl; simp at h2
        have hM : ∀ i : Nat, i < M.length → P.getD i 0 < M.getD i 0 := by
          intro i hi
          by_contra hcon
          apply h3
          have e : (M.zip P)[i]? = some (M.getD i 0, P.getD i 0) := by
            rw [List.getElem?_zip_eq_some, List.getD_eq_getElem?_getD, List.getD_eq_getElem?_getD,
              List.getElem?_eq_getElem hi, List.getElem?_eq_getElem (by omega)]
            exact ⟨rfl, rfl⟩
          exact ⟨_, List.mem_of_getElem? e, not_lt.1 hcon⟩
        have hP' : ∀ i : Nat, i < M.length → 1 ≤ P.getD i 0 := by
          intro i hi
          have : P.getD i 0 ∈ P := by
            rw [List.getD_eq_getElem?_getD, List.getElem?_eq_getElem (by omega)]
            exact List.getElem_mem _
          exact hP _ this
        obtain ⟨k, hk, hmax⟩ := exists_max M hne
        have I : Inv M (M.map minFactor) (M.getD k 0) := by
          refine ⟨by simp, fun i hi => ?_⟩
          have e : (M.map minFactor).getD i 0 = minFactor (M.getD i 0) := by
            rw [List.getD_eq_getElem?_getD, List.getElem?_map, List.getElem?_eq_getElem hi, List.getD_eq_getElem?_getD,
              List.getElem?_eq_getElem hi]
            rfl
          have h2' : 2 ≤ M.getD i 0 := by have := hM i hi; have := hP' i hi; omega
          rw [e]
          exact ⟨hmax i hi, h2', (minFactor_ok _ h2').2, Or.inl (minFactor_ok _ h2').1⟩
        have I' := avoid_inv (pairs M.length) _ I (by
          intro q hq
          simp only [pairs, List.mem_flatMap, List.mem_map, List.mem_range] at hq
          obtain ⟨a, ha, b, hb, rfl⟩ := hq
          exact ⟨ha, hb⟩)
        rw [h] at I'
        refine ⟨I'.1, fun i hi => ?_, k, hk, ?_⟩
        · obtain ⟨-, -, a3, a4⟩ := I'.2 i hi
          exact ⟨by omega, a3, hM i hi⟩
        · obtain ⟨-, -, -, a4⟩ := I'.2 k hk
          omega

/-- C53: coarsening is refused exactly when the grid has at most one cell, no direction has more than 6 intervals, or some
direction has no more intervals than processes. -/
theorem C53_refused (M P : List Int) :
    (coarsenFactor M P).1 = false ↔ prod M ≤ 1 ∨ (∀ m ∈ M, m ≤ 6) ∨ ∃ q ∈ M.zip P, q.1 ≤ q.2 := by
  unfold coarsenFactor
  rw [PetIGA.Part.foldl_mul, Int.one_mul]
  split
  · next h => simp only [true_iff]; exact Or.inl h
  · next h1 =>
    split
    · next h => simp only [true_iff]; exact Or.inr (Or.inl h)
    · next h2 =>
      split
      · next h => simp only [true_iff]; exact Or.inr (Or.inr h)
      · next h3 =>
        simp only [Bool.true_eq_false, false_iff]
        rintro (h | h | h)
        · exact h1 h
        · exact h2 h
        · exact h3 h

/-- `B` is a coarsening of `A`: in every direction the intervals of `B` are groups of equally many intervals of `A`, and in
some direction of at least two. -/
structure Coarsens (A B : List Int) : Prop where
  length : B.length = A.length
  groups : ∀ i : Nat, i < A.length → ∃ q : Int, 1 ≤ q ∧ A.getD i 0 = q * B.getD i 0
  really : ∃ i : Nat, i < A.length ∧ ∃ q : Int, 2 ≤ q ∧ A.getD i 0 = q * B.getD i 0

theorem prod_pos : ∀ {A : List Int}, (∀ i : Nat, i < A.length → 1 ≤ A.getD i 0) → 1 ≤ prod A
  | [], _ => by simp [prod]
  | a :: A, h => by
    have h0 : 1 ≤ a := h 0 (by simp)
    have := prod_pos (A := A) fun i hi => h (i+1) (by simpa using hi)
    unfold prod
    nlinarith

theorem prod_mono : ∀ {A B : List Int}, B.length = A.length → (∀ i : Nat, i < A.length → 1 ≤ B.getD i 0 ∧ B.getD i 0 ≤ A.getD i 0) →
    prod B ≤ prod A
  | [], [], _, _ => le_refl _
  | [], _ :: _, h, _ => by simp at h
  | _ :: _, [], h, _ => by simp at h
  | a :: A, b :: B, hl, h => by
    have h0 : 1 ≤ b ∧ b ≤ a := h 0 (by simp)
    have hl' : B.length = A.length := by simpa using hl
    have h1 := prod_mono hl' fun i hi => h (i+1) (by simpa using hi)
    have h2 := prod_pos (A := B) fun i hi => (h (i+1) (by rw [List.length_cons]; omega)).1
    unfold prod
    nlinarith

theorem prod_halves : ∀ {A B : List Int}, B.length = A.length → (∀ i : Nat, i < A.length → 1 ≤ B.getD i 0 ∧ B.getD i 0 ≤ A.getD i 0) →
    (∃ i : Nat, i < A.length ∧ 2 * B.getD i 0 ≤ A.getD i 0) → 2 * prod B ≤ prod A
  | [], _, _, _, h => by obtain ⟨i, hi, -⟩ := h; simp at hi
  | _ :: _, [], h, _, _ => by simp at h
  | a :: A, b :: B, hl, h, h' => by
    have h0 : 1 ≤ b ∧ b ≤ a := h 0 (by simp)
    have hl' : B.length = A.length := by simpa using hl
    have h1 := prod_mono hl' fun i hi => h (i+1) (by simpa using hi)
    have h2 := prod_pos (A := B) fun i hi => (h (i+1) (by rw [List.length_cons]; omega)).1
    obtain ⟨i, hi, h3⟩ := h'
    unfold prod
    match i with
    | 0 =>
      have h3 : 2 * b ≤ a := h3
      nlinarith
    | i+1 =>
      have := prod_halves hl' (fun i hi => h (i+1) (by simpa using hi)) ⟨i, by simpa using hi, by simpa using h3⟩
      nlinarith

theorem coarser_ok {M P : List Int} (hP : ∀ p ∈ P, 1 ≤ p) (hl : P.length = M.length) (h : (coarsenFactor M P).1 = true) :
    Coarsens M (coarser M (coarsenFactor M P).2) ∧
    ∀ i : Nat, i < M.length → 1 ≤ (coarser M (coarsenFactor M P).2).getD i 0 ∧ P.getD i 0 < M.getD i 0 := by
  obtain ⟨f, hf⟩ : ∃ f, coarsenFactor M P = (true, f) := ⟨_, Prod.ext h rfl⟩
  obtain ⟨h1, h2, k, hk, h3⟩ := C53_factors M P f hP hl hf
  rw [hf]
  have hP' : ∀ i : Nat, i < M.length → 1 ≤ P.getD i 0 := by
    intro i hi
    have : P.getD i 0 ∈ P := by
      rw [List.getD_eq_getElem?_getD, List.getElem?_eq_getElem (by omega)]
      exact List.getElem_mem _
    exact hP _ this
  have key : ∀ i : Nat, i < M.length → M.getD i 0 = f.getD i 0 * (coarser M f).getD i 0 := by
    intro i hi
    obtain ⟨a1, ⟨c, a2⟩, a3⟩ := h2 i hi
    have e : (coarser M f).getD i 0 = Int.tdiv (M.getD i 0) (f.getD i 0) := by
      unfold coarser
      rw [List.getD_eq_getElem?_getD, List.getElem?_zipWith, List.getD_eq_getElem?_getD, List.getD_eq_getElem?_getD,
        List.getElem?_eq_getElem hi, List.getElem?_eq_getElem (by omega)]
      rfl
    rw [e, a2, Int.mul_tdiv_cancel_left _ (by omega)]
  refine ⟨⟨by simp [coarser, h1], fun i hi => ⟨_, (h2 i hi).1, key i hi⟩, k, hk, _, h3, key k hk⟩, fun i hi => ⟨?_, (h2 i hi).2.2⟩⟩
  have e := key i hi
  obtain ⟨a1, -, a3⟩ := h2 i hi
  have := hP' i hi
  dsimp only
  by_contra hcon
  have : f.getD i 0 * (coarser M f).getD i 0 ≤ 0 := Int.mul_nonpos_of_nonneg_of_nonpos (by omega) (by omega)
  omega

/-- C53: the level loop (from any number `n` of levels left) ends, with at most `n+1` levels; each level is a coarsening of the
previous one; every level has at least one interval in every direction; and unless the limit is reached, which needs `2^(n+1)`
cells, the last level is one that `CoarsenFactor` does not coarsen. -/
theorem C53_hierarchy (P : List Int) (hP : ∀ p ∈ P, 1 ≤ p) : ∀ (n : Nat) (M : List Int), P.length = M.length →
    (∀ i : Nat, i < M.length → 1 ≤ M.getD i 0) →
    (hierarchy P n M).head? = some M ∧ (hierarchy P n M).length ≤ n + 1 ∧
    (∀ (k : Nat) A B, (hierarchy P n M)[k]? = some A → (hierarchy P n M)[k+1]? = some B →
      Coarsens A B ∧ ∀ i : Nat, i < A.length → P.getD i 0 < A.getD i 0) ∧
    (∀ A ∈ hierarchy P n M, ∀ i : Nat, i < A.length → 1 ≤ A.getD i 0) ∧
    (prod M < 2^(n+1) → ∀ A, (hierarchy P n M).getLast? = some A → (coarsenFactor A P).1 = false)
  | 0, M, hl, hM => by
    refine ⟨rfl, by simp [hierarchy], by simp [hierarchy], by simpa [hierarchy] using hM, ?_⟩
    intro h A hA
    simp only [hierarchy, List.getLast?_singleton, Option.some.injEq] at hA
    subst hA
    rw [C53_refused]
    exact Or.inl (by norm_num at h; omega)
  | n+1, M, hl, hM => by
    unfold hierarchy
    split
    · next h =>
      obtain ⟨h1, h2⟩ := coarser_ok hP hl h
      obtain ⟨i1, i2, i3, i4, i5⟩ := C53_hierarchy P hP n (coarser M (coarsenFactor M P).2) (by rw [h1.length, hl])
        fun i hi => (h2 i (by rw [h1.length] at hi; exact hi)).1
      refine ⟨rfl, by rw [List.length_cons]; omega, ?_, ?_, ?_⟩
      · intro k A B hA hB
        match k with
        | 0 =>
          simp only [List.getElem?_cons_zero, Option.some.injEq, List.getElem?_cons_succ] at hA hB
          rw [← List.head?_eq_getElem?, i1, Option.some.injEq] at hB
          subst hA hB
          exact ⟨h1, fun i hi => (h2 i hi).2⟩
        | k+1 => exact i3 k A B (by simpa using hA) (by simpa using hB)
      · intro A hA
        rcases List.mem_cons.1 hA with rfl | hA
        · exact hM
        · exact i4 A hA
      · intro hlt A hA
        have hb : prod (coarser M (coarsenFactor M P).2) < 2^(n+1) := by
          have := prod_halves h1.length (fun i hi => ⟨(h2 i hi).1, by
              obtain ⟨q, hq, e⟩ := h1.groups i hi
              have := (h2 i hi).1
              rw [e]; nlinarith⟩) (by
              obtain ⟨i, hi, q, hq, e⟩ := h1.really
              have := (h2 i hi).1
              exact ⟨i, hi, by rw [e]; nlinarith⟩)
          rw [pow_succ] at hlt
          linarith
        apply i5 hb
        rw [List.getLast?_cons] at hA
        generalize hg : (hierarchy P n (coarser M (coarsenFactor M P).2)).getLast? = o at hA ⊢
        cases o with
        | some a => simpa using hA
        | none =>
          rw [List.getLast?_eq_none_iff] at hg
          rw [hg] at i1
          simp at i1
    · next h =>
      have h : (coarsenFactor M P).1 = false := by simpa using h
      refine ⟨rfl, by simp, by simp, by simpa using hM, ?_⟩
      intro _ A hA
      simp only [List.getLast?_singleton, Option.some.injEq] at hA
      subst hA
      exact h

/-- C53, on 12 by 7 by 30 intervals, 2 by 1 by 3 processes: three levels, the
third direction first. -/
example : hierarchy [2,1,3] 63 [12,7,30] = [[12,7,30], [12,7,15], [6,1,5]] ∧ prod [12,7,30] < 2^64 := by decide

/-- C74: all levels but the coarsest have more intervals than processes in every direction, so at least one node per process. -/
theorem C74_partition_partial (P : List Int) (hP : ∀ p ∈ P, 1 ≤ p) (n : Nat) (M : List Int) (hl : P.length = M.length)
    (hM : ∀ i : Nat, i < M.length → 1 ≤ M.getD i 0) (periodic : List Bool) (hb : periodic.length = M.length) (k : Nat) (A : List Int)
    (hA : (hierarchy P n M)[k]? = some A) (hk : k + 1 < (hierarchy P n M).length) :
    ∀ i : Nat, i < A.length → A.length = M.length → P.getD i 0 ≤ (nodesOf A periodic).getD i 0 := by
  intro i hi hA'
  have h := ((C53_hierarchy P hP n M hl hM).2.2.1 k A _ hA (List.getElem?_eq_getElem hk)).2 i hi
  have e : (nodesOf A periodic).getD i 0 = if periodic.getD i false then A.getD i 0 else A.getD i 0 + 1 := by
    unfold nodesOf
    rw [List.getD_eq_getElem?_getD, List.getElem?_zipWith, List.getD_eq_getElem?_getD, List.getD_eq_getElem?_getD,
      List.getElem?_eq_getElem hi, List.getElem?_eq_getElem (by omega)]
    rfl
  rw [e]
  split <;> omega

/-- C74 is false as stated: 8 nodes on 3 processes give a coarse level of 2 nodes, and a coarse level of 1 node on 2 processes
when the direction is periodic. -/
theorem C74_partition_refuted : (levels [8] [false] [3]).map (nodesOf · [false]) = [[8], [2]] ∧
    (levels [7] [true] [2]).map (nodesOf · [true]) = [[7], [1]] := by decide

end PetIGA.MG
