import Verif.Lemmas.Part
/-! Property theorems about the processor grid and the element distribution
(C01, C02, C62). -/
namespace PetIGA.Part
open PetIGA.Spec

/-- **C01.** Whenever the processor grid is accepted on one rank: it is accepted on every rank with the
same grid `n'`; `n'` keeps the user's choices, multiplies to the communicator size and has between one and
`N` parts per direction; and ranks correspond one-to-one to the grid coordinates. Holds for any
floating-point guess. -/
theorem C01_processor_grid_bijection (g2 : Guess2) (g3 : Guess3) (size rank : Int)
    (N n n' i : List Int) (h : partition g2 g3 size rank N n = .ok (n', i)) :
    prod n' = size ∧ Fits N n' ∧ Honours n n' ∧
    (∀ r, 0 ≤ r → r < size →
      ∃ c, partition g2 g3 size r N n = .ok (n', c) ∧ InBox n' c) ∧
    (∀ c, InBox n' c →
      ∃ r, (0 ≤ r ∧ r < size ∧ partition g2 g3 size r N n = .ok (n', c)) ∧
        ∀ r', (0 ≤ r' ∧ r' < size ∧ partition g2 g3 size r' N n = .ok (n', c)) → r' = r) := by
  obtain ⟨hs, -, -, hp, hpos, hh, hf, hall⟩ := partition_ok h
  refine ⟨hp, hf, hh, fun r h0 h1 => ⟨_, hall r h0 h1, coords_inBox hpos h0⟩, fun c hc => ?_⟩
  obtain ⟨l0, l1⟩ := lin_range hc
  refine ⟨lin n' c, ⟨l0, by omega, ?_⟩, ?_⟩
  · rw [hall _ l0 (by omega), coords_lin hc]
  · rintro r' ⟨h0, h1, he⟩
    rw [hall r' h0 h1] at he
    simp only [Res.ok.injEq, Prod.mk.injEq, true_and] at he
    rw [← he, lin_coords hpos h0 (by omega)]

/-- Error branch of C01: a grid fully fixed by the user whose product is not the communicator size is
rejected on every rank. -/
theorem C01_wrong_product_rejected (g2 : Guess2) (g3 : Guess3) (size rank M N m n : Int)
    (hm : 1 ≤ m) (hn : 1 ≤ n) (h : m * n ≠ size) :
    partition g2 g3 size rank [M, N] [m, n] = .err .outOfRange := by
  have e1 : ¬ (m < 1 ∧ n < 1) := by omega
  have e2 : ¬ m < 1 := by omega
  have e3 : ¬ n < 1 := by omega
  unfold partition check
  by_cases h1 : ¬ size < 1 <;> by_cases h2 : ¬ (rank < 0 ∨ rank ≥ size) <;>
    simp only [h1, h2, if_true, if_false, Res.ok_bind, chooseGrid, partition2D, if_neg e1, if_neg e2,
      if_neg e3, List.foldl, Int.one_mul, if_neg h, Res.err_bind, not_true, not_false_iff]

/-- Non-vacuity: 12 processes on a 10×7×9 grid, second direction fixed to 2 parts. -/
example : partition exactGuess2 exactGuess3 12 7 [10,7,9] [-1,2,-1] = .ok ([3,2,2],[1,0,1]) := by
  decide +kernel

/-- **C02.** Every accepted 1-D distribution is balanced: contiguous blocks in rank order, sizes
differing by at most one, every entity owned by exactly one part.  (`Distribute` acts on each direction
separately.) -/
theorem C02_distribution_balanced (size N : Int) (hs : 1 ≤ size) (hN : 0 ≤ N) :
    Balanced size N (fun r => (dist1D size r N).1) (fun r => (dist1D size r N).2) := by
  have hq : Int.tdiv N size = N / size := Int.tdiv_eq_ediv_of_nonneg hN
  have hm : Int.tmod N size = N % size := Int.tmod_eq_emod_of_nonneg hN
  have hdec := Int.mul_ediv_add_emod N size
  have hm0 : 0 ≤ N % size := Int.emod_nonneg _ (by omega)
  have hm1 : N % size < size := Int.emod_lt_of_pos _ (by omega)
  have hq0 : 0 ≤ N / size := Int.ediv_nonneg hN (by omega)
  simp only [dist1D, hq, hm]
  generalize N / size = q at *
  generalize N % size = t at *
  have hstart : ∀ r : Int, (r+1)*q = r*q + q := by intro r; ring
  refine ⟨?_, ?_, ?_, ?_, ?_, ?_, ?_⟩
  · simp; omega
  · intro r h0 h1
    rw [hstart]; split_ifs <;> omega
  · have : (size-1)*q = size*q - q := by ring
    rw [this]; split_ifs <;> omega
  · intro r h0 h1; split_ifs <;> omega
  · intro r r' h0 h1 h2; split_ifs <;> omega
  · intro hle r h0 h1
    have : 1 ≤ q := by
      by_contra hc
      have : q = 0 := by omega
      subst this; simp at *; omega
    split_ifs <;> omega
  · intro e h0 h1
    -- the owner: big blocks first
    have mono : ∀ r r' : Int, r < r' → 0 ≤ r → r * q + (if t > r then r else t) + (q + if t > r then 1 else 0)
        ≤ r' * q + (if t > r' then r' else t) := by
      intro r r' h h0
      have h3 : (r+1)*q ≤ r'*q := Int.mul_le_mul_of_nonneg_right (by omega) hq0
      rw [hstart] at h3
      split_ifs <;> omega
    have exi : ∃ r, 0 ≤ r ∧ r < size ∧ r * q + (if t > r then r else t) ≤ e ∧
        e < r * q + (if t > r then r else t) + (q + if t > r then 1 else 0) := by
      by_cases hb : e < t * (q+1)
      · refine ⟨e / (q+1), Int.ediv_nonneg h0 (by omega), ?_, ?_, ?_⟩
        · have : e / (q+1) < t := Int.ediv_lt_of_lt_mul (by omega) hb
          omega
        · have hlt : e / (q+1) < t := Int.ediv_lt_of_lt_mul (by omega) hb
          rw [if_pos hlt]
          have := Int.mul_ediv_add_emod e (q+1)
          have h5 := Int.emod_nonneg e (b := q+1) (by omega)
          generalize e / (q+1) = a at *
          have : (q+1)*a = a*q + a := by ring
          omega
        · have hlt : e / (q+1) < t := Int.ediv_lt_of_lt_mul (by omega) hb
          rw [if_pos hlt, if_pos hlt]
          have := Int.mul_ediv_add_emod e (q+1)
          have h5 := Int.emod_lt_of_pos e (b := q+1) (by omega)
          generalize e / (q+1) = a at *
          have : (q+1)*a = a*q + a := by ring
          omega
      · have htq : t * (q+1) = t*q + t := by ring
        have hqpos : 0 < q := by
          rcases Int.lt_or_le 0 q with h | h
          · exact h
          · have : q = 0 := by omega
            subst this; simp at *; omega
        have hsub : 0 ≤ e - t*(q+1) := by omega
        have hlt : (e - t*(q+1))/q < size - t := by
          apply Int.ediv_lt_of_lt_mul hqpos
          have : (size - t)*q = size*q - t*q := by ring
          omega
        have hge := Int.ediv_nonneg hsub (by omega : 0 ≤ q)
        refine ⟨t + (e - t*(q+1))/q, by omega, by omega, ?_, ?_⟩
        · rw [if_neg (by omega)]
          have := Int.mul_ediv_add_emod (e - t*(q+1)) q
          have h5 := Int.emod_nonneg (e - t*(q+1)) (b := q) (by omega)
          generalize (e - t*(q+1)) / q = a at *
          have : (t+a)*q = t*q + q*a := by ring
          omega
        · rw [if_neg (by omega), if_neg (by omega)]
          have := Int.mul_ediv_add_emod (e - t*(q+1)) q
          have h5 := Int.emod_lt_of_pos (e - t*(q+1)) (b := q) hqpos
          generalize (e - t*(q+1)) / q = a at *
          have : (t+a)*q = t*q + q*a := by ring
          omega
    obtain ⟨r, a0, a1, a2, a3⟩ := exi
    refine ⟨r, ⟨a0, a1, a2, a3⟩, ?_⟩
    rintro r' ⟨b0, b1, b2, b3⟩
    rcases Int.lt_trichotomy r r' with h | h | h
    · have := mono r r' h a0; omega
    · exact h.symm
    · have := mono r' r h b0; omega

/-- C02 at the API: the multi-directional call succeeds exactly on valid arguments and then returns the
1-D distribution of every direction. -/
theorem C02_distribute_iff (args : List (Int × Int × Int)) (out : List (Int × Int)) :
    distribute args = .ok out ↔
      (1 ≤ args.length ∧ args.length ≤ 3) ∧
      (∀ a ∈ args, 1 ≤ a.1 ∧ (0 ≤ a.2.1 ∧ a.2.1 < a.1) ∧ 0 ≤ a.2.2) ∧
      out = args.map (fun a => dist1D a.1 a.2.1 a.2.2) := by
  have hc : ∀ l : List (Int × Int × Int), ∀ u, distChecks l = .ok u ↔
      ∀ a ∈ l, 1 ≤ a.1 ∧ (0 ≤ a.2.1 ∧ a.2.1 < a.1) ∧ 0 ≤ a.2.2 := by
    intro l u
    induction l with
    | nil => simp [distChecks]
    | cons a as ih =>
      simp only [distChecks, distCheck, Res.bind_eq_ok, check_eq_ok, exists_and_left, exists_const,
        ih, List.forall_mem_cons]
      constructor
      · rintro ⟨h', h⟩; exact ⟨by omega, h⟩
      · rintro ⟨_, h⟩; exact ⟨⟨by omega, by omega, by omega⟩, h⟩
  simp only [distribute, Res.bind_eq_ok, check_eq_ok, exists_and_left, exists_const, hc,
    Res.ok.injEq]
  constructor
  · rintro ⟨h1, h2, h3⟩; exact ⟨by omega, h2, h3.symm⟩
  · rintro ⟨h1, h2, h3⟩; exact ⟨by omega, h2, h3.symm⟩

example : distribute [(3,1,8),(2,0,5)] = .ok [(3,3),(3,0)] := by decide

/-- **C62** (two directions). In exact arithmetic the automatic factorisation finds a grid whenever one
exists: if the communicator size factors as `m*n` with `m ≤ M`, `n ≤ N`, then leaving both counts to PetIGA
succeeds on every rank. -/
theorem C62_auto_grid_complete_2d_partial (g2 : Guess2) (g3 : Guess3)
    (hg : ∀ s M N, 1 ≤ N → RoundSqrt s M N (g2 s M N))
    (size rank M N m n u v : Int) (hr : 0 ≤ rank ∧ rank < size)
    (hm : 1 ≤ m) (hn : 1 ≤ n) (hmn : m * n = size) (hM : m ≤ M) (hN : n ≤ N)
    (hu : u < 1) (hv : v < 1) :
    ∃ n' i, partition g2 g3 size rank [M, N] [u, v] = .ok (n', i) := by
  have key := part2d_complete g2 hg size.toNat M.toNat N.toNat m.toNat n.toNat
    (by omega) (by omega)
    (by
      have : ((m.toNat * n.toNat : Nat) : Int) = m * n := by
        rw [Nat.cast_mul, Int.toNat_of_nonneg (by omega), Int.toNat_of_nonneg (by omega)]
      omega) (by omega) (by omega)
  have hmul := part2d_mul g2 size.toNat M.toNat N.toNat
  have hmul' : ((part2d g2 size.toNat M.toNat N.toNat).1 : Int) *
      ((part2d g2 size.toNat M.toNat N.toNat).2 : Int) = size := by
    rw [← Nat.cast_mul, hmul]; omega
  refine ⟨[((part2d g2 size.toNat M.toNat N.toNat).1 : Int),
    ((part2d g2 size.toNat M.toNat N.toNat).2 : Int)],
    coords [((part2d g2 size.toNat M.toNat N.toNat).1 : Int),
      ((part2d g2 size.toNat M.toNat N.toNat).2 : Int)] rank, ?_⟩
  · have e1 : ¬ size < 1 := by omega
    have e2 : ¬ (rank < 0 ∨ rank ≥ size) := by omega
    have e3 : ¬ (M < 1 ∨ N < 1) := by omega
    unfold partition check
    simp only [if_pos e1, if_pos e2, Res.ok_bind, chooseGrid, partition2D, if_pos (And.intro hu hv),
      autoPart2d, if_neg e3, List.foldl, Int.one_mul, hmul', if_true]
    rw [if_pos]
    · rfl
    · intro q hq
      simp only [List.zip_cons_cons, List.zip_nil_left, List.mem_cons, List.not_mem_nil, or_false] at hq
      rcases hq with rfl | rfl <;> dsimp only <;> omega

example : ∃ n' i, partition exactGuess2 exactGuess3 12 5 [4, 3] [-1, -1] = .ok (n', i) :=
  C62_auto_grid_complete_2d_partial _ _ exactGuess2_exact 12 5 4 3 4 3 (-1) (-1) (by omega)
    (by omega) (by omega) (by omega) (by omega) (by omega) (by omega) (by omega)

/-- **C62** fails with three directions: 630 processes fit a 9×7×14 grid as 9·5·14, but the automatic
factorisation picks a grid that does not fit and the set-up is refused. -/
theorem C62_auto_grid_complete_3d_refuted :
    ∃ (g2 : Guess2) (g3 : Guess3),
      (∀ s M N, 1 ≤ N → RoundSqrt s M N (g2 s M N)) ∧
      (∀ s M N P, 1 ≤ N → 1 ≤ P → RoundCbrt s M N P (g3 s M N P)) ∧
      (∃ n, prod n = 630 ∧ Fits [9, 7, 14] n) ∧
      ∀ rank, 0 ≤ rank → rank < 630 →
        partition g2 g3 630 rank [9, 7, 14] [-1, -1, -1] = .err .outOfRange := by
  refine ⟨exactGuess2, exactGuess3, exactGuess2_exact, exactGuess3_exact,
    ⟨[9, 5, 14], by decide, .cons (by decide) (.cons (by decide) (.cons (by decide) .nil))⟩, ?_⟩
  intro rank h0 h1
  have hc : chooseGrid exactGuess2 exactGuess3 630 [9, 7, 14] [-1, -1, -1] = .ok [7, 6, 15] := by
    decide +kernel
  have e2 : ¬ (rank < 0 ∨ rank ≥ 630) := by omega
  unfold partition check
  rw [if_pos (by decide), if_pos e2]
  simp only [Res.ok_bind, hc]
  rw [if_pos (by decide)]
  simp only [Res.ok_bind]
  rw [if_neg (by decide)]
  rfl

end PetIGA.Part
