import Verif.Model.Part
import Verif.Spec.Part
import Mathlib.Tactic.Linarith
import Mathlib.Tactic.Ring
import Mathlib.Tactic.NormNum
/-! Helper lemmas for the processor grid. -/
namespace PetIGA.Part
open PetIGA.Spec

theorem decDiv_spec (size : Nat) : ∀ m, 1 ≤ m →
    1 ≤ decDiv size m ∧ decDiv size m ∣ size ∧ decDiv size m ≤ m ∧
    ∀ d, d ∣ size → d ≤ m → d ≤ decDiv size m
  | 0, h => by omega
  | m+1, _ => by
    unfold decDiv
    split
    · rename_i h
      have hm : 1 ≤ m := by
        rcases Nat.eq_zero_or_pos m with h0 | h0
        · subst h0; simp [Nat.mod_one] at h
        · exact h0
      obtain ⟨h1, h2, h3, h4⟩ := decDiv_spec size m hm
      refine ⟨h1, h2, by omega, fun d hd hdm => ?_⟩
      apply h4 d hd
      rcases Nat.lt_or_ge d (m+1) with hlt | hge
      · omega
      · have : d = m+1 := by omega
        subst this
        exact absurd (Nat.mod_eq_zero_of_dvd hd) h
    · rename_i h
      refine ⟨by omega, Nat.dvd_of_mod_eq_zero (by omega), by omega, fun d _ h => h⟩

theorem guess_pos (g : Nat) : 1 ≤ (if g = 0 then 1 else g) := by split <;> omega

theorem part2dInner_mul (g2 : Guess2) (size M N : Nat) :
    (part2dInner g2 size M N).1 * (part2dInner g2 size M N).2.1 = size := by
  have h := decDiv_spec size (if g2 size M N = 0 then 1 else g2 size M N) (guess_pos _)
  simp only [part2dInner]
  exact Nat.mul_div_cancel' h.2.1

theorem part2d_mul (g2 : Guess2) (size M N : Nat) :
    (part2d g2 size M N).1 * (part2d g2 size M N).2 = size := by
  have h1 := part2dInner_mul g2 size M N
  have h2 := part2dInner_mul g2 size N M
  simp only [part2d]
  split_ifs <;> simp_all [Nat.mul_comm]

/-- A candidate that is a factorisation of `size`. -/
def Best.Good (size : Nat) (b : Best) : Prop := b.m * b.n * b.p = size

theorem candM_good (g2 : Guess2) (size M N P x : Nat) (h : x ∣ size) :
    (candM g2 size M N P x).Good size := by
  simp only [candM, Best.Good]
  rw [Nat.mul_assoc, part2d_mul, Nat.mul_div_cancel' h]

theorem candN_good (g2 : Guess2) (size M N P x : Nat) (h : x ∣ size) :
    (candN g2 size M N P x).Good size := by
  simp only [candN, Best.Good]
  rw [Nat.mul_comm _ x, Nat.mul_assoc, part2d_mul, Nat.mul_div_cancel' h]

theorem candP_good (g2 : Guess2) (size M N P x : Nat) (h : x ∣ size) :
    (candP g2 size M N P x).Good size := by
  simp only [candP, Best.Good]
  rw [part2d_mul, Nat.mul_comm, Nat.mul_div_cancel' h]

theorem search_good (size : Nat) (cand : Nat → Best)
    (hc : ∀ x, x ∣ size → (cand x).Good size) :
    ∀ x b, b.Good size → (search size cand x b).Good size
  | 0, b, h => h
  | x+1, b, h => by
    unfold search
    apply search_good size cand hc x
    split_ifs with h1 h2
    · exact h
    · exact hc _ (Nat.dvd_of_mod_eq_zero (by omega))
    · exact h

theorem part3dInner_good (g2 : Guess2) (g3 : Guess3) (size M N P : Nat) :
    (part3dInner g2 g3 size M N P).Good size := by
  have h := decDiv_spec size (if g3 size M N P = 0 then 1 else g3 size M N P) (guess_pos _)
  have h0 := candM_good g2 size M N P _ h.2.1
  unfold part3dInner
  exact search_good size _ (candP_good g2 size M N P) _ _
    (search_good size _ (candN_good g2 size M N P) _ _
      (search_good size _ (candM_good g2 size M N P) _ _ h0))

theorem part3d_mul (g2 : Guess2) (g3 : Guess3) (size M N P : Nat) :
    (part3d g2 g3 size M N P).1 * (part3d g2 g3 size M N P).2.1 *
      (part3d g2 g3 size M N P).2.2 = size := by
  have e1 := part3dInner_good g2 g3 size M N P
  have e2 := part3dInner_good g2 g3 size N M P
  have e3 := part3dInner_good g2 g3 size P M N
  simp only [part3d]
  generalize part3dInner g2 g3 size M N P = r0 at *
  generalize part3dInner g2 g3 size N M P = r1 at *
  generalize part3dInner g2 g3 size P M N = r2 at *
  simp only [Best.Good] at *
  have key : ∀ b : Best, b.m * b.n * b.p = size →
      (let m := b.m; let n := b.n; let p := b.p
       let mn := if M = N ∧ n < m then (n, m) else (m, n)
       let m := mn.1; let n := mn.2
       let mp := if M = P ∧ p < m then (p, m) else (m, p)
       let m := mp.1; let p := mp.2
       let np := if N = P ∧ p < n then (p, n) else (n, p)
       let n := np.1; let p := np.2
       m * n * p = size) := by
    intro b hb
    simp only
    rw [← hb]
    split_ifs <;> (try dsimp only) <;> ring
  have := key (if r2.C < (if r1.C < r0.C then (⟨r1.n, r1.m, r1.p, r1.C⟩ : Best) else r0).C then
    ⟨r2.n, r2.p, r2.m, r2.C⟩ else (if r1.C < r0.C then (⟨r1.n, r1.m, r1.p, r1.C⟩ : Best) else r0)) (by
      split_ifs <;> (try dsimp only) <;>
      first
        | exact e1
        | (rw [← e2]; ring1)
        | (rw [← e3]; ring1))
  exact this

theorem forall2_prod_pos : ∀ {n c : List Int}, InBox n c → 0 < prod n
  | _, _, .nil => by simp [prod]
  | _, _, .cons h hs => by
    have := forall2_prod_pos hs
    simp only [prod]
    exact Int.mul_pos (by omega) this

theorem foldl_mul (l : List Int) (a : Int) : l.foldl (· * ·) a = a * prod l := by
  induction l generalizing a with
  | nil => simp [prod]
  | cons x xs ih => simp only [List.foldl_cons, ih, prod, Int.mul_assoc]

/-- Linear index of a coordinate tuple (first coordinate fastest). -/
def lin : List Int → List Int → Int
  | n :: ns, c :: cs => c + n * lin ns cs
  | _, _ => 0

theorem coords_step {n r : Int} (hn : 1 ≤ n) (hr : 0 ≤ r) :
    Int.tmod r n = r % n ∧ Int.tdiv (r - Int.tmod r n) n = r / n := by
  have h1 : Int.tmod r n = r % n := Int.tmod_eq_emod_of_nonneg hr
  refine ⟨h1, ?_⟩
  have h2 := Int.mul_ediv_add_emod r n
  have h3 : r - r % n = n * (r / n) := by omega
  rw [h1, h3]
  exact Int.mul_tdiv_cancel_left _ (by omega)

theorem coords_inBox : ∀ {ns : List Int} {r : Int}, (∀ a ∈ ns, 1 ≤ a) → 0 ≤ r →
    InBox ns (coords ns r)
  | [], _, _, _ => .nil
  | n :: ns, r, h, hr => by
    have hn := h n (by simp)
    obtain ⟨h1, h2⟩ := coords_step hn hr
    simp only [coords]
    refine .cons ⟨?_, ?_⟩ ?_
    · rw [h1]; exact Int.emod_nonneg _ (by omega)
    · rw [h1]; exact Int.emod_lt_of_pos _ (by omega)
    · apply coords_inBox (fun a ha => h a (by simp [ha]))
      rw [h2]; exact Int.ediv_nonneg hr (by omega)

theorem lin_coords : ∀ {ns : List Int} {r : Int}, (∀ a ∈ ns, 1 ≤ a) → 0 ≤ r → r < prod ns →
    lin ns (coords ns r) = r
  | [], r, _, h0, h1 => by simp [prod] at h1; simp [lin]; omega
  | n :: ns, r, h, hr, hlt => by
    have hn := h n (by simp)
    obtain ⟨h1, h2⟩ := coords_step hn hr
    simp only [coords, lin]
    simp only [prod] at hlt
    rw [h1] at h2
    rw [h1, h2, lin_coords (fun a ha => h a (by simp [ha])) (Int.ediv_nonneg hr (by omega))]
    · have := Int.mul_ediv_add_emod r n; omega
    · apply Int.ediv_lt_of_lt_mul (by omega)
      rw [Int.mul_comm]; exact hlt

theorem lin_range : ∀ {ns cs : List Int}, InBox ns cs → 0 ≤ lin ns cs ∧ lin ns cs < prod ns
  | _, _, .nil => by simp [lin, prod]
  | _, _, .cons (a := n) (b := c) (l₁ := ns) (l₂ := cs) h hs => by
    obtain ⟨h0, h1⟩ := lin_range hs
    simp only [lin, prod]
    constructor
    · have : 0 ≤ n * lin ns cs := Int.mul_nonneg (by omega) h0
      omega
    · nlinarith

theorem coords_lin : ∀ {ns cs : List Int}, InBox ns cs → coords ns (lin ns cs) = cs
  | _, _, .nil => by simp [coords]
  | _, _, .cons (a := n) (b := c) (l₁ := ns) (l₂ := cs) h hs => by
    obtain ⟨h0, h1⟩ := lin_range hs
    have hn : 1 ≤ n := by omega
    have hp : 0 ≤ c + n * lin ns cs := by
      have : 0 ≤ n * lin ns cs := Int.mul_nonneg (by omega) h0
      omega
    obtain ⟨e1, e2⟩ := coords_step hn hp
    simp only [lin, coords]
    rw [e2, e1]
    have e3 : (c + n * lin ns cs) % n = c := by
      rw [Int.add_mul_emod_self_left]; exact Int.emod_eq_of_lt h.1 h.2
    have e4 : (c + n * lin ns cs) / n = lin ns cs := by
      rw [Int.add_mul_ediv_left _ _ (by omega), Int.ediv_eq_zero_of_lt h.1 h.2]; omega
    rw [e3, e4, coords_lin hs]

/-- Greatest `r ≥ r₀` (within the fuel) with `r^k ≤ q`. -/
def rootUp (k q : Nat) : Nat → Nat → Nat
  | 0, r => r
  | f+1, r => if (r+1)^k ≤ q then rootUp k q f (r+1) else r

theorem rootUp_spec (k q : Nat) (hk : 1 ≤ k) : ∀ f r, r^k ≤ q → q < (r + f + 1)^k →
    (rootUp k q f r)^k ≤ q ∧ q < (rootUp k q f r + 1)^k
  | 0, r, h, h' => ⟨h, h'⟩
  | f+1, r, h, h' => by
    unfold rootUp
    split
    · rename_i h1
      exact rootUp_spec k q hk f (r+1) h1 (by rw [show r + 1 + f + 1 = r + (f+1) + 1 by omega]; exact h')
    · exact ⟨h, by omega⟩

theorem iroot_spec (k q : Nat) (hk : 1 ≤ k) :
    (rootUp k q q 0)^k ≤ q ∧ q < (rootUp k q q 0 + 1)^k := by
  apply rootUp_spec k q hk
  · rw [Nat.zero_pow (by omega)]; omega
  · have : (0 + q + 1)^1 ≤ (0+q+1)^k := Nat.pow_le_pow_right (by omega) hk
    rw [Nat.pow_one] at this
    omega

/-- Exact value of the 2-D guess. -/
def exactGuess2 : Guess2 := fun s M N => (rootUp 2 (4*M*s/N) (4*M*s/N) 0 + 1) / 2
/-- Exact value of the 3-D guess. -/
def exactGuess3 : Guess3 := fun s M N P =>
  (rootUp 3 (8*(M*M)*s/(N*P)) (8*(M*M)*s/(N*P)) 0 + 1) / 2

theorem exactGuess2_exact (s M N : Nat) (hN : 1 ≤ N) : RoundSqrt s M N (exactGuess2 s M N) := by
  obtain ⟨h1, h2⟩ := iroot_spec 2 (4*M*s/N) (by omega)
  unfold exactGuess2
  generalize rootUp 2 (4*M*s/N) (4*M*s/N) 0 = r at *
  constructor
  · intro hg
    calc (2*((r+1)/2)-1)^2 * N ≤ r^2 * N :=
          Nat.mul_le_mul_right _ (Nat.pow_le_pow_left (by omega) 2)
      _ ≤ (4*M*s/N) * N := Nat.mul_le_mul_right _ h1
      _ ≤ 4*M*s := Nat.div_mul_le_self _ _
  · calc 4*M*s < (4*M*s/N + 1) * N := by
          have := Nat.div_add_mod (4*M*s) N
          have := Nat.mod_lt (4*M*s) (show N > 0 by omega)
          nlinarith
      _ ≤ (r+1)^2 * N := Nat.mul_le_mul_right _ h2
      _ ≤ (2*((r+1)/2)+1)^2 * N := Nat.mul_le_mul_right _ (Nat.pow_le_pow_left (by omega) 2)

theorem exactGuess3_exact (s M N P : Nat) (hN : 1 ≤ N) (hP : 1 ≤ P) :
    RoundCbrt s M N P (exactGuess3 s M N P) := by
  have hNP : 0 < N * P := Nat.mul_pos hN hP
  obtain ⟨h1, h2⟩ := iroot_spec 3 (8*(M*M)*s/(N*P)) (by omega)
  unfold exactGuess3
  generalize rootUp 3 (8*(M*M)*s/(N*P)) (8*(M*M)*s/(N*P)) 0 = r at *
  constructor
  · intro hg
    calc (2*((r+1)/2)-1)^3 * (N*P) ≤ r^3 * (N*P) :=
          Nat.mul_le_mul_right _ (Nat.pow_le_pow_left (by omega) 3)
      _ ≤ (8*(M*M)*s/(N*P)) * (N*P) := Nat.mul_le_mul_right _ h1
      _ ≤ 8*(M*M)*s := Nat.div_mul_le_self _ _
  · calc 8*(M*M)*s < (8*(M*M)*s/(N*P) + 1) * (N*P) := by
          have := Nat.div_add_mod (8*(M*M)*s) (N*P)
          have := Nat.mod_lt (8*(M*M)*s) hNP
          nlinarith
      _ ≤ (r+1)^3 * (N*P) := Nat.mul_le_mul_right _ h2
      _ ≤ (2*((r+1)/2)+1)^3 * (N*P) := Nat.mul_le_mul_right _ (Nat.pow_le_pow_left (by omega) 3)

/-- A factorisation at most as expensive as one that fits also fits. -/
theorem fits_of_cost {M N m n m' n' : Int} (h0 : 0 ≤ m) (h0' : 0 ≤ n) (h1 : m ≤ M) (h2 : n ≤ N)
    (hm' : 1 ≤ m') (hn' : 1 ≤ n')
    (he : m' * n' = m * n) (hc : M * n' + N * m' ≤ M * n + N * m) : m' ≤ M ∧ n' ≤ N := by
  have hA : 0 ≤ (M - m) * (N - n) := Int.mul_nonneg (by omega) (by omega)
  have hB : 0 ≤ (M - m') * (N - n') := by nlinarith
  have hle : m * n ≤ M * N := by nlinarith
  by_contra hcon
  rcases Int.lt_or_le M m' with h | h
  · have : N ≤ n' := by by_contra hx; nlinarith
    nlinarith
  · have h3 : N < n' := by omega
    have : M ≤ m' := by by_contra hx; nlinarith
    nlinarith

theorem inner_fits (s M N g m n : Nat) (hg : RoundSqrt s M N g) (hm : 1 ≤ m) (hn : 1 ≤ n)
    (hmn : m * n = s) (hM : m ≤ M) (hN : n ≤ N) (hle : m ≤ (if g = 0 then 1 else g)) :
    decDiv s (if g = 0 then 1 else g) ≤ M ∧ s / decDiv s (if g = 0 then 1 else g) ≤ N := by
  obtain ⟨d1, d2, d3, d4⟩ := decDiv_spec s (if g = 0 then 1 else g) (guess_pos g)
  have hge := d4 m ⟨n, hmn.symm⟩ hle
  constructor
  · refine le_trans d3 ?_
    split
    · omega
    · rename_i h0
      have h1 := hg.1 h0
      by_contra hc
      have h2 : 2*M+1 ≤ 2*g-1 := by omega
      have h3 : (2*M+1)^2 ≤ (2*g-1)^2 := Nat.pow_le_pow_left h2 2
      have h4 : s ≤ M * N := by rw [← hmn]; exact Nat.mul_le_mul hM hN
      have h5 : (2*M+1)^2 * N ≤ (2*g-1)^2 * N := Nat.mul_le_mul_right _ h3
      nlinarith
  · calc s / decDiv s (if g = 0 then 1 else g) ≤ s / m := Nat.div_le_div_left hge (by omega)
      _ = n := by rw [← hmn]; exact Nat.mul_div_cancel_left _ (by omega)
      _ ≤ N := hN

theorem part2d_complete (g2 : Guess2) (hg : ∀ s M N, 1 ≤ N → RoundSqrt s M N (g2 s M N))
    (s M N m n : Nat) (hm : 1 ≤ m) (hn : 1 ≤ n) (hmn : m * n = s) (hM : m ≤ M) (hN : n ≤ N) :
    (part2d g2 s M N).1 ≤ M ∧ (part2d g2 s M N).2 ≤ N := by
  have gA := hg s M N (by omega)
  have gB := hg s N M (by omega)
  have mulA := part2dInner_mul g2 s M N
  have mulB := part2dInner_mul g2 s N M
  have hs : 1 ≤ s := by rw [← hmn]; exact Nat.mul_pos hm hn
  have one : (((part2dInner g2 s M N).1 ≤ M ∧ (part2dInner g2 s M N).2.1 ≤ N) ∨
      ((part2dInner g2 s N M).1 ≤ N ∧ (part2dInner g2 s N M).2.1 ≤ M)) := by
    by_cases h : m ≤ (if g2 s M N = 0 then 1 else g2 s M N)
    · exact Or.inl (inner_fits s M N _ m n gA hm hn hmn hM hN h)
    · right
      apply inner_fits s N M _ n m gB hn hm (by rw [Nat.mul_comm]; exact hmn) hN hM
      by_contra h'
      have a1 : g2 s M N + 1 ≤ m := by split at h <;> omega
      have b1 : g2 s N M + 1 ≤ n := by split at h' <;> omega
      have a2 := gA.2
      have b2 := gB.2
      have a3 : (2 * g2 s M N + 1)^2 ≤ (2*m-1)^2 := Nat.pow_le_pow_left (by omega) 2
      have b3 : (2 * g2 s N M + 1)^2 ≤ (2*n-1)^2 := Nat.pow_le_pow_left (by omega) 2
      have a4 : (2*m-1)^2 ≤ (2*m)^2 := Nat.pow_le_pow_left (by omega) 2
      have b4 : (2*n-1)^2 ≤ (2*n)^2 := Nat.pow_le_pow_left (by omega) 2
      have a5 : 4*M*(m*n) < (2*m)^2*N := by
        rw [hmn]; exact lt_of_lt_of_le a2 (Nat.mul_le_mul_right _ (le_trans a3 a4))
      have b5 : 4*N*(m*n) < (2*n)^2*M := by
        rw [hmn]; exact lt_of_lt_of_le b2 (Nat.mul_le_mul_right _ (le_trans b3 b4))
      have a6 : (4*m) * (M*n) < (4*m) * (m*N) := by nlinarith
      have b6 : (4*n) * (m*N) < (4*n) * (M*n) := by nlinarith
      have a7 := Nat.lt_of_mul_lt_mul_left a6
      have b7 := Nat.lt_of_mul_lt_mul_left b6
      omega
  simp only [part2d]
  have cA : (part2dInner g2 s M N).2.2 =
      cut2d M N (part2dInner g2 s M N).1 (part2dInner g2 s M N).2.1 := rfl
  have cB : (part2dInner g2 s N M).2.2 =
      cut2d N M (part2dInner g2 s N M).1 (part2dInner g2 s N M).2.1 := rfl
  rw [cA, cB]
  generalize (part2dInner g2 s M N).1 = m1 at *
  generalize (part2dInner g2 s M N).2.1 = n1 at *
  generalize (part2dInner g2 s N M).1 = n2 at *
  generalize (part2dInner g2 s N M).2.1 = m2 at *
  have p1 : 1 ≤ m1 ∧ 1 ≤ n1 := by
    constructor <;> (by_contra hc; have : _ = 0 := Nat.lt_one_iff.1 (Nat.not_le.1 hc); simp [this] at mulA; omega)
  have p2 : 1 ≤ m2 ∧ 1 ≤ n2 := by
    constructor <;> (by_contra hc; have : _ = 0 := Nat.lt_one_iff.1 (Nat.not_le.1 hc); simp [this] at mulB; omega)
  have eq12 : (m1:Int) * n1 = m2 * n2 := by
    have : m1 * n1 = m2 * n2 := by rw [mulA, Nat.mul_comm, mulB]
    exact_mod_cast this
  have main : (if cut2d M N m1 n1 < cut2d N M n2 m2 then (m1, n1) else (m2, n2)).1 ≤ M ∧
      (if cut2d M N m1 n1 < cut2d N M n2 m2 then (m1, n1) else (m2, n2)).2 ≤ N := by
    unfold cut2d
    split
    · rename_i hlt
      rcases one with h | h
      · exact h
      · have := fits_of_cost (M := M) (N := N) (m := m2) (n := n2) (m' := m1) (n' := n1)
          (by omega) (by omega) (by omega) (by omega) (by omega) (by omega) eq12 (by nlinarith)
        dsimp only; omega
    · rename_i hlt
      rcases one with h | h
      · have := fits_of_cost (M := M) (N := N) (m := m1) (n := n1) (m' := m2) (n' := n2)
          (by omega) (by omega) (by omega) (by omega) (by omega) (by omega) eq12.symm (by nlinarith)
        dsimp only; omega
      · exact ⟨h.2, h.1⟩
  generalize (if cut2d M N m1 n1 < cut2d N M n2 m2 then (m1, n1) else (m2, n2)) = w at *
  split_ifs
  · dsimp only; omega
  · exact main

theorem tdiv_nonneg' {a b : Int} (ha : 0 ≤ a) (hb : 1 ≤ b) : 0 ≤ Int.tdiv a b :=
  Int.tdiv_nonneg ha (by omega)

theorem autoPart2d_ok {g2 : Guess2} {size M N : Int} {r : Int × Int}
    (h : autoPart2d g2 size M N = .ok r) : 0 ≤ r.1 ∧ 0 ≤ r.2 := by
  unfold autoPart2d at h
  split at h
  · simp at h
  · simp only [Res.ok.injEq] at h
    subst h; constructor <;> exact Int.natCast_nonneg _

theorem autoPart3d_ok {g2 : Guess2} {g3 : Guess3} {size M N P : Int} {r : Int × Int × Int}
    (h : autoPart3d g2 g3 size M N P = .ok r) : 0 ≤ r.1 ∧ 0 ≤ r.2.1 ∧ 0 ≤ r.2.2 := by
  unfold autoPart3d at h
  split at h
  · simp at h
  · simp only [Res.ok.injEq] at h
    subst h; refine ⟨?_, ?_, ?_⟩ <;> exact Int.natCast_nonneg _

/-- The chosen grid keeps the user's entries and is non-negative. -/
theorem chooseGrid_ok {g2 : Guess2} {g3 : Guess3} {size : Int} {N n n' : List Int}
    (hs : 1 ≤ size) (h : chooseGrid g2 g3 size N n = .ok n') :
    Honours n n' ∧ N.length = n'.length ∧ ∀ a ∈ n', 0 ≤ a := by
  unfold chooseGrid at h
  split at h
  · rename_i N0 N1 N2 n0 n1 n2
    rw [Res.bind_eq_ok] at h
    obtain ⟨r, hr, h⟩ := h
    simp only [Res.ok.injEq] at h
    subst h
    have key : (0 ≤ r.1 ∧ (1 ≤ n0 → r.1 = n0)) ∧ (0 ≤ r.2.1 ∧ (1 ≤ n1 → r.2.1 = n1)) ∧
        (0 ≤ r.2.2 ∧ (1 ≤ n2 → r.2.2 = n2)) := by
      unfold partition3D at hr
      have hmul : ∀ {a b : Int}, 1 ≤ a → 1 ≤ b → 1 ≤ a * b := by intros; nlinarith
      split_ifs at hr
      · have := autoPart3d_ok hr; omega
      · rw [Res.bind_eq_ok] at hr
        obtain ⟨q, hq, hr⟩ := hr
        have := autoPart2d_ok hq
        simp only [Res.ok.injEq] at hr; subst hr; dsimp only; omega
      · rw [Res.bind_eq_ok] at hr
        obtain ⟨q, hq, hr⟩ := hr
        have := autoPart2d_ok hq
        simp only [Res.ok.injEq] at hr; subst hr; dsimp only; omega
      · rw [Res.bind_eq_ok] at hr
        obtain ⟨q, hq, hr⟩ := hr
        have := autoPart2d_ok hq
        simp only [Res.ok.injEq] at hr; subst hr; dsimp only; omega
      · simp only [Res.ok.injEq] at hr; subst hr; dsimp only
        have := @tdiv_nonneg' size (n1*n2) (by omega) (hmul (by omega) (by omega))
        omega
      · simp only [Res.ok.injEq] at hr; subst hr; dsimp only
        have := @tdiv_nonneg' size (n0*n2) (by omega) (hmul (by omega) (by omega))
        omega
      · simp only [Res.ok.injEq] at hr; subst hr; dsimp only
        have := @tdiv_nonneg' size (n0*n1) (by omega) (hmul (by omega) (by omega))
        omega
      · simp only [Res.ok.injEq] at hr; subst hr; dsimp only; omega
    refine ⟨.cons key.1.2 (.cons key.2.1.2 (.cons key.2.2.2 .nil)), rfl, ?_⟩
    simp; exact ⟨key.1.1, key.2.1.1, key.2.2.1⟩
  · rename_i N0 N1 n0 n1
    rw [Res.bind_eq_ok] at h
    obtain ⟨r, hr, h⟩ := h
    simp only [Res.ok.injEq] at h
    subst h
    have key : (0 ≤ r.1 ∧ (1 ≤ n0 → r.1 = n0)) ∧ (0 ≤ r.2 ∧ (1 ≤ n1 → r.2 = n1)) := by
      unfold partition2D at hr
      split_ifs at hr
      · have := autoPart2d_ok hr; omega
      · simp only [Res.ok.injEq] at hr; subst hr; dsimp only
        have := @tdiv_nonneg' size n1 (by omega) (by omega)
        omega
      · simp only [Res.ok.injEq] at hr; subst hr; dsimp only
        have := @tdiv_nonneg' size n0 (by omega) (by omega)
        omega
      · simp only [Res.ok.injEq] at hr; subst hr; dsimp only; omega
    refine ⟨.cons key.1.2 (.cons key.2.2 .nil), rfl, ?_⟩
    simp; exact ⟨key.1.1, key.2.1⟩
  · simp only [Res.ok.injEq] at h
    subst h
    refine ⟨.cons ?_ .nil, rfl, ?_⟩
    · split <;> omega
    · simp; split <;> omega
  · simp at h

theorem pos_of_prod : ∀ {l : List Int}, (∀ a ∈ l, 0 ≤ a) → 1 ≤ prod l → ∀ a ∈ l, 1 ≤ a
  | [], _, _, _, h => by simp at h
  | x :: xs, hl, hp, a, ha => by
    simp only [prod] at hp
    have hx := hl x (by simp)
    have hxs : 0 ≤ prod xs := by
      have : ∀ l : List Int, (∀ a ∈ l, 0 ≤ a) → 0 ≤ prod l := by
        intro l
        induction l with
        | nil => simp [prod]
        | cons y ys ih =>
          intro h; simp only [prod]
          exact Int.mul_nonneg (h y (by simp)) (ih fun a ha => h a (by simp [ha]))
      exact this xs fun a ha => hl a (by simp [ha])
    have h1 : 1 ≤ x := by
      by_contra hc
      have : x = 0 := by omega
      subst this; simp at hp
    have h2 : 1 ≤ prod xs := by
      by_contra hc
      have : prod xs = 0 := by omega
      rw [this] at hp; simp at hp
    rcases List.mem_cons.1 ha with h | h
    · omega
    · exact pos_of_prod (fun a ha => hl a (by simp [ha])) h2 a h

theorem forall2_of_zip {R : Int → Int → Prop} : ∀ {l l' : List Int}, l.length = l'.length →
    (∀ q ∈ l.zip l', R q.1 q.2) → List.Forall₂ R l l'
  | [], [], _, _ => .nil
  | _ :: _, _ :: _, hl, h =>
    .cons (h (_, _) (by simp)) (forall2_of_zip (by simpa using hl) fun q hq => h q (by simp [hq]))
  | [], _ :: _, hl, _ => by simp at hl
  | _ :: _, [], hl, _ => by simp at hl

/-- Everything about a successful call except the coordinates is independent of the rank. -/
theorem partition_ok {g2 : Guess2} {g3 : Guess3} {size rank : Int} {N n n' i : List Int}
    (h : partition g2 g3 size rank N n = .ok (n', i)) :
    1 ≤ size ∧ (0 ≤ rank ∧ rank < size) ∧ i = coords n' rank ∧ prod n' = size ∧
    (∀ a ∈ n', 1 ≤ a) ∧ Honours n n' ∧ Fits N n' ∧
    (∀ rank', 0 ≤ rank' → rank' < size →
      partition g2 g3 size rank' N n = .ok (n', coords n' rank')) := by
  unfold partition at h
  simp only [Res.bind_eq_ok, check_eq_ok, exists_and_left, exists_const] at h
  obtain ⟨h1, h2, m, hm, h3, h4, h5⟩ := h
  simp only [Res.ok.injEq, Prod.mk.injEq] at h5
  obtain ⟨rfl, rfl⟩ := h5
  have hs : 1 ≤ size := by omega
  obtain ⟨c1, c2, c3⟩ := chooseGrid_ok hs hm
  have hp : prod m = size := by rw [foldl_mul] at h3; omega
  have hpos := pos_of_prod c3 (by omega)
  refine ⟨hs, by omega, rfl, hp, hpos, c1, ?_, ?_⟩
  · apply forall2_of_zip c2
    intro q hq
    refine ⟨hpos q.2 ?_, by have := h4 q hq; omega⟩
    exact (List.of_mem_zip hq).2
  · intro r hr0 hr1
    unfold partition
    have e1 : ¬ size < 1 := by omega
    have e2 : ¬ (r < 0 ∨ r ≥ size) := by omega
    simp only [check, if_pos e1, if_pos e2, Res.ok_bind, hm, if_pos h3, if_pos h4]

end PetIGA.Part
