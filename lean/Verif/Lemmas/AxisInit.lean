import Verif.Lemmas.Axis
import Mathlib.Tactic.FieldSimp
/-! Closed forms of the knot arrays built by the axis initialisers. -/
set_option linter.unusedSectionVars false
namespace PetIGA.Ax
open PetIGA.Spec

variable {K : Type} [Field K] [LinearOrder K] [IsStrictOrderedRing K]

theorem openPart_eq {p m : Int} (hm : 2*p+1 ≤ m) (a b : K) (U : Int → K) :
    ∀ (t : Nat), (t:Int) ≤ p+1 → ∀ i, openPart m a b t U i =
      if 0 ≤ i ∧ i < t then a else if m - t < i ∧ i ≤ m then b else U i
  | 0, _, i => by
    unfold openPart
    rw [if_neg (by omega), if_neg (by omega)]
  | t+1, ht, i => by
    unfold openPart upd
    rw [openPart_eq hm a b U t (by omega) i]
    push_cast
    by_cases h1 : i = m - t
    · rw [if_pos h1, if_neg (by omega), if_pos (by omega)]
    · rw [if_neg h1]
      by_cases h2 : i = t
      · rw [if_pos h2, if_pos (by omega)]
      · rw [if_neg h2]
        by_cases h3 : 0 ≤ i ∧ i < t
        · rw [if_pos h3, if_pos (by omega)]
        · rw [if_neg h3, if_neg (c := 0 ≤ i ∧ i < (t:Int)+1) (by omega)]
          by_cases h4 : m - t < i ∧ i ≤ m
          · rw [if_pos h4, if_pos (by omega)]
          · rw [if_neg h4, if_neg (by omega)]

theorem fillRun_eq (v : K) : ∀ (t : Nat) (k : Int) (U : Int → K) (i : Int),
    fillRun v t k U i = if k ≤ i ∧ i < k + t then v else U i
  | 0, k, U, i => by unfold fillRun; rw [if_neg (by omega)]
  | t+1, k, U, i => by
    unfold fillRun
    rw [fillRun_eq v t (k+1) _ i]
    unfold upd
    push_cast
    by_cases h1 : k + 1 ≤ i ∧ i < k + 1 + t
    · rw [if_pos h1, if_pos (by omega)]
    · rw [if_neg h1]
      by_cases h2 : i = k
      · rw [if_pos h2, if_pos (by omega)]
      · rw [if_neg h2, if_neg (by omega)]

theorem fillBreaks_eq (u : Int → K) (s : Nat) (hs : 1 ≤ s) : ∀ (t : Nat) (i k : Int) (U : Int → K)
    (x : Int), fillBreaks u s t i k U x =
      if k ≤ x ∧ x < k + t * s then u (i + (x-k)/s) else U x
  | 0, i, k, U, x => by unfold fillBreaks; rw [if_neg (by push_cast; omega)]
  | t+1, i, k, U, x => by
    unfold fillBreaks
    rw [fillBreaks_eq u s hs t (i+1) (k+s) _ x, fillRun_eq]
    have e : ((t+1:Nat):Int) * (s:Int) = t * s + s := by push_cast; ring
    rw [e]
    have hts : 0 ≤ (t:Int) * (s:Int) := by positivity
    generalize (t:Int) * (s:Int) = q at *
    by_cases h1 : k + s ≤ x ∧ x < k + s + q
    · rw [if_pos h1, if_pos (by omega)]
      congr 1
      have : x - k = x - (k + s) + 1 * s := by ring
      rw [this, Int.add_mul_ediv_right _ _ (by omega)]; ring
    · rw [if_neg h1]
      by_cases h2 : k ≤ x ∧ x < k + s
      · rw [if_pos h2, if_pos (by omega)]
        rw [Int.ediv_eq_zero_of_lt (by omega) (by omega)]; simp
      · rw [if_neg h2, if_neg (by omega)]

/-- Index of the break sitting at knot `x` in the open knot vector. -/
def brk (p s r x : Int) : Int :=
  if x ≤ p then 0 else if x < p + 1 + (r-1)*s then 1 + (x-p-1)/s else r

theorem open_eq {p s r : Int} (hp : 1 ≤ p) (hs : 1 ≤ s) (hr : 1 ≤ r) (u U : Int → K)
    {x : Int} (h0 : 0 ≤ x) (h1 : x ≤ 2*(p+1) + (r-1)*s - 1) :
    fillBreaks u s.toNat (r-1).toNat 1 (p+1)
      (openPart (2*(p+1) + (r-1)*s - 1) (u 0) (u r) (p+1).toNat U) x = u (brk p s r x) := by
  have hq : 0 ≤ (r-1)*s := Int.mul_nonneg (by omega) (by omega)
  rw [fillBreaks_eq u s.toNat (by omega), openPart_eq (p := p) (by omega) _ _ _ _ (by omega)]
  rw [show ((s.toNat:Nat):Int) = s by omega, show (((r-1).toNat:Nat):Int) = r-1 by omega,
    show (((p+1).toNat:Nat):Int) = p+1 by omega]
  unfold brk
  generalize hqq : (r-1)*s = q at *
  by_cases a : x ≤ p
  · rw [if_neg (by omega), if_pos (by omega), if_pos a]
  · rw [if_neg a]
    by_cases b : x < p + 1 + q
    · rw [if_pos (by omega), if_pos b]
      congr 2; ring_nf
    · rw [if_neg (by omega), if_neg (by omega), if_pos (by omega), if_neg b]

section brk
variable {p s r : Int} (hp : 1 ≤ p) (hs : 1 ≤ s) (hsp : s ≤ p) (hr : 1 ≤ r)
include hs hr

theorem brk_mid {x : Int} (h0 : p ≤ x) (h1 : x ≤ p + 1 + (r-1)*s) :
    brk p s r x = 1 + (x-p-1)/s := by
  unfold brk
  by_cases a : x ≤ p
  · have hx : x = p := by omega
    rw [if_pos a, hx]
    have : (p - p - 1)/s = -1 := by
      rw [show p - p - 1 = -1 by ring]
      exact Int.ediv_eq_neg_one_of_neg_of_le (by omega) (by omega)
    omega
  · rw [if_neg a]
    by_cases b : x < p + 1 + (r-1)*s
    · rw [if_pos b]
    · have hx : x - p - 1 = (r-1)*s := by omega
      rw [if_neg b, hx, Int.mul_ediv_cancel _ (by omega)]; ring

theorem brk_range (x : Int) : 0 ≤ brk p s r x ∧ brk p s r x ≤ r := by
  unfold brk
  split_ifs with a b
  · omega
  · have h1 : 0 ≤ (x-p-1)/s := Int.ediv_nonneg (by omega) (by omega)
    have h2 : (x-p-1)/s < r - 1 := Int.ediv_lt_of_lt_mul (by omega) (by omega)
    omega
  · omega

theorem brk_mono {x y : Int} (h : x ≤ y) : brk p s r x ≤ brk p s r y := by
  have hx := brk_range (p := p) hs hr x
  have hy := brk_range (p := p) hs hr y
  by_cases a : x ≤ p
  · have : brk p s r x = 0 := by unfold brk; rw [if_pos a]
    omega
  · by_cases b : y < p + 1 + (r-1)*s
    · rw [brk_mid hs hr (by omega) (by omega), brk_mid hs hr (by omega) (by omega)]
      have := Int.ediv_le_ediv (a := x-p-1) (b := y-p-1) (c := s) (by omega) (by omega)
      omega
    · have : brk p s r y = r := by
        unfold brk; rw [if_neg (by omega), if_neg b]
      omega

theorem brk_last_lt {x : Int} (h : x < p + 1 + (r-1)*s) : brk p s r x < r := by
  unfold brk
  split_ifs with a
  · omega
  · have h2 : (x-p-1)/s < r - 1 := Int.ediv_lt_of_lt_mul (by omega) (by omega)
    omega

theorem brk_first_pos {x : Int} (h : p < x) : 0 < brk p s r x := by
  unfold brk
  split_ifs with a b
  · omega
  · have h1 : 0 ≤ (x-p-1)/s := Int.ediv_nonneg (by omega) (by omega)
    omega
  · omega

include hsp in
theorem brk_strict {x : Int} (h1 : 1 ≤ x) (h2 : x < p + 1 + (r-1)*s) :
    brk p s r x < brk p s r (x+p) := by
  by_cases a : x ≤ p
  · have : brk p s r x = 0 := by unfold brk; rw [if_pos a]
    rw [this]; exact brk_first_pos hs hr (by omega)
  · have hl := brk_last_lt (p := p) hs hr h2
    by_cases b : x + p < p + 1 + (r-1)*s
    · rw [brk_mid hs hr (by omega) (by omega), brk_mid hs hr (by omega) (by omega)]
      have h3 : x - p - 1 + 1 * s ≤ x + p - p - 1 := by omega
      have h4 := Int.ediv_le_ediv (c := s) (by omega) h3
      rw [Int.add_mul_ediv_right _ _ (by omega)] at h4
      omega
    · have : brk p s r (x+p) = r := by
        unfold brk; rw [if_neg (by omega), if_neg b]
      omega

theorem brk_step {x : Int} (h0 : p ≤ x) (h1 : x ≤ p + (r-1)*s) :
    brk p s r x < brk p s r (x+1) ↔ ∃ i, 0 ≤ i ∧ i < r ∧ x = p + i*s := by
  rw [brk_mid hs hr h0 (by omega), brk_mid hs hr (by omega) (by omega)]
  have e : x + 1 - p - 1 = x - p := by ring
  rw [e]
  constructor
  · intro h
    refine ⟨(x-p)/s, Int.ediv_nonneg (by omega) (by omega), ?_, ?_⟩
    · apply Int.ediv_lt_of_lt_mul (by omega)
      have : r * s = (r-1)*s + s := by ring
      omega
    · by_contra hne
      have hmod := Int.mul_ediv_add_emod (x-p) s
      have hm0 := Int.emod_nonneg (x-p) (b := s) (by omega)
      have hm1 := Int.emod_lt_of_pos (x-p) (b := s) (by omega)
      have hne' : (x-p) % s ≠ 0 := by
        intro h0; apply hne; rw [h0] at hmod; rw [Int.mul_comm]; omega
      have : (x-p)/s ≤ (x-p-1)/s := by
        rw [Int.le_ediv_iff_mul_le (by omega), Int.mul_comm]; omega
      omega
  · rintro ⟨i, h2, h3, rfl⟩
    have e1 : p + i*s - p = i*s := by ring
    rw [e1, Int.mul_ediv_cancel _ (by omega)]
    have : (i*s - 1)/s < i := Int.ediv_lt_of_lt_mul (by omega) (by linarith)
    omega

theorem brk_at {i : Int} (h0 : 0 ≤ i) (h1 : i < r) :
    brk p s r (p + i*s) = i := by
  have hle : i*s ≤ (r-1)*s := Int.mul_le_mul_of_nonneg_right (by omega) (by omega)
  have hnn : 0 ≤ i * s := Int.mul_nonneg h0 (by omega)
  rw [brk_mid hs hr (by omega) (by omega)]
  have e1 : p + i*s - p - 1 = (s-1) + (i-1)*s := by ring
  rw [e1, Int.add_mul_ediv_right _ _ (by omega), Int.ediv_eq_zero_of_lt (by omega) (by omega)]
  ring

theorem brk_at_succ {i : Int} (h0 : 0 ≤ i) (h1 : i < r) : brk p s r (p + i*s + 1) = i + 1 := by
  have hle : i*s ≤ (r-1)*s := Int.mul_le_mul_of_nonneg_right (by omega) (by omega)
  have hnn : 0 ≤ i * s := Int.mul_nonneg h0 (by omega)
  rw [brk_mid hs hr (by omega) (by omega)]
  have e1 : p + i*s + 1 - p - 1 = i*s := by ring
  rw [e1, Int.mul_ediv_cancel _ (by omega)]; ring

end brk

theorem periodicPart_eq {p n m C : Int} (hC : 0 ≤ C) (hCp : C < p) (hn : n = m - p - 1)
    (hm : 2*p+1 ≤ m) (U : Int → K) : ∀ (t : Nat), (t:Int) ≤ C+1 →
    (∀ x, ¬ (C - t < x ∧ x ≤ C) → ¬ (m - C ≤ x ∧ x < m - C + t) →
      periodicPart p n m C t U x = U x) ∧
    (∀ x, C - t < x → x ≤ C → periodicPart p n m C t U x =
      U p - U (m-p) + periodicPart p n m C t U (x + (n-C))) ∧
    (∀ x, m - C ≤ x → x < m - C + t → periodicPart p n m C t U x =
      U (m-p) - U p + periodicPart p n m C t U (x - (n-C)))
  | 0, _ => ⟨fun x _ _ => rfl, fun x a b => by omega, fun x a b => by omega⟩
  | t+1, ht => by
    obtain ⟨i1, i2, i3⟩ := periodicPart_eq hC hCp hn hm U t (by omega)
    have e : ∀ x, periodicPart p n m C (t+1) U x =
        if x = m-C+t then U (m-p) - U p + periodicPart p n m C t U (p+1+t)
        else if x = C-t then U p - U (m-p) + periodicPart p n m C t U (n-t)
        else periodicPart p n m C t U x := by
      intro x
      have a1 := i1 p (by omega) (by omega)
      have a2 := i1 (m-p) (by omega) (by omega)
      simp only [periodicPart, upd]
      rw [if_neg (show ¬ m - p = C - t by omega), if_neg (show ¬ p = C - t by omega),
        if_neg (show ¬ p + 1 + (t:Int) = C - t by omega), a1, a2]
    refine ⟨fun x h1 h2 => ?_, fun x h1 h2 => ?_, fun x h1 h2 => ?_⟩
    · rw [e, if_neg (by push_cast at *; omega), if_neg (by push_cast at *; omega)]
      exact i1 x (by push_cast at *; omega) (by push_cast at *; omega)
    · push_cast at h1
      rw [e x, e (x + (n-C)), if_neg (by omega), if_neg (c := x + (n-C) = _) (by omega),
        if_neg (c := x + (n-C) = C - t) (by omega)]
      by_cases hx : x = C - t
      · rw [if_pos hx, hx, show C - (t:Int) + (n - C) = n - t by ring]
      · rw [if_neg hx]; exact i2 x (by omega) h2
    · push_cast at h2
      rw [e x, e (x - (n-C)), if_neg (c := x - (n-C) = _) (by omega),
        if_neg (c := x - (n-C) = C - t) (by omega)]
      by_cases hx : x = m - C + t
      · rw [if_pos hx, hx, show m - C + (t:Int) - (n - C) = p + 1 + t by rw [hn]; ring]
      · rw [if_neg hx, if_neg (by omega)]; exact i3 x h1 (by omega)

/-- The knot array built by `fillAxis`. -/
structure Built (ax ax' : Axis K) (r C : Int) (u : Int → K) : Prop where
  p_eq : ax'.p = ax.p
  per_eq : ax'.periodic = ax.periodic
  m_eq : ax'.m = 2*(ax.p+1) + (r-1)*(ax.p-C) - 1
  nel_eq : ax'.nel = r
  span_eq : ax'.span = (List.range r.toNat).map fun (i:Nat) => ax.p + (i:Int)*(ax.p-C)
  nnp_eq : ax'.nnp = if ax.periodic then r*(ax.p-C) else ax.p + 1 + (r-1)*(ax.p-C)
  /-- knots strictly inside the possibly wrapped end parts -/
  mid : ∀ x, (if ax.periodic then C < x ∧ x < ax'.m - C else 0 ≤ x ∧ x ≤ ax'.m) →
    ax'.U x = u (brk ax.p (ax.p-C) r x)
  low : ax.periodic = true → ∀ x, 0 ≤ x → x ≤ C → ax'.U x = u 0 - u r + ax'.U (x + ax'.nnp)
  high : ax.periodic = true → ∀ x, ax'.m - C ≤ x → x ≤ ax'.m →
    ax'.U x = u r - u 0 + ax'.U (x - ax'.nnp)

theorem fillAxis_built (ax : Axis K) (r C : Int) (u mem : Int → K) (hp : 1 ≤ ax.p) (hr : 1 ≤ r)
    (hC : 0 ≤ C) (hCp : C < ax.p) : Built ax (fillAxis ax r C u mem) r C u := by
  have hq : 0 ≤ (r-1)*(ax.p-C) := Int.mul_nonneg (by omega) (by omega)
  have hrs : r*(ax.p-C) = (r-1)*(ax.p-C) + (ax.p - C) := by ring
  have hop := fun (U : Int → K) {x : Int} => @open_eq K _ _ _ ax.p (ax.p-C) r hp (by omega) hr u U x
  have bp : brk ax.p (ax.p-C) r ax.p = 0 := by unfold brk; rw [if_pos (le_refl _)]
  have bm : brk ax.p (ax.p-C) r (2*(ax.p+1) + (r-1)*(ax.p-C) - 1 - ax.p) = r := by
    unfold brk; rw [if_neg (by omega), if_neg (by omega)]
  refine ⟨rfl, rfl, rfl, rfl, rfl, ?_, ?_, ?_, ?_⟩
  · simp only [fillAxis]
    split_ifs
    · rw [hrs]; omega
    · omega
  · intro x hx
    simp only [fillAxis] at hx ⊢
    generalize (if 2*(ax.p+1) + (r-1)*(ax.p-C) - 1 ≠ ax.m then mem else ax.U) = W
    by_cases hper : ax.periodic = true
    · rw [if_pos hper] at hx ⊢
      obtain ⟨e1, -, -⟩ := periodicPart_eq (p := ax.p) (m := 2*(ax.p+1) + (r-1)*(ax.p-C) - 1)
        hC hCp rfl (by omega) (fillBreaks u (ax.p - C).toNat (r-1).toNat 1 (ax.p+1)
          (openPart (2*(ax.p+1) + (r-1)*(ax.p-C) - 1) (u 0) (u r) (ax.p+1).toNat W))
        (C+1).toNat (by omega)
      rw [e1 x (by omega) (by omega)]
      exact hop W (by omega) (by omega)
    · rw [if_neg hper] at hx ⊢
      exact hop W (by omega) (by omega)
  · intro hper x h0 h1
    simp only [fillAxis, if_pos hper]
    generalize (if 2*(ax.p+1) + (r-1)*(ax.p-C) - 1 ≠ ax.m then mem else ax.U) = W
    obtain ⟨-, e2, -⟩ := periodicPart_eq (p := ax.p) (m := 2*(ax.p+1) + (r-1)*(ax.p-C) - 1)
      hC hCp rfl (by omega) (fillBreaks u (ax.p - C).toNat (r-1).toNat 1 (ax.p+1)
        (openPart (2*(ax.p+1) + (r-1)*(ax.p-C) - 1) (u 0) (u r) (ax.p+1).toNat W))
      (C+1).toNat (by omega)
    rw [e2 x (by omega) h1, hop W (by omega) (by omega), hop W (by omega) (by omega), bp, bm]
  · intro hper x h0 h1
    simp only [fillAxis, if_pos hper] at h0 h1 ⊢
    generalize (if 2*(ax.p+1) + (r-1)*(ax.p-C) - 1 ≠ ax.m then mem else ax.U) = W
    obtain ⟨-, -, e3⟩ := periodicPart_eq (p := ax.p) (m := 2*(ax.p+1) + (r-1)*(ax.p-C) - 1)
      hC hCp rfl (by omega) (fillBreaks u (ax.p - C).toNat (r-1).toNat 1 (ax.p+1)
        (openPart (2*(ax.p+1) + (r-1)*(ax.p-C) - 1) (u 0) (u r) (ax.p+1).toNat W))
      (C+1).toNat (by omega)
    rw [e3 x h0 (by omega), hop W (by omega) (by omega), hop W (by omega) (by omega), bp, bm]

section built
variable {ax ax' : Axis K} {r C : Int} {u : Int → K} (B : Built ax ax' r C u) (hp : 1 ≤ ax.p)
  (hr : 1 ≤ r) (hC : 0 ≤ C) (hCp : C < ax.p) (hu : ∀ i j, 0 ≤ i → i < j → j ≤ r → u i < u j)
include B hp hr hC hCp

theorem Built.sizes : 0 ≤ (r-1)*(ax.p-C) ∧ (ax.periodic = true → ax'.nnp = (r-1)*(ax.p-C) + (ax.p - C)) := by
  refine ⟨Int.mul_nonneg (by omega) (by omega), fun h => ?_⟩
  rw [B.nnp_eq, if_pos h]; ring

theorem Built.trans (hper : ax.periodic = true) {j : Int} (h0 : 0 ≤ j) (h1 : j + ax'.nnp ≤ ax'.m) :
    ax'.U (j + ax'.nnp) = ax'.U j + (u r - u 0) := by
  obtain ⟨hq, hn⟩ := B.sizes hp hr hC hCp
  have hn := hn hper
  have hm := B.m_eq
  by_cases a : j ≤ C
  · rw [B.low hper j h0 a]; ring
  · by_cases b : j ≤ ax.p
    · have mid := B.mid
      rw [mid j (by rw [if_pos hper]; omega), mid _ (by rw [if_pos hper]; omega)]
      have e1 : brk ax.p (ax.p-C) r j = 0 := by unfold brk; rw [if_pos b]
      have e2 : brk ax.p (ax.p-C) r (j + ax'.nnp) = r := by
        unfold brk; rw [if_neg (by omega), if_neg (by omega)]
      rw [e1, e2]; ring
    · rw [B.high hper (j + ax'.nnp) (by omega) h1, show j + ax'.nnp - ax'.nnp = j by ring]; ring

theorem Built.U_p : ax'.U ax.p = u 0 := by
  obtain ⟨hq, hn⟩ := B.sizes hp hr hC hCp
  have hm := B.m_eq
  rw [B.mid ax.p (by split_ifs <;> omega)]
  unfold brk; rw [if_pos (le_refl _)]

theorem Built.U_mp : ax'.U (ax'.m - ax.p) = u r := by
  obtain ⟨hq, hn⟩ := B.sizes hp hr hC hCp
  have hm := B.m_eq
  rw [B.mid _ (by split_ifs <;> omega)]
  unfold brk; rw [if_neg (by omega), if_neg (by omega)]

include hu

theorem Built.u_mono {i j : Int} (h0 : 0 ≤ i) (h : i ≤ j) (hj : j ≤ r) : u i ≤ u j := by
  rcases eq_or_lt_of_le h with e | e
  · rw [e]
  · exact le_of_lt (hu i j h0 e hj)

theorem Built.lt_low (hper : ax.periodic = true) : ax'.U C < u 0 := by
  obtain ⟨hq, hn⟩ := B.sizes hp hr hC hCp
  have hn := hn hper
  have hm := B.m_eq
  rw [B.low hper C hC (le_refl _), B.mid _ (by rw [if_pos hper]; omega)]
  have h1 := brk_last_lt (p := ax.p) (s := ax.p - C) (r := r) (by omega) hr (x := C + ax'.nnp) (by omega)
  have h2 := brk_range (p := ax.p) (s := ax.p - C) (r := r) (by omega) hr (C + ax'.nnp)
  have := hu _ r h2.1 h1 (le_refl _)
  linarith

theorem Built.lt_high (hper : ax.periodic = true) : u r < ax'.U (ax'.m - C) := by
  obtain ⟨hq, hn⟩ := B.sizes hp hr hC hCp
  have hn := hn hper
  have hm := B.m_eq
  rw [B.high hper (ax'.m - C) (le_refl _) (by omega), B.mid _ (by rw [if_pos hper]; omega)]
  have h1 := brk_first_pos (p := ax.p) (s := ax.p - C) (r := r) (by omega) hr (x := ax'.m - C - ax'.nnp) (by omega)
  have h2 := brk_range (p := ax.p) (s := ax.p - C) (r := r) (by omega) hr (ax'.m - C - ax'.nnp)
  have := hu 0 _ (le_refl _) h1 h2.2
  linarith

theorem Built.sorted : SortedKnots ax'.m ax'.U := by
  obtain ⟨hq, hn⟩ := B.sizes hp hr hC hCp
  have hm := B.m_eq
  have step : ∀ x, brk ax.p (ax.p-C) r x ≤ brk ax.p (ax.p-C) r (x+1) := fun x =>
    brk_mono (by omega) hr (by omega)
  have rng := brk_range (p := ax.p) (s := ax.p - C) (r := r) (by omega) hr
  by_cases hper : ax.periodic = true
  · have hn := hn hper
    have midle : ∀ i, C < i → i + 1 < ax'.m - C → ax'.U i ≤ ax'.U (i+1) := by
      intro i h0 h1
      rw [B.mid i (by rw [if_pos hper]; omega), B.mid _ (by rw [if_pos hper]; omega)]
      exact B.u_mono hp hr hC hCp hu (rng i).1 (step i) (rng _).2
    have lowle : ∀ (d : Nat) (i : Int), 0 ≤ i → ax'.m - C - i ≤ d → i + 1 < ax'.m - C → ax'.U i ≤ ax'.U (i+1) := by
      intro d
      induction d with
      | zero => intro i h0 h1 h2; omega
      | succ d ih =>
        intro i h0 h1 h2
        rcases lt_trichotomy i C with h | h | h
        · have := ih (i + ax'.nnp) (by omega) (by omega) (by omega)
          rw [B.trans hp hr hC hCp hper h0 (by omega), show i + ax'.nnp + 1 = i + 1 + ax'.nnp by ring,
            B.trans hp hr hC hCp hper (j := i+1) (by omega) (by omega)] at this
          linarith
        · have h3 := B.lt_low hp hr hC hCp hu hper
          have e : ax'.U (i+1) = u 0 := by
            rw [B.mid _ (by rw [if_pos hper]; omega)]
            unfold brk; rw [if_pos (by omega)]
          rw [e, h]; exact le_of_lt h3
        · exact midle i h h2
    intro i h0 h1
    -- induct downwards on the distance from the low end
    have highle : ∀ (d : Nat) (i : Int), i ≤ d → 0 ≤ i → i < ax'.m → ax'.U i ≤ ax'.U (i+1) := by
      intro d
      induction d with
      | zero => intro i h0 h1 h2; exact lowle (ax'.m - C - i).toNat i h1 (by omega) (by omega)
      | succ d ih =>
        intro i h0 h1 h2
        rcases lt_trichotomy (i+1) (ax'.m - C) with h | h | h
        · exact lowle (ax'.m - C - i).toNat i h1 (by omega) h
        · have h3 := B.lt_high hp hr hC hCp hu hper
          have e : ax'.U i = u r := by
            rw [B.mid _ (by rw [if_pos hper]; omega)]
            unfold brk; rw [if_neg (by omega), if_neg (by omega)]
          rw [e, h]; exact le_of_lt h3
        · have := ih (i - ax'.nnp) (by omega) (by omega) (by omega)
          have e1 := B.trans hp hr hC hCp hper (j := i - ax'.nnp) (by omega) (by omega)
          have e2 := B.trans hp hr hC hCp hper (j := i - ax'.nnp + 1) (by omega) (by omega)
          rw [show i - ax'.nnp + ax'.nnp = i by ring] at e1
          rw [show i - ax'.nnp + 1 + ax'.nnp = i + 1 by ring] at e2
          rw [e1, e2]; linarith
    exact highle i.toNat i (by omega) h0 h1
  · intro i h0 h1
    rw [B.mid i (by rw [if_neg hper]; omega), B.mid _ (by rw [if_neg hper]; omega)]
    exact B.u_mono hp hr hC hCp hu (rng i).1 (step i) (rng _).2

theorem Built.legal : LegalKnots ax.p ax'.m ax'.U := by
  obtain ⟨hq, hn⟩ := B.sizes hp hr hC hCp
  have hm := B.m_eq
  have hs := B.sorted hp hr hC hCp hu
  have rng := brk_range (p := ax.p) (s := ax.p - C) (r := r) (by omega) hr
  refine ⟨hp, by omega, hs, fun i h0 h1 => ?_⟩
  have up := B.U_p hp hr hC hCp
  have um := B.U_mp hp hr hC hCp
  by_cases hper : ax.periodic = true
  · by_cases a : i ≤ C
    · have h2 := sorted_mono hs (by omega) a (by omega)
      have h3 := sorted_mono hs (i := ax.p) (j := i + ax.p) (by omega) (by omega) (by omega)
      have h4 := B.lt_low hp hr hC hCp hu hper
      rw [up] at h3
      linarith
    · by_cases b : ax'.m - C ≤ i + ax.p
      · have h2 := sorted_mono hs (by omega) b (by omega)
        have h3 := sorted_mono hs (i := i) (j := ax'.m - ax.p) (by omega) (by omega) (by omega)
        have h4 := B.lt_high hp hr hC hCp hu hper
        rw [um] at h3
        linarith
      · rw [B.mid i (by rw [if_pos hper]; omega), B.mid _ (by rw [if_pos hper]; omega)]
        exact hu _ _ (rng i).1 (brk_strict (by omega) (by omega) hr (by omega) (by omega)) (rng _).2
  · rw [B.mid i (by rw [if_neg hper]; omega), B.mid _ (by rw [if_neg hper]; omega)]
    exact hu _ _ (rng i).1 (brk_strict (by omega) (by omega) hr (by omega) (by omega)) (rng _).2

theorem Built.element_iff (k : Int) :
    IsElement ax.p ax'.m ax'.U k ↔ ∃ i, 0 ≤ i ∧ i < r ∧ k = ax.p + i*(ax.p-C) := by
  obtain ⟨hq, hn⟩ := B.sizes hp hr hC hCp
  have hm := B.m_eq
  have rng := brk_range (p := ax.p) (s := ax.p - C) (r := r) (by omega) hr
  have key : ax.p ≤ k → k ≤ ax'.m - ax.p - 1 →
      (ax'.U k < ax'.U (k+1) ↔ ∃ i, 0 ≤ i ∧ i < r ∧ k = ax.p + i*(ax.p-C)) := by
    intro h0 h1
    rw [B.mid k (by split_ifs <;> omega), B.mid _ (by split_ifs <;> omega),
      ← brk_step (by omega) hr h0 (by omega)]
    constructor
    · intro h
      by_contra hc
      exact absurd h (not_lt.2 (B.u_mono hp hr hC hCp hu (rng _).1 (not_lt.1 hc) (rng _).2))
    · intro h; exact hu _ _ (rng _).1 h (rng _).2
  constructor
  · rintro ⟨h0, h1, h2⟩; exact (key h0 h1).1 h2
  · rintro ⟨i, h0, h1, h2⟩
    have h3 : i*(ax.p-C) ≤ (r-1)*(ax.p-C) := Int.mul_le_mul_of_nonneg_right (by omega) (by omega)
    have h4 : 0 ≤ i*(ax.p-C) := Int.mul_nonneg h0 (by omega)
    have a0 : ax.p ≤ k := by omega
    have a1 : k ≤ ax'.m - ax.p - 1 := by omega
    exact ⟨a0, a1, (key a0 a1).2 ⟨i, h0, h1, h2⟩⟩

theorem Built.spans : computeSpans ax.p ax'.m ax'.U = ax'.span := by
  obtain ⟨hq, hn⟩ := B.sizes hp hr hC hCp
  have hm := B.m_eq
  obtain ⟨h1, h2⟩ := computeSpans_spec (B.sorted hp hr hC hCp hu) hp (by omega)
  apply pairwise_ext h2
  · rw [B.span_eq, List.pairwise_map]
    apply List.Pairwise.imp _ List.pairwise_lt_range
    intro a b hab
    have : (a:Int)*(ax.p-C) < (b:Int)*(ax.p-C) := Int.mul_lt_mul_of_pos_right (by omega) (by omega)
    omega
  · intro i
    rw [h1, B.element_iff hp hr hC hCp hu, B.span_eq, List.mem_map]
    constructor
    · rintro ⟨k, a, b, rfl⟩
      refine ⟨k.toNat, by simp; omega, ?_⟩
      rw [show ((k.toNat:Nat):Int) = k by omega]
    · rintro ⟨k, a, rfl⟩
      simp at a
      exact ⟨k, by omega, by omega, rfl⟩

theorem Built.nnp : computeNnp ax.periodic ax.p ax'.m ax'.U = ax'.nnp := by
  obtain ⟨hq, hn⟩ := B.sizes hp hr hC hCp
  have hm := B.m_eq
  have hs := B.sorted hp hr hC hCp hu
  unfold computeNnp
  rw [B.nnp_eq]
  by_cases hper : ax.periodic = true
  · simp only [if_pos hper]
    have hn := hn hper
    obtain ⟨a, b, c, d⟩ := nextKnot_fwd ax'.U (m := ax'.m) (k := ax'.m - ax.p - 1 + 1) (by omega) (by omega)
    rw [show ax'.m - ax.p - 1 + 1 = ax'.m - ax.p by ring, B.U_mp hp hr hC hCp] at *
    have key : nextKnot ax'.m ax'.U (ax'.m - ax.p) 1 = ax'.m - C := by
      generalize nextKnot ax'.m ax'.U (ax'.m - ax.p) 1 = j at *
      have hi := B.lt_high hp hr hC hCp hu hper
      rcases lt_trichotomy j (ax'.m - C) with h | h | h
      · have h1 := d (by omega)
        rw [B.mid j (by rw [if_pos hper]; omega)] at h1
        have : brk ax.p (ax.p-C) r j = r := by
          unfold brk; rw [if_neg (by omega), if_neg (by omega)]
        rw [this] at h1
        exact absurd h1 (lt_irrefl _)
      · exact h
      · exact absurd hi (c (ax'.m - C) (by omega) h)
    rw [key]
    have : r * (ax.p - C) = (r-1)*(ax.p-C) + (ax.p-C) := by ring
    omega
  · simp only [if_neg hper]
    omega

end built

end PetIGA.Ax
