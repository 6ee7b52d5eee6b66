import Verif.Spec.Float
import Mathlib.Tactic.Linarith
import Mathlib.Tactic.Ring
import Mathlib.Tactic.Positivity
import Mathlib.Tactic.NormNum
/-
Rounding to a fixed number of binary digits satisfies the standard model.
-/
namespace PetIGA.Spec

theorem round_mono {x y : ℚ} (h : x ≤ y) : round x ≤ round y := by
  rw [round_eq, round_eq]
  exact Int.floor_mono (by linarith)

theorem binaryPos_err (t : Nat) {x : ℚ} (hx : 0 < x) : |binaryPos t x - x| ≤ (1/2) ^ (t+1) * x := by
  unfold binaryPos
  obtain ⟨e, he⟩ : ∃ e, e = Int.log 2 x := ⟨_, rfl⟩
  have h1 : (2:ℚ) ^ e ≤ x := by rw [he]; exact_mod_cast Int.zpow_log_le_self (b := 2) (by norm_num) hx
  rw [← he]
  have p : (0:ℚ) < 2 ^ (e - t) := zpow_pos (by norm_num) _
  have h2 := abs_sub_round (x / 2 ^ (e - t))
  have h3 : (round (x / 2 ^ (e - t)) : ℚ) * 2 ^ (e - t) - x = - ((x / 2 ^ (e - t) - round (x / 2 ^ (e - t))) * 2 ^ (e - t)) := by
    rw [sub_mul, div_mul_cancel₀ _ (ne_of_gt p)]; ring
  rw [h3, abs_neg, abs_mul, abs_of_pos p]
  have h4 : (2:ℚ) ^ (e - t) = (1/2)^t * 2 ^ e := by
    rw [zpow_sub₀ (by norm_num), zpow_natCast, one_div, inv_pow, div_eq_inv_mul]
  calc |x / 2 ^ (e - t) - round (x / 2 ^ (e - t))| * 2 ^ (e - t) ≤ 1/2 * 2 ^ (e - t) := mul_le_mul_of_nonneg_right h2 p.le
    _ = (1/2) ^ (t+1) * 2 ^ e := by rw [h4, pow_succ]; ring
    _ ≤ (1/2) ^ (t+1) * x := mul_le_mul_of_nonneg_left h1 (by positivity)

theorem binaryPos_bounds (t : Nat) {x : ℚ} (hx : 0 < x) : (2:ℚ) ^ (Int.log 2 x) ≤ binaryPos t x ∧ binaryPos t x ≤ 2 ^ (Int.log 2 x + 1) := by
  unfold binaryPos
  obtain ⟨e, he⟩ : ∃ e, e = Int.log 2 x := ⟨_, rfl⟩
  have h1 : (2:ℚ) ^ e ≤ x := by rw [he]; exact_mod_cast Int.zpow_log_le_self (b := 2) (by norm_num) hx
  have h2 : x < (2:ℚ) ^ (e + 1) := by rw [he]; exact_mod_cast Int.lt_zpow_succ_log_self (b := 2) (by norm_num) x
  rw [← he]
  have p : (0:ℚ) < 2 ^ (e - t) := zpow_pos (by norm_num) _
  have e1 : ((2:ℤ) ^ t : ℚ) * 2 ^ (e - t) = 2 ^ e := by
    rw [zpow_sub₀ (by norm_num), zpow_natCast]; push_cast; field_simp
  have e2 : ((2:ℤ) ^ (t+1) : ℚ) * 2 ^ (e - t) = 2 ^ (e+1) := by
    rw [zpow_sub₀ (by norm_num), zpow_natCast, zpow_add₀ (by norm_num), pow_succ]; push_cast; field_simp
  have r1 : ((2:ℤ)^t) ≤ round (x / 2 ^ (e - t)) := by
    have : ((2:ℤ)^t) = round (((2:ℤ)^t : ℤ) : ℚ) := (round_intCast _).symm
    rw [this]
    refine round_mono ?_
    rw [le_div_iff₀ p]
    push_cast at e1 ⊢
    linarith
  have r2 : round (x / 2 ^ (e - t)) ≤ ((2:ℤ)^(t+1)) := by
    have : ((2:ℤ)^(t+1)) = round (((2:ℤ)^(t+1) : ℤ) : ℚ) := (round_intCast _).symm
    rw [this]
    refine round_mono ?_
    rw [div_le_iff₀ p]
    push_cast at e2 ⊢
    linarith
  have r1' : ((2:ℤ)^t : ℚ) ≤ round (x / 2 ^ (e - t)) := by exact_mod_cast r1
  have r2' : (round (x / 2 ^ (e - t)) : ℚ) ≤ ((2:ℤ)^(t+1) : ℚ) := by exact_mod_cast r2
  constructor
  · rw [← e1]; exact mul_le_mul_of_nonneg_right r1' p.le
  · rw [← e2]; exact mul_le_mul_of_nonneg_right r2' p.le

theorem binaryPos_mono (t : Nat) {x y : ℚ} (hx : 0 < x) (hxy : x ≤ y) : binaryPos t x ≤ binaryPos t y := by
  have hy : 0 < y := hx.trans_le hxy
  have hl : Int.log 2 x ≤ Int.log 2 y := Int.log_mono_right hx hxy
  rcases eq_or_lt_of_le hl with e | e
  · unfold binaryPos
    rw [e]
    have p : (0:ℚ) < 2 ^ (Int.log 2 y - t) := zpow_pos (by norm_num) _
    refine mul_le_mul_of_nonneg_right ?_ p.le
    exact_mod_cast round_mono (div_le_div_of_nonneg_right hxy p.le)
  · refine (binaryPos_bounds t hx).2.trans (le_trans ?_ (binaryPos_bounds t hy).1)
    exact zpow_le_zpow_right₀ (by norm_num) (by omega)

/-- The rounding of binary64 satisfies the standard model. -/
theorem binary_rounding (t : Nat) : Rounding ((1/2 : ℚ) ^ (t+1)) (binary t) where
  nonneg := by positivity
  small := pow_lt_one₀ (by norm_num) (by norm_num) (by omega)
  err := by
    intro x
    unfold binary
    split_ifs with h1 h2
    · rw [abs_of_pos h1]; exact binaryPos_err t h1
    · have := binaryPos_err t (x := -x) (by linarith)
      rw [abs_of_neg h2]
      rwa [show -binaryPos t (-x) - x = -(binaryPos t (-x) - -x) by ring, abs_neg]
    · have : x = 0 := by linarith
      rw [this]; simp
  mono := by
    intro x y h
    have pos : ∀ z : ℚ, 0 < z → 0 ≤ binaryPos t z := fun z hz => le_trans (zpow_pos (by norm_num) _).le (binaryPos_bounds t hz).1
    unfold binary
    split_ifs with h1 h2 h3 h4 h5 h6 h7
    · exact binaryPos_mono t h1 h
    · linarith
    · linarith
    · have := pos _ h5; have := pos (-x) (by linarith); linarith
    · exact neg_le_neg (binaryPos_mono t (by linarith) (by linarith))
    · have := pos (-x) (by linarith); linarith
    · exact pos _ h7
    · linarith
    · exact le_refl _

end PetIGA.Spec
