import Verif.Model.Overflow
import Verif.Lemmas.Part
import Verif.Lemmas.Grid
import Verif.Props.Part
import Verif.Props.Elem
import Verif.Props.Assemble
import Mathlib.Tactic.Linarith
import Mathlib.Tactic.Ring
import Mathlib.Tactic.NormNum
import Mathlib.Tactic.Positivity
/-
Integer overflow (C112).
-/
set_option linter.unusedSectionVars false
namespace PetIGA.Ovf
open PetIGA.Part PetIGA.Grid PetIGA.Spec

/-- The value of an expression without limits. -/
def Ex.val : Ex → Int
  | .lit x => x
  | .add a b => a.val + b.val
  | .sub a b => a.val - b.val
  | .mul a b => a.val * b.val

/-- All intermediate results fit. -/
def Ex.Fits (w : Int) : Ex → Prop
  | .lit _ => True
  | .add a b => a.Fits w ∧ b.Fits w ∧ -w-1 ≤ a.val + b.val ∧ a.val + b.val ≤ w
  | .sub a b => a.Fits w ∧ b.Fits w ∧ -w-1 ≤ a.val - b.val ∧ a.val - b.val ≤ w
  | .mul a b => a.Fits w ∧ b.Fits w ∧ -w-1 ≤ a.val * b.val ∧ a.val * b.val ≤ w

theorem eval_ok {w : Int} : ∀ {e : Ex}, e.Fits w → e.eval w = .ok e.val
  | .lit _, _ => rfl
  | .add a b, ⟨ha, hb, h⟩ => by
    simp only [Ex.eval, eval_ok ha, eval_ok hb, Res.ok_bind, fit, if_pos h, Ex.val]
  | .sub a b, ⟨ha, hb, h⟩ => by
    simp only [Ex.eval, eval_ok ha, eval_ok hb, Res.ok_bind, fit, if_pos h, Ex.val]
  | .mul a b, ⟨ha, hb, h⟩ => by
    simp only [Ex.eval, eval_ok ha, eval_ok hb, Res.ok_bind, fit, if_pos h, Ex.val]

@[simp] theorem fits_lit (w x : Int) : (Ex.lit x).Fits w ↔ True := Iff.rfl
@[simp] theorem fits_one (w : Int) : (1 : Ex).Fits w ↔ True := Iff.rfl
@[simp] theorem fits_two (w : Int) : (2 : Ex).Fits w ↔ True := Iff.rfl
@[simp] theorem fits_five (w : Int) : (5 : Ex).Fits w ↔ True := Iff.rfl
@[simp] theorem fits_add (w : Int) (a b : Ex) : (a + b).Fits w ↔ a.Fits w ∧ b.Fits w ∧ -w-1 ≤ a.val + b.val ∧ a.val + b.val ≤ w := Iff.rfl
@[simp] theorem fits_sub (w : Int) (a b : Ex) : (a - b).Fits w ↔ a.Fits w ∧ b.Fits w ∧ -w-1 ≤ a.val - b.val ∧ a.val - b.val ≤ w := Iff.rfl
@[simp] theorem fits_mul (w : Int) (a b : Ex) : (a * b).Fits w ↔ a.Fits w ∧ b.Fits w ∧ -w-1 ≤ a.val * b.val ∧ a.val * b.val ≤ w := Iff.rfl
@[simp] theorem val_lit (x : Int) : (Ex.lit x).val = x := rfl
@[simp] theorem val_one : (1 : Ex).val = 1 := rfl
@[simp] theorem val_two : (2 : Ex).val = 2 := rfl
@[simp] theorem val_five : (5 : Ex).val = 5 := rfl
@[simp] theorem val_add (a b : Ex) : (a + b).val = a.val + b.val := rfl
@[simp] theorem val_sub (a b : Ex) : (a - b).val = a.val - b.val := rfl
@[simp] theorem val_mul (a b : Ex) : (a * b).val = a.val * b.val := rfl

theorem each_ok {α β : Type} {f : α → Res β} {g : α → β} : ∀ {l : List α}, (∀ a ∈ l, f a = .ok (g a)) → each f l = .ok (l.map g)
  | [], _ => rfl
  | a :: l, h => by
    rw [each, h a (by simp), Res.ok_bind, each_ok (l := l) fun b hb => h b (by simp [hb]), Res.ok_bind, List.map_cons]

/-! ### Partition -/

/-- The guesses of `IGA_Partition` are not larger than the exact roots may be: `√(a s/b) + 1/2` and `∛(a² s/(b c)) + 1/2`, rounded
down, are at most `a s`. -/
structure Guesses (g2 : Guess2) (g3 : Guess3) : Prop where
  two : ∀ s a b, 1 ≤ s → 1 ≤ a → 1 ≤ b → g2 s a b ≤ a * s
  three : ∀ s a b c, 1 ≤ s → 1 ≤ a → 1 ≤ b → 1 ≤ c → g3 s a b c ≤ a * s

theorem exact_guesses : Guesses exactGuess2 exactGuess3 := by
  refine ⟨?_, ?_⟩
  · intro s a b hs ha hb
    obtain ⟨h, -⟩ := exactGuess2_exact s a b hb
    by_contra hc
    push Not at hc
    generalize exactGuess2 s a b = g at *
    have has : 1 ≤ a * s := Nat.mul_pos ha hs
    have h := h (by omega)
    have h1 : (2*g-1)^2 * 1 ≤ 4*a*s := (Nat.mul_le_mul_left _ hb).trans h
    obtain ⟨k, rfl⟩ : ∃ k, g = k + 1 := ⟨g-1, by omega⟩
    rw [show 2*(k+1)-1 = 2*k+1 by omega] at h1
    have : a * s ≤ k := by omega
    nlinarith
  · intro s a b c hs ha hb hc'
    obtain ⟨h, -⟩ := exactGuess3_exact s a b c hb hc'
    by_contra hc
    push Not at hc
    generalize exactGuess3 s a b c = g at *
    have has : 1 ≤ a * s := Nat.mul_pos ha hs
    have h := h (by omega)
    have h1 : (2*g-1)^3 * 1 ≤ 8*(a*a)*s := (Nat.mul_le_mul_left _ (Nat.mul_pos hb hc')).trans h
    obtain ⟨k, rfl⟩ : ∃ k, g = k + 1 := ⟨g-1, by omega⟩
    rw [show 2*(k+1)-1 = 2*k+1 by omega] at h1
    have hk : a * s ≤ k := by omega
    have h2 : a * a * s ≤ k * k := by nlinarith
    nlinarith [Nat.mul_le_mul h2 (Nat.le_refl 1), Nat.pos_of_ne_zero (show k ≠ 0 by omega)]

theorem cut2d_ok {w : Int} {size M N m n : Nat} (hs : 1 ≤ size) (hM : 1 ≤ M) (hN : 1 ≤ N) (h : m * n = size) (hw : ((M:Int) + N) * size ≤ w) :
    cut2d w M N m n = .ok (Part.cut2d M N m n) := by
  have hm : 1 ≤ m := Nat.pos_of_ne_zero (by rintro rfl; omega)
  have hn : 1 ≤ n := Nat.pos_of_ne_zero (by rintro rfl; omega)
  have hm' : m ≤ size := by rw [← h]; exact Nat.le_mul_of_pos_right _ hn
  have hn' : n ≤ size := by rw [← h]; exact Nat.le_mul_of_pos_left _ hm
  zify at hm hn hm' hn' hs hM hN
  have a1 : 0 ≤ (M:Int) * (n - 1) := mul_nonneg (by positivity) (by omega)
  have a2 : (M:Int) * (n - 1) ≤ M * size := mul_le_mul_of_nonneg_left (by omega) (by positivity)
  have b1 : 0 ≤ (N:Int) * (m - 1) := mul_nonneg (by positivity) (by omega)
  have b2 : (N:Int) * (m - 1) ≤ N * size := mul_le_mul_of_nonneg_left (by omega) (by positivity)
  have c1 : (size:Int) ≤ M * size := le_mul_of_one_le_left (by omega) hM
  have c2 : (0:Int) ≤ N * size := by positivity
  rw [add_mul] at hw
  unfold cut2d
  rw [eval_ok]
  · rfl
  · simp only [fits_add, fits_mul, fits_sub, fits_lit, fits_one, val_lit, val_one, val_mul, val_sub, true_and]
    push_cast
    refine ⟨⟨⟨?_, ?_⟩, ?_, ?_⟩, ⟨⟨?_, ?_⟩, ?_, ?_⟩, ?_, ?_⟩ <;> omega

theorem cut3d_ok {w : Int} {size M N P m n p : Nat} (hs : 1 ≤ size) (hM : 1 ≤ M) (hN : 1 ≤ N) (hP : 1 ≤ P) (h : m * n * p = size)
    (hw : ((N:Int) * P + M * P + M * N) * size ≤ w) : cut3d w M N P m n p = .ok (Part.cut3d M N P m n p) := by
  have hm : 1 ≤ m := Nat.pos_of_ne_zero (by rintro rfl; simp at h; omega)
  have hn : 1 ≤ n := Nat.pos_of_ne_zero (by rintro rfl; simp at h; omega)
  have hp : 1 ≤ p := Nat.pos_of_ne_zero (by rintro rfl; omega)
  have hm' : m ≤ size := by rw [← h, Nat.mul_assoc]; exact Nat.le_mul_of_pos_right _ (Nat.mul_pos hn hp)
  have hp' : p ≤ size := by rw [← h]; exact Nat.le_mul_of_pos_left _ (Nat.mul_pos hm hn)
  have hn' : n ≤ size := by rw [← h, Nat.mul_comm m n, Nat.mul_assoc]; exact Nat.le_mul_of_pos_right _ (Nat.mul_pos hm hp)
  have d1 : 1 ≤ N * P := Nat.mul_pos hN hP
  have d2 : 1 ≤ M * P := Nat.mul_pos hM hP
  have d3 : 1 ≤ M * N := Nat.mul_pos hM hN
  zify at hm hn hp hm' hn' hp' hs d1 d2 d3
  have a1 : 0 ≤ (N:Int) * P * (m - 1) := mul_nonneg (by positivity) (by omega)
  have a2 : (N:Int) * P * (m - 1) ≤ N * P * size := mul_le_mul_of_nonneg_left (by omega) (by positivity)
  have b1 : 0 ≤ (M:Int) * P * (n - 1) := mul_nonneg (by positivity) (by omega)
  have b2 : (M:Int) * P * (n - 1) ≤ M * P * size := mul_le_mul_of_nonneg_left (by omega) (by positivity)
  have c1 : 0 ≤ (M:Int) * N * (p - 1) := mul_nonneg (by positivity) (by omega)
  have c2 : (M:Int) * N * (p - 1) ≤ M * N * size := mul_le_mul_of_nonneg_left (by omega) (by positivity)
  have e1 : (N:Int) * P ≤ N * P * size := le_mul_of_one_le_right (by positivity) hs
  have e2 : (M:Int) * P ≤ M * P * size := le_mul_of_one_le_right (by positivity) hs
  have e3 : (M:Int) * N ≤ M * N * size := le_mul_of_one_le_right (by positivity) hs
  have e4 : (size:Int) ≤ N * P * size := le_mul_of_one_le_left (by omega) d1
  rw [add_mul, add_mul] at hw
  unfold cut3d
  rw [eval_ok]
  · rfl
  · simp only [fits_add, fits_mul, fits_sub, fits_lit, fits_one, val_lit, val_one, val_mul, val_sub, val_add, true_and]
    push_cast
    generalize (N:Int) * P * (m - 1) = x1 at *
    generalize (M:Int) * P * (n - 1) = x2 at *
    generalize (M:Int) * N * (p - 1) = x3 at *
    generalize (N:Int) * P * size = y1 at *
    generalize (M:Int) * P * size = y2 at *
    generalize (M:Int) * N * size = y3 at *
    generalize (N:Int) * P = z1 at *
    generalize (M:Int) * P = z2 at *
    generalize (M:Int) * N = z3 at *
    refine ⟨⟨⟨⟨?_, ?_⟩, ⟨?_, ?_⟩, ?_, ?_⟩, ⟨⟨?_, ?_⟩, ⟨?_, ?_⟩, ?_, ?_⟩, ?_, ?_⟩, ⟨⟨?_, ?_⟩, ⟨?_, ?_⟩, ?_, ?_⟩, ?_, ?_⟩ <;> omega

theorem inner2_ok {w : Int} {g2 : Guess2} {g3 : Guess3} (G : Guesses g2 g3) {size M N : Nat} (hs : 1 ≤ size) (hM : 1 ≤ M) (hN : 1 ≤ N)
    (hw : ((M:Int) + N) * size ≤ w) : part2dInner w g2 size M N = .ok (Part.part2dInner g2 size M N) := by
  have hg := G.two size M N hs hM hN
  have hg' : ((g2 size M N : Nat) : Int) ≤ w := by
    have h1 : ((g2 size M N : Nat) : Int) ≤ (M:Int) * size := by exact_mod_cast hg
    have h2 : (0:Int) ≤ N * size := by positivity
    rw [add_mul] at hw
    omega
  have hmul := Part.part2dInner_mul g2 size M N
  unfold part2dInner
  rw [fit, if_pos ⟨by omega, hg'⟩, Res.ok_bind]
  dsimp only
  have := cut2d_ok (w := w) (M := M) (N := N) hs hM hN hmul hw
  simp only [Part.part2dInner] at this
  rw [this, Res.ok_bind]
  rfl

theorem part2d_ok {w : Int} {g2 : Guess2} {g3 : Guess3} (G : Guesses g2 g3) {size M N : Nat} (hs : 1 ≤ size) (hM : 1 ≤ M) (hN : 1 ≤ N)
    (hw : ((M:Int) + N) * size ≤ w) : part2d w g2 size M N = .ok (Part.part2d g2 size M N) := by
  unfold part2d
  rw [inner2_ok G hs hM hN hw, Res.ok_bind, inner2_ok G hs hN hM (by linarith), Res.ok_bind]
  rfl

theorem search_ok {size : Nat} {cand : Nat → Res Best} {cand' : Nat → Best} (h : ∀ x, 1 ≤ x → x ∣ size → cand x = .ok (cand' x)) :
    ∀ n b, search size cand n b = .ok (Part.search size cand' n b)
  | 0, b => rfl
  | n+1, b => by
    unfold search Part.search
    by_cases hd : size % (n+1) ≠ 0
    · rw [if_pos hd, if_pos hd]; exact search_ok h n b
    · rw [if_neg hd, if_neg hd, h (n+1) (by omega) (Nat.dvd_of_mod_eq_zero (by omega)), Res.ok_bind]
      exact search_ok h n _

theorem div_facts {size x : Nat} (hs : 1 ≤ size) (hx : 1 ≤ x) (hd : x ∣ size) : 1 ≤ size / x ∧ size / x ≤ size :=
  ⟨Nat.div_pos (Nat.le_of_dvd hs hd) hx, Nat.div_le_self _ _⟩

theorem two_of_three {w : Int} {s size A B : Nat} {C : Int} (h1 : s ≤ size) (hA : (A:Int) + B ≤ C) (hw : C * size ≤ w) : ((A:Int) + B) * s ≤ w := by
  have : ((A:Int) + B) * s ≤ C * size := by
    have h1' : (s:Int) ≤ size := by exact_mod_cast h1
    exact mul_le_mul hA h1' (by positivity) (le_trans (by positivity) hA)
  omega

variable {w : Int} {g2 : Guess2} {g3 : Guess3} {size M N P : Nat}

theorem three_ge (hM : 1 ≤ M) (hN : 1 ≤ N) (hP : 1 ≤ P) : (N:Int) + P ≤ N * P + M * P + M * N ∧ (M:Int) + P ≤ N * P + M * P + M * N ∧
    (M:Int) + N ≤ N * P + M * P + M * N := by
  zify at hM hN hP
  refine ⟨?_, ?_, ?_⟩ <;> nlinarith

theorem candM_ok (G : Guesses g2 g3) (hs : 1 ≤ size) (hM : 1 ≤ M) (hN : 1 ≤ N) (hP : 1 ≤ P) (hw : ((N:Int) * P + M * P + M * N) * size ≤ w)
    (x : Nat) (hx : 1 ≤ x) (hd : x ∣ size) : candM w g2 size M N P x = .ok (Part.candM g2 size M N P x) := by
  obtain ⟨a, b⟩ := div_facts hs hx hd
  have hg := Part.candM_good g2 size M N P x hd
  simp only [Part.candM, Best.Good] at hg
  unfold candM
  rw [part2d_ok G a hN hP (two_of_three b (three_ge hM hN hP).1 hw), Res.ok_bind, cut3d_ok hs hM hN hP hg hw, Res.ok_bind]
  rfl

theorem candN_ok (G : Guesses g2 g3) (hs : 1 ≤ size) (hM : 1 ≤ M) (hN : 1 ≤ N) (hP : 1 ≤ P) (hw : ((N:Int) * P + M * P + M * N) * size ≤ w)
    (x : Nat) (hx : 1 ≤ x) (hd : x ∣ size) : candN w g2 size M N P x = .ok (Part.candN g2 size M N P x) := by
  obtain ⟨a, b⟩ := div_facts hs hx hd
  have hg := Part.candN_good g2 size M N P x hd
  simp only [Part.candN, Best.Good] at hg
  unfold candN
  rw [part2d_ok G a hM hP (two_of_three b (three_ge hM hN hP).2.1 hw), Res.ok_bind, cut3d_ok hs hM hN hP hg hw, Res.ok_bind]
  rfl

theorem candP_ok (G : Guesses g2 g3) (hs : 1 ≤ size) (hM : 1 ≤ M) (hN : 1 ≤ N) (hP : 1 ≤ P) (hw : ((N:Int) * P + M * P + M * N) * size ≤ w)
    (x : Nat) (hx : 1 ≤ x) (hd : x ∣ size) : candP w g2 size M N P x = .ok (Part.candP g2 size M N P x) := by
  obtain ⟨a, b⟩ := div_facts hs hx hd
  have hg := Part.candP_good g2 size M N P x hd
  simp only [Part.candP, Best.Good] at hg
  unfold candP
  rw [part2d_ok G a hM hN (two_of_three b (three_ge hM hN hP).2.2 hw), Res.ok_bind, cut3d_ok hs hM hN hP hg hw, Res.ok_bind]
  rfl

theorem inner3_ok (G : Guesses g2 g3) (hs : 1 ≤ size) (hM : 1 ≤ M) (hN : 1 ≤ N) (hP : 1 ≤ P) (hw : ((N:Int) * P + M * P + M * N) * size ≤ w) :
    part3dInner w g2 g3 size M N P = .ok (Part.part3dInner g2 g3 size M N P) := by
  have hg := G.three size M N P hs hM hN hP
  have hg' : ((g3 size M N P : Nat) : Int) ≤ w := by
    have h1 : ((g3 size M N P : Nat) : Int) ≤ (M:Int) * size := by exact_mod_cast hg
    have h2 : ((M:Int) + P) * size ≤ w := two_of_three (le_refl _) (three_ge hM hN hP).2.1 hw
    have h3 : (0:Int) ≤ P * size := by positivity
    rw [add_mul] at h2
    omega
  have hd := decDiv_spec size (if g3 size M N P = 0 then 1 else g3 size M N P) (guess_pos _)
  have hgood := Part.part3dInner_good g2 g3 size M N P
  simp only [Part.part3dInner, Best.Good] at hgood
  unfold part3dInner
  rw [fit, if_pos ⟨by omega, hg'⟩, Res.ok_bind]
  dsimp only
  rw [candM_ok G hs hM hN hP hw _ hd.1 hd.2.1, Res.ok_bind, search_ok (candM_ok G hs hM hN hP hw), Res.ok_bind,
    search_ok (candN_ok G hs hM hN hP hw), Res.ok_bind, search_ok (candP_ok G hs hM hN hP hw), Res.ok_bind,
    cut3d_ok hs hM hN hP hgood hw, Res.ok_bind]
  rfl

theorem part3d_ok (G : Guesses g2 g3) (hs : 1 ≤ size) (hM : 1 ≤ M) (hN : 1 ≤ N) (hP : 1 ≤ P) (hw : ((N:Int) * P + M * P + M * N) * size ≤ w) :
    part3d w g2 g3 size M N P = .ok (Part.part3d g2 g3 size M N P) := by
  unfold part3d
  rw [inner3_ok G hs hM hN hP hw, Res.ok_bind, inner3_ok G hs hN hM hP (by rw [mul_comm (N:Int) M]; linarith), Res.ok_bind,
    inner3_ok G hs hP hM hN (by rw [mul_comm (P:Int) N, mul_comm (P:Int) M]; linarith), Res.ok_bind]
  rfl

/-- **C112**, choice of the process grid: with a `PetscInt` that can hold the number of processes times the sum of the sides (faces) of
the grid, nothing overflows in the choice of the process grid, which is the one of C01. -/
theorem C112_partition_partial (G : Guesses g2 g3) (hs : 1 ≤ size) (hM : 1 ≤ M) (hN : 1 ≤ N) (hP : 1 ≤ P) :
    (((M:Int) + N) * size ≤ w → part2d w g2 size M N = .ok (Part.part2d g2 size M N)) ∧
    (((N:Int) * P + M * P + M * N) * size ≤ w → part3d w g2 g3 size M N P = .ok (Part.part3d g2 g3 size M N P)) :=
  ⟨part2d_ok G hs hM hN, part3d_ok G hs hM hN hP⟩

/-- **C112**, distribution: it never overflows. -/
theorem C112_distribute {s r n : Int} (hs : 1 ≤ s) (r0 : 0 ≤ r) (r1 : r < s) (n0 : 0 ≤ n) (n1 : n ≤ w) :
    dist1D w s r n = .ok (Part.dist1D s r n) := by
  have q0 : 0 ≤ n / s := Int.ediv_nonneg n0 (by omega)
  have m0 := Int.emod_nonneg n (show s ≠ 0 by omega)
  have m1 := Int.emod_lt_of_pos n (show 0 < s by omega)
  have hd := Int.mul_ediv_add_emod n s
  have hq : n / s + n % s ≤ n ∨ s = 1 := by
    by_cases h : s = 1
    · right; exact h
    · left; nlinarith
  have hr : r * (n / s) + (n / s) ≤ s * (n / s) := by nlinarith
  have hr0 : 0 ≤ r * (n / s) := mul_nonneg r0 q0
  have hq1 : n / s ≤ s * (n / s) := le_mul_of_one_le_left q0 hs
  unfold dist1D Part.dist1D
  rw [Int.tdiv_eq_ediv_of_nonneg n0, Int.tmod_eq_emod_of_nonneg n0]
  rw [eval_ok, Res.ok_bind, eval_ok, Res.ok_bind]
  · rfl
  · simp only [fits_add, fits_mul, fits_lit, val_lit, val_mul, true_and]
    split_ifs <;> refine ⟨⟨?_, ?_⟩, ?_, ?_⟩ <;> omega
  · simp only [fits_add, fits_lit, val_lit, true_and]
    split_ifs <;> refine ⟨?_, ?_⟩ <;> omega

/-- **C112** fails for the choice of the process grid: a grid of `2^20 × 2^10` elements, on 4099 processes, all of whose unknowns can be
numbered, overflows in `IGA_CUT2D` with 32-bit indices, although a grid of processes exists. -/
theorem C112_partition_refuted : part2d (2^31-1) exactGuess2 4099 (2^20) (2^10) = .ub ∧
    Part.part2d exactGuess2 4099 (2^20) (2^10) = (4099, 1) ∧ (2^20 + 1) * (2^10 + 1) ≤ (2^31-1 : Int) := by
  refine ⟨by decide +kernel, by decide +kernel, by norm_num⟩

/-! ### Index computations -/

theorem prefix4 {b x y z : Int} (hb : 1 ≤ b) (hx : 1 ≤ x) (hy : 1 ≤ y) (hz : 1 ≤ z) (h : b * x * y * z ≤ w) :
    0 ≤ b * x ∧ b * x ≤ w ∧ 0 ≤ b * x * y ∧ b * x * y ≤ w ∧ 0 ≤ b * x * y * z ∧ x * y ≤ w ∧ x * y * z ≤ w ∧ x ≤ w ∧ y ≤ w ∧ z ≤ w ∧ b ≤ w := by
  have a1 : 1 ≤ b * x := one_le_mul_of_one_le_of_one_le hb hx
  have a2 : 1 ≤ b * x * y := one_le_mul_of_one_le_of_one_le a1 hy
  have a3 : b * x * y ≤ b * x * y * z := le_mul_of_one_le_right (by omega) hz
  have a4 : b * x ≤ b * x * y := le_mul_of_one_le_right (by omega) hy
  have c1 : 1 ≤ x * y := one_le_mul_of_one_le_of_one_le hx hy
  have c2 : x * y ≤ x * y * z := le_mul_of_one_le_right (by omega) hz
  have c3 : x * y * z ≤ b * (x * y * z) := le_mul_of_one_le_left (by positivity) hb
  have c4 : x ≤ x * y := le_mul_of_one_le_right (by omega) hy
  have c5 : y ≤ x * y := le_mul_of_one_le_left (by omega) hx
  have c6 : z ≤ x * y * z := le_mul_of_one_le_left (by omega) c1
  have c7 : b ≤ b * x := le_mul_of_one_le_right (by omega) hx
  have e : b * (x * y * z) = b * x * y * z := by ring
  omega

theorem layout_ok {bs : Nat} {x y z : Int} (hb : 1 ≤ bs) (hx : 1 ≤ x) (hy : 1 ≤ y) (hz : 1 ≤ z) (h : bs * x * y * z ≤ w) :
    ((bs : Int) * x * y * z : Ex).eval w = .ok (bs * x * y * z) := by
  have := prefix4 (by exact_mod_cast hb) hx hy hz h
  rw [eval_ok]
  · rfl
  · simp only [fits_mul, fits_lit, val_lit, val_mul, true_and]
    refine ⟨⟨⟨?_, ?_⟩, ?_, ?_⟩, ?_, ?_⟩ <;> omega

theorem flat3 {i j k s0 s1 s2 : Int} (i0 : 0 ≤ i) (i1 : i < s0) (j0 : 0 ≤ j) (j1 : j < s1) (k0 : 0 ≤ k) (k1 : k < s2) :
    0 ≤ j * s0 ∧ i + j * s0 < s0 * s1 ∧ 0 ≤ k * (s0 * s1) ∧ i + j * s0 + k * (s0 * s1) < s0 * s1 * s2 := by
  have a : 0 ≤ j * s0 := mul_nonneg j0 (by omega)
  have b : (j + 1) * s0 ≤ s1 * s0 := mul_le_mul_of_nonneg_right (by omega) (by omega)
  have c : 0 ≤ s0 * s1 := mul_nonneg (by omega) (by omega)
  have d : 0 ≤ k * (s0 * s1) := mul_nonneg k0 c
  have e : (k + 1) * (s0 * s1) ≤ s2 * (s0 * s1) := mul_le_mul_of_nonneg_right (by omega) c
  have f : s2 * (s0 * s1) = s0 * s1 * s2 := by ring
  have g : s1 * s0 = s0 * s1 := by ring
  rw [add_mul, one_mul] at b e
  omega

theorem position_ok {bs c : Nat} {i j k s0 s1 s2 : Int} (hc : c < bs) (i0 : 0 ≤ i) (i1 : i < s0) (j0 : 0 ≤ j) (j1 : j < s1) (k0 : 0 ≤ k) (k1 : k < s2)
    (h : bs * s0 * s1 * s2 ≤ w) : position w bs s0 (s0 * s1) c i j k = .ok (c + bs * natural 1 [s0, s1, s2] [i, j, k]) := by
  have hb : (1:Int) ≤ bs := by exact_mod_cast (by omega : 1 ≤ bs)
  have hp := prefix4 hb (by omega : 1 ≤ s0) (by omega : 1 ≤ s1) (by omega : 1 ≤ s2) h
  have hf := flat3 i0 i1 j0 j1 k0 k1
  have hm : (bs:Int) * (i + j * s0 + k * (s0 * s1) + 1) ≤ bs * (s0 * s1 * s2) := mul_le_mul_of_nonneg_left (by omega) (by omega)
  have hm0 : 0 ≤ (bs:Int) * (i + j * s0 + k * (s0 * s1)) := mul_nonneg (by omega) (by omega)
  have e : (bs:Int) * (s0 * s1 * s2) = bs * s0 * s1 * s2 := by ring
  rw [mul_add, mul_one] at hm
  unfold position
  rw [eval_ok]
  · simp only [val_add, val_mul, val_lit, natural]
    congr 1
    ring
  · simp only [fits_add, fits_mul, fits_lit, val_lit, val_mul, val_add, true_and]
    have hc' : (c:Int) < bs := by exact_mod_cast hc
    refine ⟨⟨⟨⟨⟨?_, ?_⟩, ?_, ?_⟩, ⟨?_, ?_⟩, ?_, ?_⟩, ?_, ?_⟩, ?_, ?_⟩ <;> omega

/-- A direction as the set-up makes it: an owned range in the range of the nodes. -/
structure Own (d : GDir) : Prop where
  start : 0 ≤ d.lstart
  width : 1 ≤ d.lwidth
  last : d.lstart + d.lwidth ≤ d.size

theorem mem3 {a b c : Int × Int} {x : List Int} (h : x ∈ box [a, b, c]) : ∃ i j k, x = [i, j, k] ∧ a.1 ≤ i ∧ i < a.1 + a.2 ∧ b.1 ≤ j ∧ j < b.1 + b.2 ∧
    c.1 ≤ k ∧ k < c.1 + c.2 := by
  simp only [box, List.mem_flatMap, List.mem_map, List.mem_range, List.mem_singleton] at h
  obtain ⟨_, ⟨_, ⟨_, rfl, k, hk, rfl⟩, j, hj, rfl⟩, i, hi, rfl⟩ := h
  exact ⟨_, _, _, rfl, by omega, by omega, by omega, by omega, by omega, by omega⟩

theorem pair_ok {x y : Int} (a : -w-1 ≤ x + y) (b : x + y ≤ w) : (x + y : Ex).eval w = .ok (x + y) := by
  rw [eval_ok]
  · rfl
  · simp only [fits_add, fits_lit, val_lit, true_and]; exact ⟨a, b⟩

theorem times_ok {x y : Int} (a : -w-1 ≤ x * y) (b : x * y ≤ w) : (x * y : Ex).eval w = .ok (x * y) := by
  rw [eval_ok]
  · rfl
  · simp only [fits_mul, fits_lit, val_lit, true_and]; exact ⟨a, b⟩

/-- **C112**, numbering of the owned unknowns and sizes of the vectors: if the number of unknowns of the whole problem fits, then nothing
overflows. -/
theorem C112_local {bs : Nat} (hb : 1 ≤ bs) {d0 d1 d2 : GDir} (h0 : Own d0) (h1 : Own d1) (h2 : Own d2) (h : bs * d0.size * d1.size * d2.size ≤ w) :
    localIndices w bs d0 d1 d2 = .ok (Grid.localIndices bs [d0, d1, d2]) ∧
    layout w bs d0 d1 d2 = .ok (bs * d0.lwidth * d1.lwidth * d2.lwidth, bs * d0.size * d1.size * d2.size) := by
  obtain ⟨s0, w0, l0⟩ := h0
  obtain ⟨s1, w1, l1⟩ := h1
  obtain ⟨s2, w2, l2⟩ := h2
  have hb' : (1:Int) ≤ bs := by exact_mod_cast hb
  have hp := prefix4 hb' (by omega : 1 ≤ d0.size) (by omega : 1 ≤ d1.size) (by omega : 1 ≤ d2.size) h
  have hl : (bs:Int) * d0.lwidth * d1.lwidth * d2.lwidth ≤ w := by
    refine le_trans ?_ h
    have a : (bs:Int) * d0.lwidth ≤ bs * d0.size := mul_le_mul_of_nonneg_left (by omega) (by omega)
    have b : (bs:Int) * d0.lwidth * d1.lwidth ≤ bs * d0.size * d1.size := mul_le_mul a (by omega) (by omega) (by omega)
    exact mul_le_mul b (by omega) (by omega) (by omega)
  have hxy : 0 ≤ d0.size * d1.size := mul_nonneg (by omega) (by omega)
  refine ⟨?_, ?_⟩
  · unfold localIndices
    rw [times_ok (by omega) (by omega), Res.ok_bind, pair_ok (by omega) (by omega), Res.ok_bind, pair_ok (by omega) (by omega), Res.ok_bind,
      pair_ok (by omega) (by omega), Res.ok_bind, layout_ok hb w0 w1 w2 hl, Res.ok_bind,
      each_ok (g := fun x => (List.range bs).map fun (c : Nat) => (c:Int) + bs * natural 1 (sizes [d0, d1, d2]) x), Res.ok_bind]
    · rfl
    · intro x hx
      obtain ⟨i, j, k, rfl, i0, i1, j0, j1, k0, k1⟩ := mem3 hx
      dsimp only at i0 i1 j0 j1 k0 k1 ⊢
      exact each_ok fun c hc => position_ok (List.mem_range.1 hc) (by omega) (by omega) (by omega) (by omega) (by omega) (by omega) h
  · unfold layout
    rw [layout_ok hb w0 w1 w2 hl, Res.ok_bind, layout_ok hb (by omega) (by omega) (by omega) h, Res.ok_bind]

/-- A direction as the set-up makes it: a ghosted range that passes the beginning by less than a period. -/
structure Ghost (w : Int) (d : GDir) : Prop where
  size : 1 ≤ d.size
  first : -d.size ≤ d.gstart
  width : 1 ≤ d.gwidth
  last : d.gstart + d.gwidth ≤ w

theorem wrap_ok {n i : Int} (hn : 1 ≤ n) (hw : n ≤ w) (hi : -n ≤ i) : wrap w n i = .ok (Grid.wrap n i) ∧ 0 ≤ Grid.wrap n i ∧ Grid.wrap n i < n := by
  unfold wrap Grid.wrap
  by_cases h : i < 0
  · rw [if_pos h, if_pos h, pair_ok (by omega) (by omega)]
    exact ⟨rfl, by omega, by omega⟩
  · rw [if_neg h, if_neg h]
    by_cases h' : i ≥ n
    · rw [if_pos h', if_pos h', Int.tmod_eq_emod_of_nonneg (by omega)]
      exact ⟨rfl, Int.emod_nonneg _ (by omega), Int.emod_lt_of_pos _ (by omega)⟩
    · rw [if_neg h', if_neg h']
      exact ⟨rfl, by omega, by omega⟩

/-- **C112**, numbering of the ghosted unknowns: if the number of unknowns of the whole problem and that of the ghosted box fit, then
nothing overflows. -/
theorem C112_ghost {bs : Nat} (hb : 1 ≤ bs) {d0 d1 d2 : GDir} (h0 : Ghost w d0) (h1 : Ghost w d1) (h2 : Ghost w d2)
    (h : bs * d0.size * d1.size * d2.size ≤ w) (hg : bs * d0.gwidth * d1.gwidth * d2.gwidth ≤ w) :
    ghostIndices w bs d0 d1 d2 = .ok (Grid.ghostIndices bs [d0, d1, d2]) := by
  obtain ⟨s0, f0, w0, l0⟩ := h0
  obtain ⟨s1, f1, w1, l1⟩ := h1
  obtain ⟨s2, f2, w2, l2⟩ := h2
  have hb' : (1:Int) ≤ bs := by exact_mod_cast hb
  have hp := prefix4 hb' s0 s1 s2 h
  have hxy : 0 ≤ d0.size * d1.size := mul_nonneg (by omega) (by omega)
  unfold ghostIndices
  rw [times_ok (by omega) (by omega), Res.ok_bind, pair_ok (by omega) (by omega), Res.ok_bind, pair_ok (by omega) (by omega), Res.ok_bind,
    pair_ok (by omega) (by omega), Res.ok_bind, layout_ok hb w0 w1 w2 hg, Res.ok_bind,
    each_ok (g := fun x => (List.range bs).map fun (c : Nat) => (c:Int) + bs * natural 1 (sizes [d0, d1, d2]) (wrapAll (sizes [d0, d1, d2]) x)), Res.ok_bind]
  · rfl
  · intro x hx
    obtain ⟨i, j, k, rfl, i0, i1, j0, j1, k0, k1⟩ := mem3 hx
    dsimp only at i0 i1 j0 j1 k0 k1 ⊢
    obtain ⟨a0, b0, c0⟩ := wrap_ok (w := w) (i := i) s0 (by omega) (by omega)
    obtain ⟨a1, b1, c1⟩ := wrap_ok (w := w) (i := j) s1 (by omega) (by omega)
    obtain ⟨a2, b2, c2⟩ := wrap_ok (w := w) (i := k) s2 (by omega) (by omega)
    rw [a0, Res.ok_bind, a1, Res.ok_bind, a2, Res.ok_bind]
    exact each_ok fun c hc => position_ok (List.mem_range.1 hc) b0 c0 b1 c1 b2 c2 h

theorem sum3_ok {i j k s0 s1 s2 : Int} (i0 : 0 ≤ i) (i1 : i < s0) (j0 : 0 ≤ j) (j1 : j < s1) (k0 : 0 ≤ k) (k1 : k < s2)
    (h : s0 * s1 * s2 ≤ w) : (i + j * s0 + k * (s0 * s1 : Int) : Ex).eval w = .ok (i + j * s0 + k * (s0 * s1)) := by
  have hp := prefix4 (w := w) (le_refl 1) (by omega : 1 ≤ s0) (by omega : 1 ≤ s1) (by omega : 1 ≤ s2) (by rw [one_mul]; exact h)
  have hf := flat3 i0 i1 j0 j1 k0 k1
  rw [eval_ok]
  · rfl
  · simp only [fits_add, fits_mul, fits_lit, val_lit, val_mul, val_add, true_and]
    refine ⟨⟨⟨?_, ?_⟩, ?_, ?_⟩, ⟨?_, ?_⟩, ?_, ?_⟩ <;> omega

/-- **C112**, closure of an element: if the number of nodes of the ghosted box fits, then nothing overflows. -/
theorem C112_closure {d0 d1 d2 : Elem.CDir} (h0 : Elem.Inside d0) (h1 : Elem.Inside d1) (h2 : Elem.Inside d2)
    (r0 : -w ≤ d0.gstart ∧ d0.gstart + d0.gwidth ≤ w) (r1 : -w ≤ d1.gstart ∧ d1.gstart + d1.gwidth ≤ w)
    (r2 : -w ≤ d2.gstart ∧ d2.gstart + d2.gwidth ≤ w) (h : d0.gwidth * d1.gwidth * d2.gwidth ≤ w) :
    closure w d0 d1 d2 = .ok (Elem.closure d0 d1 d2) := by
  obtain ⟨n0, a0, b0⟩ := h0
  obtain ⟨n1, a1, b1⟩ := h1
  obtain ⟨n2, a2, b2⟩ := h2
  have hp := prefix4 (w := w) (le_refl 1) (by omega : 1 ≤ d0.gwidth) (by omega : 1 ≤ d1.gwidth) (by omega : 1 ≤ d2.gwidth) (by rw [one_mul]; exact h)
  have hxy : 0 ≤ d0.gwidth * d1.gwidth := mul_nonneg (by omega) (by omega)
  unfold closure
  rw [times_ok (by omega) (by omega), Res.ok_bind, each_ok (g := fun a : Nat × Nat × Nat =>
    (d0.offset + (a.1:Int) - d0.gstart) + (d1.offset + (a.2.1:Int) - d1.gstart) * d0.gwidth + (d2.offset + (a.2.2:Int) - d2.gstart) * (d0.gwidth * d1.gwidth))]
  · congr 1
    simp only [Elem.closure, List.map_flatMap, List.map_map, Function.comp_def]
  · rintro ⟨ia, ja, ka⟩ ha
    simp only [List.mem_flatMap, List.mem_map, List.mem_range, Prod.mk.injEq] at ha
    obtain ⟨_, hk, _, hj, _, hi, rfl, rfl, rfl⟩ := ha
    dsimp only
    have e : ∀ {o s : Int} {c : Nat}, -w ≤ s → s ≤ o → o + c ≤ w → o + c - s ≤ w → (o + (c : Int) - s : Ex).eval w = .ok (o + c - s) := by
      intro o s c u1 u2 u3 u4
      rw [eval_ok]
      · rfl
      · simp only [fits_add, fits_sub, fits_lit, val_lit, val_add, true_and]
        refine ⟨⟨?_, ?_⟩, ?_, ?_⟩ <;> omega
    rw [e (by omega) (by omega) (by omega) (by omega), Res.ok_bind, e (by omega) (by omega) (by omega) (by omega), Res.ok_bind,
      e (by omega) (by omega) (by omega) (by omega), Res.ok_bind]
    exact sum3_ok (by omega) (by omega) (by omega) (by omega) (by omega) (by omega) h

/-- **C112**, positions of the values of the nodes of an element in an array over the ghosted box. -/
theorem C112_gather {n : Nat} {G : Int} (h : G * n ≤ w) {map : List Int} (hm : ∀ a ∈ map, 0 ≤ a ∧ a < G) :
    gather w n map = .ok (map.flatMap fun a => (List.range n).map fun (i : Nat) => a * n + i) := by
  unfold gather
  rw [each_ok (g := fun a => (List.range n).map fun (i : Nat) => a * (n:Int) + i), Res.ok_bind, List.flatMap]
  intro a ha
  obtain ⟨a0, a1⟩ := hm a ha
  refine each_ok fun i hi => ?_
  have hi : (i:Int) < n := by exact_mod_cast List.mem_range.1 hi
  have c : (a + 1) * n ≤ G * n := mul_le_mul_of_nonneg_right (by omega) (by omega)
  have d : 0 ≤ a * n := mul_nonneg a0 (by omega)
  rw [add_mul, one_mul] at c
  rw [eval_ok]
  · rfl
  · simp only [fits_add, fits_mul, fits_lit, val_lit, val_mul, true_and]
    refine ⟨⟨?_, ?_⟩, ?_, ?_⟩ <;> omega

/-! ### Tables and spans -/

/-- **C112**, the tables of basis functions: if the number of entries of the table fits, then nothing overflows, and every position is in
the table. -/
theorem C112_tables_partial {nel nqp p : Int} (h1 : 1 ≤ nel) (h2 : 1 ≤ nqp) (h3 : 0 ≤ p) (h : nel * nqp * (p + 1) * 5 ≤ w) :
    tableSize w nel nqp p = .ok (nel * nqp * (p + 1) * 5) ∧
    ∀ iel iqp, 0 ≤ iel → iel < nel → 0 ≤ iqp → iqp < nqp → tableAt w nqp p iel iqp = .ok (iel * nqp * (p + 1) * 5, iqp * (p + 1) * 5) := by
  have hp := prefix4 h1 h2 (by omega : 1 ≤ p + 1) (by omega : (1:Int) ≤ 5) h
  have e : ∀ x, 0 ≤ x → x ≤ nel → (x * nqp * (p + 1) * 5 : Ex).eval w = .ok (x * nqp * (p + 1) * 5) := by
    intro x x0 x1
    have a : x * nqp ≤ nel * nqp := mul_le_mul_of_nonneg_right x1 (by omega)
    have b : x * nqp * (p+1) ≤ nel * nqp * (p+1) := mul_le_mul_of_nonneg_right a (by omega)
    have c : 0 ≤ x * nqp := mul_nonneg x0 (by omega)
    have d : 0 ≤ x * nqp * (p+1) := mul_nonneg c (by omega)
    rw [eval_ok]
    · rfl
    · simp only [fits_add, fits_mul, fits_lit, fits_one, fits_five, val_lit, val_mul, val_add, val_one, val_five, true_and]
      refine ⟨⟨⟨?_, ?_⟩, ⟨?_, ?_⟩, ?_, ?_⟩, ?_, ?_⟩ <;> omega
  refine ⟨e nel (by omega) (le_refl _), ?_⟩
  intro iel iqp a0 a1 b0 b1
  unfold tableAt
  rw [e iel a0 (by omega), Res.ok_bind, eval_ok, Res.ok_bind]
  · rfl
  · have a : iqp * (p+1) ≤ nqp * (p+1) := mul_le_mul_of_nonneg_right (by omega) (by omega)
    have c : 0 ≤ iqp * (p+1) := mul_nonneg b0 (by omega)
    have d : nqp * (p+1) * 5 ≤ w := by
      refine le_trans ?_ h
      rw [show nel * nqp * (p+1) * 5 = nel * (nqp * (p+1) * 5) by ring]
      exact le_mul_of_one_le_left (by positivity) h1
    simp only [fits_add, fits_mul, fits_lit, fits_one, fits_five, val_lit, val_mul, val_add, val_one, val_five, true_and]
    refine ⟨⟨⟨?_, ?_⟩, ?_, ?_⟩, ?_, ?_⟩ <;> omega

/-- **C112** fails for the tables: ten million elements of degree 6 in one direction, whose 10000006 unknowns can be numbered, overflow
the size of the table with 32-bit indices. -/
theorem C112_tables_refuted : tableSize (2^31-1) (10^7) 7 6 = .ub ∧ (10^7 + 6 : Int) ≤ 2^31-1 := by
  refine ⟨by decide +kernel, by norm_num⟩

theorem succ_ok {x : Int} (h0 : 0 ≤ x) (h : x + 1 ≤ w) : (Ex.lit x + 1 : Ex).eval w = .ok (x + 1) := by
  rw [eval_ok]
  · rfl
  · simp only [fits_add, fits_lit, fits_one, val_lit, val_one, true_and]
    refine ⟨?_, ?_⟩ <;> omega

theorem findLoop_ok {K : Type} [LinearOrder K] {n : Int} (hn : 0 ≤ n) (hw : 2 * (n + 1) ≤ w) (u : K) (U : Int → K) :
    ∀ f low high, 0 ≤ low → low ≤ high → high ≤ n + 1 → findLoop w u U f low high = .ok (Ax.findLoop u U f low high)
  | 0, _, _, _, _, _ => rfl
  | f+1, low, high, h0, h1, h2 => by
    have hs : Int.tdiv (high + low) 2 = (high + low) / 2 := Int.tdiv_eq_ediv_of_nonneg (by omega)
    unfold findLoop Ax.findLoop
    rw [pair_ok (by omega) (by omega), Res.ok_bind]
    dsimp only
    rw [hs]
    by_cases hu : u < U ((high + low) / 2)
    · rw [if_pos hu, if_pos (Or.inl hu), if_pos hu]
      exact findLoop_ok hn hw u U f low _ h0 (by omega) (by omega)
    · rw [if_neg hu, succ_ok (by omega) (by omega), Res.ok_bind]
      by_cases hv : u ≥ U ((high + low) / 2 + 1)
      · rw [if_pos hv, if_pos (Or.inr hv), if_neg hu]
        exact findLoop_ok hn hw u U f _ high (by omega) (by omega) h2
      · rw [if_neg hv, if_neg (by rintro (h | h); exacts [hu h, hv h])]

/-- **C112**, search for a span: if twice the number of basis functions fits, then nothing overflows. -/
theorem C112_findspan_partial {K : Type} [LinearOrder K] {n p : Int} (hp : 0 ≤ p) (hn : p ≤ n) (hw : 2 * (n + 1) ≤ w) (fuel : Nat) (u : K) (U : Int → K) :
    findSpan w fuel n p u U = .ok (Ax.findSpan fuel n p u U) := by
  unfold findSpan Ax.findSpan
  by_cases h : u ≤ U p
  · rw [if_pos h, if_pos h]
  · rw [if_neg h, if_neg h, succ_ok (by omega) (by omega), Res.ok_bind]
    by_cases h' : u ≥ U (n + 1)
    · rw [if_pos h', if_pos h']
    · rw [if_neg h', if_neg h']
      exact findLoop_ok (by omega) hw u U fuel p (n + 1) hp (by omega) (le_refl _)

/-- **C112** fails for the search: with `2^31` knots, all of which can be numbered with 32-bit indices, `low + high` overflows. -/
theorem C112_findspan_refuted : findSpan (2^31-1) 10 (2^31-3) 1 (2^31-5 : Int) (fun i => i) = .ub ∧
    (2^31-3 : Int) + 1 + 1 ≤ 2^31-1 ∧ Ax.findSpan 40 (2^31-3) 1 (2^31-5 : Int) (fun i => i) = some (2^31-5) := by
  refine ⟨by decide +kernel, by norm_num, by decide +kernel⟩

/-! ### After the set-up -/

/-- A direction beyond the dimension. -/
def one : GDir := ⟨1, 0, 1, 0, 1⟩

/-- The three directions of a grid. -/
def dirs3 (g : List GDir) : GDir × GDir × GDir := (g.getD 0 one, g.getD 1 one, g.getD 2 one)

theorem one_last (bs : Nat) (d0 d1 : GDir) : Grid.localIndices bs [d0, d1, one] = Grid.localIndices bs [d0, d1] ∧
    Grid.ghostIndices bs [d0, d1, one] = Grid.ghostIndices bs [d0, d1] := by
  refine ⟨?_, ?_⟩
  · simp [Grid.localIndices, lbox, box, natural, sizes, one, List.flatMap_map, List.flatMap_assoc]
  · simp [Grid.ghostIndices, gbox, box, natural, sizes, one, wrapAll, Grid.wrap, List.flatMap_map, List.flatMap_assoc]

theorem one_second (bs : Nat) (d0 : GDir) : Grid.localIndices bs [d0, one] = Grid.localIndices bs [d0] ∧
    Grid.ghostIndices bs [d0, one] = Grid.ghostIndices bs [d0] := by
  refine ⟨?_, ?_⟩
  · simp [Grid.localIndices, lbox, box, natural, sizes, one, List.flatMap_map, List.flatMap_assoc]
  · simp [Grid.ghostIndices, gbox, box, natural, sizes, one, wrapAll, Grid.wrap, List.flatMap_map, List.flatMap_assoc]

/-- What the computations need of one direction. -/
structure Fine (d : GDir) : Prop where
  own : Own d
  first : -d.size ≤ d.gstart
  width : 1 ≤ d.gwidth
  begins : d.gstart ≤ d.lstart

theorem fine_one : Fine one := ⟨⟨by decide, by decide, by decide⟩, by decide, by decide, by decide⟩

theorem blocks_own : ∀ {g : List GDir}, Blocks (sizes g) (g.map GDir.lstart) (g.map GDir.lwidth) → ∀ d ∈ g, Own d
  | [], _, d, hd => by simp at hd
  | a :: g, h, d, hd => by
    cases h with
    | cons h1 h2 =>
      rcases List.mem_cons.1 hd with rfl | hd
      · exact ⟨h1.1, h1.2.1, h1.2.2⟩
      · exact blocks_own h2 d hd

section
variable {K : Type} [Field K] [LinearOrder K] [IsStrictOrderedRing K] {colloc : Bool} {size : Int} {procs : List Int} {axes axs : List (Ax.Axis K)} {Ls : List (Lay.Layout K)}

theorem mem_right {α β : Type} {R : α → β → Prop} : ∀ {l : List α} {m : List β}, List.Forall₂ R l m → ∀ {b}, b ∈ m → ∃ a ∈ l, R a b
  | _, _, .nil, b, hb => by simp at hb
  | _, _, .cons h1 h2, b, hb => by
    rcases List.mem_cons.1 hb with rfl | hb
    · exact ⟨_, by simp, h1⟩
    · obtain ⟨a, ha, hr⟩ := mem_right h2 hb
      exact ⟨a, by simp [ha], hr⟩

theorem fine_dir (S : Asm.Setup g2 g3 colloc size procs axes axs Ls) {r : Nat} {L : Lay.Layout K} (h : Ls[r]? = some L) : ∀ d ∈ L.dir, Fine (gdir d) := by
  obtain ⟨-, -, hf, hg⟩ := S.get h
  have D := S.grid.1
  have hlt := (List.getElem?_eq_some_iff.1 hg).1
  have hb := D.part.inside r hlt
  rw [← D.sizes _ (List.mem_of_getElem? hg)] at hb
  simp only [ownStart, ownWidth, hg, Option.getD_some] at hb
  intro d hd
  have ho := blocks_own hb (gdir d) (List.mem_map_of_mem hd)
  obtain ⟨ax, -, hx⟩ : ∃ ax ∈ axs, Asm.DirOK' colloc ax d := mem_right hf hd
  have hown := hx.ok.ghost.owned
  have hw := ho.width
  dsimp only [gdir] at hw
  have hw1 : 1 ≤ d.nodeGwidth := by omega
  have hz := hx.ok.ghost.wrapped d.nodeGstart (le_refl _) (by omega)
  refine ⟨ho, ?_, hw1, hown.1⟩
  dsimp only [gdir]
  rw [hx.ok.size]
  by_contra hc
  have := hz.1
  unfold Grid.wrap at this
  have hs : d.nodeSize = ax.nnp := hx.ok.size
  have hl := ho.last
  have hl0 := ho.start
  dsimp only [gdir] at hl hl0
  rw [if_pos (by omega)] at this
  omega

theorem fine_ok {bs : Nat} (hb : 1 ≤ bs) {d0 d1 d2 : GDir} (h0 : Fine d0) (h1 : Fine d1) (h2 : Fine d2)
    (h : 2 * (bs * d0.size * d1.size * d2.size) ≤ w) (hg : 2 * (bs * d0.gwidth * d1.gwidth * d2.gwidth) ≤ w) :
    localIndices w bs d0 d1 d2 = .ok (Grid.localIndices bs [d0, d1, d2]) ∧
    ghostIndices w bs d0 d1 d2 = .ok (Grid.ghostIndices bs [d0, d1, d2]) := by
  have hb' : (1:Int) ≤ bs := by exact_mod_cast hb
  have a0 := h0.own.start; have b0 := h0.own.width; have c0 := h0.own.last; have e0 := h0.begins; have f0 := h0.width
  have a1 := h1.own.start; have b1 := h1.own.width; have c1 := h1.own.last; have e1 := h1.begins; have f1 := h1.width
  have a2 := h2.own.start; have b2 := h2.own.width; have c2 := h2.own.last; have e2 := h2.begins; have f2 := h2.width
  have hp := prefix4 hb' (by omega : 1 ≤ d0.size) (by omega : 1 ≤ d1.size) (by omega : 1 ≤ d2.size) (le_refl _)
  have hq := prefix4 hb' f0 f1 f2 (le_refl _)
  exact ⟨(C112_local hb h0.own h1.own h2.own (by omega)).1,
    C112_ghost hb ⟨by omega, h0.first, f0, by omega⟩ ⟨by omega, h1.first, f1, by omega⟩ ⟨by omega, h2.first, f2, by omega⟩ (by omega) (by omega)⟩

/-- **C112** for every set-up: if twice the number of unknowns of the whole problem and twice that of the ghosted box of a process fit,
then nothing overflows in the index computations of that process, and they give what C23 is about. -/
theorem C112_after_setup (S : Asm.Setup g2 g3 colloc size procs axes axs Ls) {r : Nat} {L : Lay.Layout K} (h : Ls[r]? = some L) {bs : Nat} (hb : 1 ≤ bs)
    (hn : 2 * (bs * Spec.prod (axs.map Ax.Axis.nnp)) ≤ w) (hg : 2 * (bs * Spec.prod (L.dir.map Lay.Dir.nodeGwidth)) ≤ w) :
    let D := dirs3 (L.dir.map gdir)
    localIndices w bs D.1 D.2.1 D.2.2 = .ok (Grid.localIndices bs (L.dir.map gdir)) ∧
    ghostIndices w bs D.1 D.2.1 D.2.2 = .ok (Grid.ghostIndices bs (L.dir.map gdir)) := by
  have hF := fine_dir S h
  obtain ⟨-, -, hf, hgr⟩ := S.get h
  have hl := hf.length_eq
  have hl' := Asm.setUpAxes_length S.set
  have hd := S.dim
  rw [← S.grid.1.sizes _ (List.mem_of_getElem? hgr)] at hn
  generalize L.dir = ds at *
  match ds, hl with
  | [d0], _ =>
    have := fine_ok (w := w) hb (hF d0 (by simp)) fine_one fine_one (by simpa [sizes, Spec.prod, one] using hn) (by simpa [Spec.prod, one, gdir] using hg)
    rw [(one_last bs _ _).1, (one_last bs _ _).2, (one_second bs _).1, (one_second bs _).2] at this
    exact this
  | [d0, d1], _ =>
    have := fine_ok (w := w) hb (hF d0 (by simp)) (hF d1 (by simp)) fine_one (by simpa [sizes, Spec.prod, one, mul_assoc] using hn)
      (by simpa [Spec.prod, one, gdir, mul_assoc] using hg)
    rw [(one_last bs _ _).1, (one_last bs _ _).2] at this
    exact this
  | [d0, d1, d2], _ =>
    have := fine_ok (w := w) hb (hF d0 (by simp)) (hF d1 (by simp)) (hF d2 (by simp)) (by simpa [sizes, Spec.prod, mul_assoc] using hn)
      (by simpa [Spec.prod, gdir, mul_assoc] using hg)
    exact this
  | [], h' => simp only [List.length_nil] at h'; omega
  | _ :: _ :: _ :: _ :: _, h' => simp at h'; omega

end

/-! ### The hypotheses are met -/

/-- The partition of 1000 × 2000 × 500 elements among 4096 processes with 64-bit indices. -/
example : part3d (2^63-1) exactGuess2 exactGuess3 4096 1000 2000 500 = .ok (Part.part3d exactGuess2 exactGuess3 4096 1000 2000 500) :=
  (C112_partition_partial exact_guesses (by norm_num) (by norm_num) (by norm_num) (by norm_num)).2 (by norm_num)

example : dist1D (2^31-1) 7 3 (2^31-1) = .ok (Part.dist1D 7 3 (2^31-1)) :=
  C112_distribute (by norm_num) (by norm_num) (by norm_num) (by norm_num) (by norm_num)

/-- A grid of 1200 × 1100 × 500 nodes with three unknowns each, almost `2^31`. -/
example : localIndices (2^31-1) 3 ⟨1200, 600, 600, 598, 602⟩ ⟨1100, 0, 400, -2, 404⟩ ⟨500, 100, 50, 98, 54⟩ =
    .ok (Grid.localIndices 3 [⟨1200, 600, 600, 598, 602⟩, ⟨1100, 0, 400, -2, 404⟩, ⟨500, 100, 50, 98, 54⟩]) ∧
    ghostIndices (2^31-1) 3 ⟨1200, 600, 600, 598, 602⟩ ⟨1100, 0, 400, -2, 404⟩ ⟨500, 100, 50, 98, 54⟩ =
    .ok (Grid.ghostIndices 3 [⟨1200, 600, 600, 598, 602⟩, ⟨1100, 0, 400, -2, 404⟩, ⟨500, 100, 50, 98, 54⟩]) :=
  ⟨(C112_local (by norm_num) ⟨by norm_num, by norm_num, by norm_num⟩ ⟨by norm_num, by norm_num, by norm_num⟩ ⟨by norm_num, by norm_num, by norm_num⟩
    (by norm_num)).1, C112_ghost (by norm_num) ⟨by norm_num, by norm_num, by norm_num, by norm_num⟩ ⟨by norm_num, by norm_num, by norm_num, by norm_num⟩
    ⟨by norm_num, by norm_num, by norm_num, by norm_num⟩ (by norm_num) (by norm_num)⟩

example : closure (2^31-1) ⟨4, 600, 600, 598, 602⟩ ⟨3, -2, 0, -2, 404⟩ ⟨3, 99, 100, 98, 54⟩ =
    .ok (Elem.closure ⟨4, 600, 600, 598, 602⟩ ⟨3, -2, 0, -2, 404⟩ ⟨3, 99, 100, 98, 54⟩) :=
  C112_closure ⟨by norm_num, by norm_num, by norm_num⟩ ⟨by norm_num, by norm_num, by norm_num⟩ ⟨by norm_num, by norm_num, by norm_num⟩
    ⟨by norm_num, by norm_num⟩ ⟨by norm_num, by norm_num⟩ ⟨by norm_num, by norm_num⟩ (by norm_num)

example : gather (2^31-1) 3 [5, 700000000] = .ok [15, 16, 17, 2100000000, 2100000001, 2100000002] :=
  C112_gather (G := 700000001) (by norm_num) (by decide)

example : tableSize (2^31-1) (10^6) 7 6 = .ok (10^6 * 7 * (6 + 1) * 5) := (C112_tables_partial (by norm_num) (by norm_num) (by norm_num) (by norm_num)).1

example : findSpan (2^31-1) 40 (10^9) 3 (777 : Int) (fun i => i) = .ok (some 777) := by
  rw [C112_findspan_partial (by norm_num) (by norm_num) (by norm_num)]
  decide +kernel

/-- Process 3 of the set-up of four processes of C48. -/
example (g2 : Guess2) (g3 : Guess3) : ∃ Ls, ∃ L : Lay.Layout Rat, Asm.Setup g2 g3 false 4 [2,2] [Lay.exAx0, Lay.exAx1] Asm.exAxs Ls ∧ Ls[3]? = some L ∧
    ghostIndices (2^31-1) 5 (dirs3 (L.dir.map gdir)).1 (dirs3 (L.dir.map gdir)).2.1 (dirs3 (L.dir.map gdir)).2.2 = .ok (Grid.ghostIndices 5 (L.dir.map gdir)) := by
  obtain ⟨Ls, S⟩ := Asm.exSetup g2 g3
  have hlen := S.ranks.1
  have h : Ls[3]? = some (Ls[3]'(by omega)) := List.getElem?_eq_getElem (by omega)
  refine ⟨Ls, _, S, h, (C112_after_setup S h (by norm_num) (by decide +kernel) ?_).2⟩
  obtain ⟨h1, -⟩ := S.get h
  have hL : Lay.stage1 g2 g3 false 4 3 [2,2] [Lay.exAx0, Lay.exAx1] = .ok ⟨[(Ax.setUp Lay.exAx0).2, (Ax.setUp Lay.exAx1).2], [2,2], [1,1], _⟩ := rfl
  rw [Nat.cast_ofNat, hL, Res.ok.injEq] at h1
  rw [← h1]
  decide +kernel

end PetIGA.Ovf
