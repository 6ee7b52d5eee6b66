import Verif.Model.Float
import Verif.Spec.Float
import Verif.Spec.Knots
import Verif.Spec.BSpline
import Verif.Props.BSpline
import Mathlib.Tactic.Linarith
import Mathlib.Tactic.Ring
import Mathlib.Tactic.FieldSimp
import Mathlib.Tactic.Positivity
import Mathlib.Tactic.GCongr
import Mathlib.Algebra.BigOperators.Ring.Finset
import Mathlib.Algebra.BigOperators.Fin
import Mathlib.Algebra.Order.BigOperators.Group.Finset
/-
The values of basis functions and of fields computed with rounding (C110).
-/
set_option linter.unusedSectionVars false
namespace PetIGA.Flt
open PetIGA.Bsp PetIGA.Spec

variable {K : Type} [Field K] [LinearOrder K] [IsStrictOrderedRing K] {ε h : K} {fl : K → K}

/-- `y` is the positive number `x` up to `k` roundings. -/
def Near (h : K) (k : Nat) (x y : K) : Prop := 0 ≤ x ∧ 0 ≤ y ∧ x ≤ y * h ^ k ∧ y ≤ x * h ^ k

theorem one_le_inv (R : Rounding ε fl) : 1 ≤ (1 - ε)⁻¹ := by
  have := R.nonneg; have := R.small
  rw [one_le_inv₀ (by linarith)]
  linarith

theorem near_zero (hh : 1 ≤ h) (k : Nat) : Near h k 0 0 := ⟨le_refl _, le_refl _, by simp, by simp⟩

theorem near_self (hh : 1 ≤ h) (k : Nat) {x : K} (hx : 0 ≤ x) : Near h k x x := by
  have := one_le_pow₀ hh (n := k)
  exact ⟨hx, hx, le_mul_of_one_le_right hx this, le_mul_of_one_le_right hx this⟩

theorem near_mono (hh : 1 ≤ h) {k l : Nat} (hkl : k ≤ l) {x y : K} (n : Near h k x y) : Near h l x y := by
  obtain ⟨a, b, c, d⟩ := n
  have := pow_le_pow_right₀ hh hkl
  exact ⟨a, b, c.trans (mul_le_mul_of_nonneg_left this b), d.trans (mul_le_mul_of_nonneg_left this a)⟩

theorem near_add (hh : 1 ≤ h) {k : Nat} {x y x' y' : K} (n : Near h k x y) (m : Near h k x' y') : Near h k (x + x') (y + y') := by
  obtain ⟨a, b, c, d⟩ := n
  obtain ⟨a', b', c', d'⟩ := m
  exact ⟨by linarith, by linarith, by linarith [add_mul y y' (h^k)], by linarith [add_mul x x' (h^k)]⟩

theorem near_mul (hh : 1 ≤ h) {k l : Nat} {x y x' y' : K} (n : Near h k x y) (m : Near h l x' y') : Near h (k + l) (x * x') (y * y') := by
  obtain ⟨a, b, c, d⟩ := n
  obtain ⟨a', b', c', d'⟩ := m
  have p : 0 ≤ h ^ k := by positivity
  have q : 0 ≤ h ^ l := by positivity
  refine ⟨by positivity, by positivity, ?_, ?_⟩
  · calc x * x' ≤ (y * h^k) * (y' * h^l) := by gcongr
      _ = _ := by rw [pow_add]; ring
  · calc y * y' ≤ (x * h^k) * (x' * h^l) := by gcongr
      _ = _ := by rw [pow_add]; ring

theorem near_div (hh : 1 ≤ h) {k l : Nat} {x y x' y' : K} (n : Near h k x y) (m : Near h l x' y') : Near h (k + l) (x / x') (y / y') := by
  obtain ⟨a, b, c, d⟩ := n
  obtain ⟨a', b', c', d'⟩ := m
  have p : 0 < h ^ k := by positivity
  have q : 0 < h ^ l := by positivity
  rcases eq_or_lt_of_le a' with e | e
  · have : y' = 0 := le_antisymm (by rw [← e, zero_mul] at d'; exact d') b'
    rw [← e, this, div_zero, div_zero]
    exact near_zero hh _
  · have e' : 0 < y' := by
      rcases eq_or_lt_of_le b' with f | f
      · rw [← f, zero_mul] at c'; exact absurd e (not_lt.2 c')
      · exact f
    refine ⟨by positivity, by positivity, ?_, ?_⟩
    · rw [div_le_iff₀ e, div_mul_eq_mul_div, div_mul_eq_mul_div, le_div_iff₀ e']
      calc x * y' ≤ (y * h^k) * (x' * h^l) := by gcongr
        _ = _ := by rw [pow_add]; ring
    · rw [div_le_iff₀ e', div_mul_eq_mul_div, div_mul_eq_mul_div, le_div_iff₀ e]
      calc y * x' ≤ (x * h^k) * (y' * h^l) := by gcongr
        _ = _ := by rw [pow_add]; ring

theorem fl_zero (R : Rounding ε fl) : fl 0 = 0 := by
  have := R.err 0
  rw [abs_zero, mul_zero, sub_zero] at this
  exact abs_nonpos_iff.1 this

theorem fl_bounds (R : Rounding ε fl) {y : K} (hy : 0 ≤ y) : (1 - ε) * y ≤ fl y ∧ fl y ≤ (1 + ε) * y := by
  have := abs_le.1 (R.err y)
  rw [abs_of_nonneg hy] at this
  constructor <;> linarith [this.1, this.2]

theorem near_fl (R : Rounding ε fl) {k : Nat} {x y : K} (n : Near (1-ε)⁻¹ k x y) : Near (1-ε)⁻¹ (k + 1) x (fl y) := by
  obtain ⟨a, b, c, d⟩ := n
  obtain ⟨l, u⟩ := fl_bounds R b
  have e0 := R.nonneg
  have e1 := R.small
  have p : 0 < 1 - ε := by linarith
  have hk : 0 < ((1 - ε)⁻¹) ^ k := by positivity
  have hl : y ≤ fl y * (1-ε)⁻¹ := by
    rw [← div_eq_mul_inv, le_div_iff₀ p]; linarith
  have hu : fl y ≤ y * (1-ε)⁻¹ := by
    rw [← div_eq_mul_inv, le_div_iff₀ p]
    have : fl y * (1 - ε) ≤ (1 + ε) * y * (1 - ε) := by gcongr
    nlinarith [mul_nonneg (mul_nonneg e0 e0) b]
  refine ⟨a, le_trans (by positivity) l, ?_, ?_⟩
  · calc x ≤ y * ((1 - ε)⁻¹) ^ k := c
      _ ≤ (fl y * (1-ε)⁻¹) * ((1 - ε)⁻¹) ^ k := by gcongr
      _ = _ := by rw [pow_succ]; ring
  · calc fl y ≤ y * (1-ε)⁻¹ := hu
      _ ≤ (x * ((1 - ε)⁻¹) ^ k) * (1-ε)⁻¹ := by gcongr
      _ = _ := by rw [pow_succ]; ring

theorem fl_pos (R : Rounding ε fl) {y : K} (hy : 0 < y) : 0 < fl y := by
  have := (fl_bounds R hy.le).1
  have : 0 < (1 - ε) * y := mul_pos (by linarith [R.small]) hy
  linarith

theorem near_addMul (R : Rounding ε fl) (fma : Bool) {k : Nat} {a a' b b' c c' : K} {i j : Nat} (ha : Near (1-ε)⁻¹ k a a')
    (hb : Near (1-ε)⁻¹ i b b') (hc : Near (1-ε)⁻¹ j c c') (hk : i + j + 1 ≤ k) :
    Near (1-ε)⁻¹ (k+1) (a + b * c) (addMul fl fma a' b' c') := by
  have hh := one_le_inv R
  unfold addMul
  split
  · exact near_fl R (near_add hh ha (near_mono hh (by omega) (near_mul hh hb hc)))
  · exact near_fl R (near_add hh ha (near_mono hh hk (near_fl R (near_mul hh hb hc))))

/-! ### The triangle -/

theorem rLoop_near (R : Rounding ε fl) (fma : Bool) {left right left' right' : Int → K} {j : Nat} {k : Nat} {ndu ndu' : Int → Int → K}
    (hl : ∀ a : Int, 1 ≤ a → a ≤ j → Near (1-ε)⁻¹ 1 (left a) (left' a)) (hr : ∀ a : Int, 1 ≤ a → a ≤ j → Near (1-ε)⁻¹ 1 (right a) (right' a))
    (hn : ∀ r : Nat, r < j → Near (1-ε)⁻¹ k (ndu r ((j:Int)-1)) (ndu' r ((j:Int)-1))) :
    ∀ c : Nat, c ≤ j →
      Near (1-ε)⁻¹ (k+5) (Bsp.rLoop left right j c (ndu, 0)).2 (rLoop fl fma left' right' j c (ndu', 0)).2 ∧
      (∀ r : Nat, r < c → Near (1-ε)⁻¹ (k+6) ((Bsp.rLoop left right j c (ndu, 0)).1 r j) ((rLoop fl fma left' right' j c (ndu', 0)).1 r j)) ∧
      (∀ r : Nat, r < c → Near (1-ε)⁻¹ 2 (right (r+1) + left (j-r)) ((rLoop fl fma left' right' j c (ndu', 0)).1 j r)) ∧
      (∀ x y : Int, x < j → y < j → (Bsp.rLoop left right j c (ndu, 0)).1 x y = ndu x y ∧ (rLoop fl fma left' right' j c (ndu', 0)).1 x y = ndu' x y)
  | 0, _ => ⟨near_zero (one_le_inv R) _, by omega, by omega, fun _ _ _ _ => ⟨rfl, rfl⟩⟩
  | c+1, hc => by
    have hh := one_le_inv R
    obtain ⟨h1, h2, h3, h4⟩ := rLoop_near R fma hl hr hn c (by omega)
    simp only [Bsp.rLoop, rLoop]
    obtain ⟨A, hA⟩ : ∃ A, A = Bsp.rLoop left right j c (ndu, 0) := ⟨_, rfl⟩
    obtain ⟨B, hB⟩ : ∃ B, B = rLoop fl fma left' right' j c (ndu', 0) := ⟨_, rfl⟩
    rw [← hA, ← hB] at h1 h2 h4 ⊢
    rw [← hB] at h3
    have e1 : upd2 A.1 j c (right (c+1) + left (j-c)) c ((j:Int)-1) = ndu c ((j:Int)-1) := by
      unfold upd2
      rw [if_neg (by omega)]
      exact (h4 _ _ (by omega) (by omega)).1
    have e2 : upd2 B.1 j c (fl (right' (c+1) + left' (j-c))) c ((j:Int)-1) = ndu' c ((j:Int)-1) := by
      unfold upd2
      rw [if_neg (by omega)]
      exact (h4 _ _ (by omega) (by omega)).2
    have e3 : ∀ (f : Int → Int → K) (v : K), upd2 f j c v j c = v := by
      intro f v; unfold upd2; rw [if_pos ⟨rfl, rfl⟩]
    rw [e1, e2, e3, e3]
    have nr := hr (c+1) (by omega) (by omega)
    have nl := hl (j-c) (by omega) (by omega)
    have den := near_fl R (near_add hh nr nl)
    have temp := near_fl R (near_div hh (hn c (by omega)) den)
    have hs := near_fl R (near_mul hh nl temp)
    have hv := near_addMul R fma h1 nr temp (by omega)
    refine ⟨near_mono hh (by omega) hs, ?_, ?_, ?_⟩
    · intro r hrc
      by_cases e : r = c
      · subst e
        have e4 : ∀ (f : Int → Int → K) (v : K), upd2 f r j v r j = v := by
          intro f v; unfold upd2; rw [if_pos ⟨rfl, rfl⟩]
        rw [e4, e4]
        exact hv
      · have e4 : ∀ (f : Int → Int → K) (v w : K), upd2 (upd2 f j c w) c j v r j = f r j := by
          intro f v w; unfold upd2; rw [if_neg (by omega), if_neg (by omega)]
        rw [e4, e4]
        exact h2 r (by omega)
    · intro r hrc
      by_cases e : r = c
      · subst e
        have e4 : ∀ (f : Int → Int → K) (v w : K), upd2 (upd2 f j r w) r j v j r = w := by
          intro f v w; unfold upd2; rw [if_neg (by omega), if_pos ⟨rfl, rfl⟩]
        rw [e4]
        exact den
      · have e4 : ∀ (f : Int → Int → K) (v w : K), upd2 (upd2 f j c w) c j v j r = f j r := by
          intro f v w; unfold upd2; rw [if_neg (by omega), if_neg (by omega)]
        rw [e4]
        exact h3 r (by omega)
    · intro x y hx hy
      have e4 : ∀ (f : Int → Int → K) (v w : K), upd2 (upd2 f j c w) c j v x y = f x y := by
        intro f v w; unfold upd2; rw [if_neg (by omega), if_neg (by omega)]
      rw [e4, e4]
      exact h4 x y hx hy

theorem jLoop_near (R : Rounding ε fl) (fma : Bool) {i : Int} {u : K} {U : Int → K} {t0 t0' : Tri K} :
    ∀ p : Nat, (∀ a : Int, 1 ≤ a → a ≤ p → U (i+1-a) ≤ u ∧ u ≤ U (i+a)) →
      (∀ r : Nat, r ≤ p → Near (1-ε)⁻¹ (6*p) ((Bsp.jLoop i u U t0 p).ndu r p) ((jLoop fl fma i u U t0' p).ndu r p)) ∧
      (∀ a : Int, 1 ≤ a → a ≤ p → (Bsp.jLoop i u U t0 p).left a = u - U (i+1-a) ∧ (jLoop fl fma i u U t0' p).left a = fl (u - U (i+1-a)) ∧
        (Bsp.jLoop i u U t0 p).right a = U (i+a) - u ∧ (jLoop fl fma i u U t0' p).right a = fl (U (i+a) - u)) ∧
      (∀ b r : Nat, b ≤ p → r < b → Near (1-ε)⁻¹ 2 (U (i+r+1) - U (i+1-b+r)) ((jLoop fl fma i u U t0' p).ndu b r))
  | 0, _ => by
    refine ⟨?_, by intro a; omega, by omega⟩
    intro r hr
    obtain rfl : r = 0 := by omega
    simp only [Bsp.jLoop, jLoop, upd2]
    exact near_self (one_le_inv R) _ zero_le_one
  | p+1, hk => by
    have hh := one_le_inv R
    push_cast at hk
    obtain ⟨h1, h2, h3⟩ := jLoop_near R fma (t0 := t0) (t0' := t0') p (fun a x y => hk a x (by omega))
    simp only [Bsp.jLoop, jLoop]
    obtain ⟨A, hA⟩ : ∃ A, A = Bsp.jLoop i u U t0 p := ⟨_, rfl⟩
    obtain ⟨B, hB⟩ : ∃ B, B = jLoop fl fma i u U t0' p := ⟨_, rfl⟩
    rw [← hA, ← hB] at h1 h2 ⊢
    rw [← hB] at h3
    obtain ⟨L, hL⟩ : ∃ L, L = upd1 A.left ((p:Int)+1) (u - U (i+1-((p:Int)+1))) := ⟨_, rfl⟩
    obtain ⟨L', hL'⟩ : ∃ L, L = upd1 B.left ((p:Int)+1) (fl (u - U (i+1-((p:Int)+1)))) := ⟨_, rfl⟩
    obtain ⟨Rt, hRt⟩ : ∃ L, L = upd1 A.right ((p:Int)+1) (U (i+((p:Int)+1)) - u) := ⟨_, rfl⟩
    obtain ⟨Rt', hRt'⟩ : ∃ L, L = upd1 B.right ((p:Int)+1) (fl (U (i+((p:Int)+1)) - u)) := ⟨_, rfl⟩
    rw [← hL, ← hL', ← hRt, ← hRt']
    have lr : ∀ a : Int, 1 ≤ a → a ≤ (p:Int)+1 → L a = u - U (i+1-a) ∧ L' a = fl (u - U (i+1-a)) ∧ Rt a = U (i+a) - u ∧ Rt' a = fl (U (i+a) - u) := by
      intro a a0 a1
      rw [hL, hL', hRt, hRt']
      unfold upd1
      by_cases e : a = (p:Int)+1
      · subst e
        simp
      · rw [if_neg e, if_neg e, if_neg e, if_neg e]
        exact h2 a a0 (by omega)
    have nl : ∀ a : Int, 1 ≤ a → a ≤ ((p+1 : Nat):Int) → Near (1-ε)⁻¹ 1 (L a) (L' a) := by
      intro a a0 a1
      push_cast at a1
      rw [(lr a a0 a1).1, (lr a a0 a1).2.1]
      exact near_fl R (near_self hh 0 (by linarith [(hk a a0 a1).1]))
    have nr : ∀ a : Int, 1 ≤ a → a ≤ ((p+1 : Nat):Int) → Near (1-ε)⁻¹ 1 (Rt a) (Rt' a) := by
      intro a a0 a1
      push_cast at a1
      rw [(lr a a0 a1).2.2.1, (lr a a0 a1).2.2.2]
      exact near_fl R (near_self hh 0 (by linarith [(hk a a0 a1).2]))
    have hn : ∀ r : Nat, r < p+1 → Near (1-ε)⁻¹ (6*p) (A.ndu r (((p+1 : Nat):Int)-1)) (B.ndu r (((p+1 : Nat):Int)-1)) := by
      intro r hr
      have := h1 r (by omega)
      have e : (((p+1 : Nat):Int)-1) = p := by push_cast; omega
      rw [e]
      exact this
    obtain ⟨k1, k2, k3, k4⟩ := rLoop_near R fma nl nr hn (p+1) le_rfl
    push_cast at k1 k2 k3 k4
    obtain ⟨P, hP⟩ : ∃ P, P = Bsp.rLoop L Rt ((p:Int)+1) (p+1) (A.ndu, 0) := ⟨_, rfl⟩
    obtain ⟨Q, hQ⟩ : ∃ Q, Q = rLoop fl fma L' Rt' ((p:Int)+1) (p+1) (B.ndu, 0) := ⟨_, rfl⟩
    rw [← hP, ← hQ] at k1 k2 k4
    rw [← hQ] at k3
    rw [← hP, ← hQ]
    refine ⟨?_, ?_, ?_⟩
    · intro r hr
      push_cast
      by_cases e : r = p+1
      · subst e
        push_cast
        have e4 : ∀ (f : Int → Int → K) (v : K), upd2 f ((p:Int)+1) ((p:Int)+1) v ((p:Int)+1) ((p:Int)+1) = v := by
          intro f v; unfold upd2; rw [if_pos ⟨rfl, rfl⟩]
        rw [e4, e4]
        exact near_mono hh (by omega) k1
      · have e4 : ∀ (f : Int → Int → K) (v : K), upd2 f ((p:Int)+1) ((p:Int)+1) v r ((p:Int)+1) = f r ((p:Int)+1) := by
          intro f v; unfold upd2; rw [if_neg (by omega)]
        rw [e4, e4]
        exact k2 r (by omega)
    · intro a a0 a1
      push_cast at a1
      obtain ⟨x, y, z, w⟩ := lr a a0 a1
      exact ⟨x, y, z, w⟩
    · intro b r hb hr
      have e4 : ∀ (f : Int → Int → K) (v : K), upd2 f ((p:Int)+1) ((p:Int)+1) v b r = f b r := by
        intro f v; unfold upd2; rw [if_neg (by omega)]
      rw [e4]
      by_cases e : b = p+1
      · subst e
        push_cast
        have := k3 r hr
        rw [(lr (r+1) (by omega) (by omega)).2.2.1, (lr ((p:Int)+1-r) (by omega) (by omega)).1] at this
        have e5 : U (i+((r:Int)+1)) - u + (u - U (i+1-((p:Int)+1-r))) = U (i+r+1) - U (i+1-((p:Int)+1)+r) := by
          rw [show i+((r:Int)+1) = i+r+1 by ring, show i+1-((p:Int)+1-r) = i+1-((p:Int)+1)+r by ring]; ring
        rw [e5] at this
        exact this
      · rw [(k4 b r (by omega) (by omega)).2]
        exact h3 b r (by omega) hr

theorem values_near (R : Rounding ε fl) (fma : Bool) (t0 : Tri K) {p : Nat} {m k : Int} {U : Int → K} {u : K} (hs : SortedKnots m U)
    (hel : IsElement p m U k) (h0 : U k ≤ u) (h1 : u ≤ U (k+1)) (r : Nat) (hr : r ≤ p) :
    Near (1-ε)⁻¹ (6*p) (N U k u p (k-p+r)) (values fl fma t0 k u p U r) := by
  obtain ⟨e1, e2, e3⟩ := hel
  have hk : ∀ a : Int, 1 ≤ a → a ≤ p → U (k+1-a) ≤ u ∧ u ≤ U (k+a) := by
    intro a a0 a1
    have := Ax.sorted_mono hs (i := k+1-a) (j := k) (by omega) (by omega) (by omega)
    have := Ax.sorted_mono hs (i := k+1) (j := k+a) (by omega) (by omega) (by omega)
    constructor <;> linarith
  have h := (jLoop_near R fma (t0 := t0) (t0' := t0) p hk).1 r hr
  rw [(jLoop_spec (k := k) (u := u) (U := U) (t0 := t0) p).1.1 p le_rfl r (by omega) (by omega)] at h
  exact h

/-! ### Products and sums -/

theorem foldl_near (R : Rounding ε fl) : ∀ (l : List (Nat × K × K)), (∀ e ∈ l, Near (1-ε)⁻¹ e.1 e.2.1 e.2.2) → ∀ (k : Nat) (x y : K), Near (1-ε)⁻¹ k x y →
    Near (1-ε)⁻¹ (k + (l.map fun e => e.1 + 1).sum) (l.foldl (fun a e => a * e.2.1) x) (l.foldl (fun a e => fl (a * e.2.2)) y)
  | [], _, k, x, y, h => by simpa using h
  | e :: l, hl, k, x, y, h => by
    have := foldl_near R l (fun e' he => hl e' (List.mem_cons_of_mem _ he)) _ _ _ (near_fl R (near_mul (one_le_inv R) h (hl e List.mem_cons_self)))
    simp only [List.map_cons, List.sum_cons, List.foldl_cons]
    rw [show k + (e.1 + 1 + (l.map fun e => e.1 + 1).sum) = k + e.1 + 1 + (l.map fun e => e.1 + 1).sum by ring]
    exact this

theorem foldl_prod : ∀ (l : List (Nat × K × K)) (x : K), l.foldl (fun a e => a * e.2.1) x = x * (l.map fun e => e.2.1).prod
  | [], x => by simp
  | e :: l, x => by rw [List.foldl_cons, foldl_prod l, List.map_cons, List.prod_cons, mul_assoc]

theorem tensor_near (R : Rounding ε fl) {d : Nat} (k : Fin d → Nat) (x y : Fin d → K) (hn : ∀ i, Near (1-ε)⁻¹ (k i) (x i) (y i)) :
    Near (1-ε)⁻¹ (∑ i, (k i + 1)) (∏ i, x i) (tensor fl (List.ofFn y)) := by
  have hh := one_le_inv R
  cases d with
  | zero => simpa [tensor] using near_self hh 0 zero_le_one
  | succ d =>
    rw [List.ofFn_succ]
    unfold tensor
    rw [Fin.sum_univ_succ, Fin.prod_univ_succ]
    have h := foldl_near R (List.ofFn fun i : Fin d => (k i.succ, x i.succ, y i.succ)) (by
      intro e he
      obtain ⟨i, rfl⟩ := List.mem_ofFn.1 he
      exact hn i.succ) _ _ _ (hn 0)
    rw [foldl_prod, List.map_ofFn, List.map_ofFn, List.prod_ofFn, List.sum_ofFn] at h
    have e : (List.ofFn fun i : Fin d => (k i.succ, x i.succ, y i.succ)).foldl (fun a e => fl (a * e.2.2)) (y 0) =
        (List.ofFn fun i : Fin d => y i.succ).foldl (fun a b => fl (a * b)) (y 0) := by
      rw [show (List.ofFn fun i : Fin d => y i.succ) = (List.ofFn fun i : Fin d => (k i.succ, x i.succ, y i.succ)).map (fun e => e.2.2) by
        rw [List.map_ofFn]; rfl, List.foldl_map]
    rw [e] at h
    exact near_mono hh (by simp only [Function.comp_apply]; omega) h

/-- Every term is added once. -/
def Order.Once {ι : Type} (o : Order ι) : Prop := o.terms.Nodup ∧ ∀ a, a ∈ o.terms

theorem once_sum {ι : Type} [Fintype ι] {o : Order ι} (ho : o.Once) (f : ι → K) : (o.terms.map f).sum = ∑ a, f a := by
  classical
  rw [← List.sum_toFinset f ho.1]
  refine Finset.sum_congr ?_ fun _ _ => rfl
  ext a
  simp [ho.2 a]

theorem sum_near (R : Rounding ε fl) {ι : Type} {k : Nat} {x y : ι → K} (hn : ∀ a, Near (1-ε)⁻¹ k (x a) (y a)) :
    ∀ o : Order ι, Near (1-ε)⁻¹ (k + o.depth) ((o.terms.map x).sum) (sum fl y o)
  | .zero => near_zero (one_le_inv R) _
  | .term a => by simpa [Order.depth, Order.terms, sum] using hn a
  | .add l r => by
    have hh := one_le_inv R
    simp only [Order.depth, Order.terms, sum, List.map_append, List.sum_append]
    rw [← Nat.add_assoc]
    exact near_fl R (near_add hh (near_mono hh (by omega) (sum_near R hn l)) (near_mono hh (by omega) (sum_near R hn r)))
  | .fma l a => by
    have hh := one_le_inv R
    simp only [Order.depth, Order.terms, sum, List.map_append, List.sum_append, List.map_cons, List.map_nil, List.sum_cons, List.sum_nil, add_zero]
    rw [← Nat.add_assoc]
    exact near_fl R (near_add hh (sum_near R hn l) (near_mono hh (by omega) (hn a)))

/-- `y` is `x` up to an error of `k` roundings relative to `b`. -/
def Err (h : K) (k : Nat) (b x y : K) : Prop := |x| ≤ b ∧ |y - x| ≤ (h ^ k - 1) * b

theorem err_mono (hh : 1 ≤ h) {k l : Nat} (hkl : k ≤ l) {b x y : K} (e : Err h k b x y) : Err h l b x y := by
  obtain ⟨e1, e2⟩ := e
  have b0 : 0 ≤ b := (abs_nonneg _).trans e1
  refine ⟨e1, e2.trans ?_⟩
  have := pow_le_pow_right₀ hh hkl
  exact mul_le_mul_of_nonneg_right (by linarith) b0

theorem err_add {k : Nat} {b x y b' x' y' : K} (e : Err h k b x y) (e' : Err h k b' x' y') : Err h k (b + b') (x + x') (y + y') := by
  refine ⟨(abs_add_le _ _).trans (add_le_add e.1 e'.1), ?_⟩
  rw [show y + y' - (x + x') = (y - x) + (y' - x') by ring, mul_add]
  exact (abs_add_le _ _).trans (add_le_add e.2 e'.2)

theorem err_fl (R : Rounding ε fl) {k : Nat} {b x y : K} (e : Err (1-ε)⁻¹ k b x y) : Err (1-ε)⁻¹ (k+1) b x (fl y) := by
  have hh := one_le_inv R
  obtain ⟨e1, e2⟩ := e
  have b0 : 0 ≤ b := (abs_nonneg _).trans e1
  refine ⟨e1, ?_⟩
  have hy : |y| ≤ (1-ε)⁻¹ ^ k * b := by
    have : |y| ≤ |y - x| + |x| := by
      have := abs_add_le (y - x) x
      rwa [sub_add_cancel] at this
    nlinarith
  have h1 := R.err y
  have h2 : |fl y - x| ≤ |fl y - y| + |y - x| := by
    have := abs_add_le (fl y - y) (y - x)
    rwa [sub_add_sub_cancel] at this
  have h3 : ε * |y| ≤ ε * ((1-ε)⁻¹ ^ k * b) := mul_le_mul_of_nonneg_left hy R.nonneg
  have h4 : 1 + ε ≤ (1-ε)⁻¹ := by
    rw [← one_div, le_div_iff₀ (by linarith [R.small])]
    nlinarith [R.nonneg]
  have h5 : 0 ≤ (1-ε)⁻¹ ^ k * b := by positivity
  have h6 := mul_le_mul_of_nonneg_right h4 h5
  rw [pow_succ]
  nlinarith

theorem err_near (hh : 1 ≤ h) {k : Nat} {x y : K} (n : Near h k x y) (c : K) : Err h k (x * |c|) (x * c) (y * c) := by
  obtain ⟨a, b, p, q⟩ := n
  have h1 : 1 ≤ h ^ k := one_le_pow₀ hh
  refine ⟨by rw [abs_mul, abs_of_nonneg a], ?_⟩
  rw [← sub_mul, abs_mul, ← mul_assoc]
  refine mul_le_mul_of_nonneg_right (abs_le.2 ⟨?_, ?_⟩) (abs_nonneg _)
  · have : x ≤ y * h ^ k := p
    by_contra hc
    rw [not_le] at hc
    have h2 : y < x * (2 - h^k) := by linarith
    have h3 : 0 < h^k := by linarith
    have h4 : y * h^k < x * (2 - h^k) * h^k := mul_lt_mul_of_pos_right h2 h3
    nlinarith [mul_nonneg a (mul_self_nonneg (h^k - 1))]
  · linarith

theorem total_err (R : Rounding ε fl) {ι : Type} {k : Nat} {b x y : ι → K} (he : ∀ a, Err (1-ε)⁻¹ k (b a) (x a) (y a)) :
    ∀ o : Order ι, Err (1-ε)⁻¹ (k + 1 + o.depth) ((o.terms.map b).sum) ((o.terms.map x).sum) (total fl y o)
  | .zero => by simp [Err, Order.terms, total]
  | .term a => by simpa [Order.depth, Order.terms, total] using err_fl R (he a)
  | .add l r => by
    have hh := one_le_inv R
    simp only [Order.depth, Order.terms, total, List.map_append, List.sum_append]
    rw [← Nat.add_assoc]
    exact err_fl R (err_add (err_mono hh (by omega) (total_err R he l)) (err_mono hh (by omega) (total_err R he r)))
  | .fma l a => by
    have hh := one_le_inv R
    simp only [Order.depth, Order.terms, total, List.map_append, List.sum_append, List.map_cons, List.map_nil, List.sum_cons, List.sum_nil, add_zero]
    rw [← Nat.add_assoc]
    exact err_fl R (err_add (total_err R he l) (err_mono hh (by omega) (he a)))

theorem rational_near (R : Rounding ε fl) {ι : Type} [Fintype ι] {k : Nat} {w x y : ι → K} (hw : ∀ a, 0 ≤ w a) (hn : ∀ a, Near (1-ε)⁻¹ k (x a) (y a))
    {o : Order ι} (ho : o.Once) (a : ι) :
    Near (1-ε)⁻¹ (2 * (k + 1) + o.depth + 1) (w a * x a / ∑ b, w b * x b) (rational fl o w y a) := by
  have hh := one_le_inv R
  have h1 : ∀ b, Near (1-ε)⁻¹ (k + 1) (w b * x b) (fl (w b * y b)) := fun b => by
    have := near_fl R (near_mul hh (near_self hh 0 (hw b)) (hn b))
    rwa [Nat.zero_add] at this
  have h2 := sum_near R h1 o
  rw [once_sum ho] at h2
  have := near_fl R (near_div hh (h1 a) h2)
  exact near_mono hh (by omega) this

theorem value_err (R : Rounding ε fl) {ι : Type} [Fintype ι] {k : Nat} {x y : ι → K} (hn : ∀ a, Near (1-ε)⁻¹ k (x a) (y a)) (h1 : ∑ a, x a = 1)
    {o : Order ι} (ho : o.Once) {c : ι → K} {M : K} (hM : ∀ a, |c a| ≤ M) :
    |value fl o y c - ∑ a, x a * c a| ≤ ((1-ε)⁻¹ ^ (k + 1 + o.depth) - 1) * M := by
  have hh := one_le_inv R
  have h := total_err R (fun a => err_near hh (hn a) (c a)) o
  rw [once_sum ho, once_sum ho] at h
  refine h.2.trans ?_
  have hp := one_le_pow₀ hh (n := k + 1 + o.depth)
  refine mul_le_mul_of_nonneg_left ?_ (by linarith)
  calc ∑ a, x a * |c a| ≤ ∑ a, x a * M := Finset.sum_le_sum fun a _ => mul_le_mul_of_nonneg_left (hM a) (hn a).1
    _ = M := by rw [← Finset.sum_mul, h1, one_mul]

end PetIGA.Flt
