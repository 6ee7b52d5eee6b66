import Verif.Props.Float
import Verif.Props.FloatBinary
import Mathlib.Algebra.BigOperators.Field
/-
Floating-point evaluation of basis functions, NURBS and fields (C110).
-/
set_option linter.unusedSectionVars false
namespace PetIGA.Flt
open PetIGA.Bsp PetIGA.Spec

variable {K : Type} [Field K] [LinearOrder K] [IsStrictOrderedRing K] {ε : K} {fl : K → K}

/-- **C110**, B-splines: the values computed in floating-point are those of the Cox–de Boor recursion up to `6p` roundings,
relatively: in particular they are not negative, and positive where the function is. -/
theorem C110_values (R : Rounding ε fl) (fma : Bool) (mem : Tri K) {p : Nat} {m k : Int} {U : Int → K} {u : K} (hs : SortedKnots m U)
    (hel : IsElement p m U k) (h0 : U k ≤ u) (h1 : u < U (k+1)) (r : Nat) (hr : r ≤ p) :
    (1 - ε) ^ (6*p) * bspline U p (k-p+r) u ≤ values fl fma mem k u p U r ∧
    values fl fma mem k u p U r ≤ bspline U p (k-p+r) u / (1 - ε) ^ (6*p) ∧ 0 ≤ values fl fma mem k u p U r := by
  obtain ⟨a, b, c, d⟩ := values_near R fma mem hs hel h0 h1.le r hr
  have e : bspline U p (k-p+r) u = N U k u p (k-p+r) :=
    piece_eval hs (by have := hel.1; omega) (by have := hel.2.1; omega) h0 h1 p _ (by have := hel.1; omega) (by have := hel.2.1; omega)
  rw [e]
  have q : 0 < (1 - ε) ^ (6*p) := pow_pos (by linarith [R.small]) _
  rw [inv_pow] at c d
  refine ⟨?_, ?_, b⟩
  · rw [mul_comm, ← le_div_iff₀ q, div_eq_mul_inv]; exact c
  · rw [div_eq_mul_inv]; exact d

/-- **C110**, no division by zero: the divisors of the computation, all of them, are positive. -/
theorem C110_divisors (R : Rounding ε fl) (fma : Bool) (mem : Tri K) {p : Nat} {m k : Int} {U : Int → K} {u : K} (hs : SortedKnots m U)
    (hel : IsElement p m U k) (h0 : U k ≤ u) (h1 : u ≤ U (k+1)) (j r : Nat) (hj : j ≤ p) (hr : r < j) :
    0 < (jLoop fl fma k u U mem p).ndu j r := by
  obtain ⟨e1, e2, e3⟩ := hel
  have hk : ∀ a : Int, 1 ≤ a → a ≤ p → U (k+1-a) ≤ u ∧ u ≤ U (k+a) := by
    intro a a0 a1
    have := Ax.sorted_mono hs (i := k+1-a) (j := k) (by omega) (by omega) (by omega)
    have := Ax.sorted_mono hs (i := k+1) (j := k+a) (by omega) (by omega) (by omega)
    constructor <;> linarith
  obtain ⟨a, b, c, d⟩ := (jLoop_near R fma (t0 := mem) (t0' := mem) p hk).2.2 j r hj hr
  have g1 := Ax.sorted_mono hs (i := k+1-j+r) (j := k) (by omega) (by omega) (by omega)
  have g2 := Ax.sorted_mono hs (i := k+1) (j := k+r+1) (by omega) (by omega) (by omega)
  rcases eq_or_lt_of_le b with e | e
  · rw [← e, zero_mul] at c
    linarith
  · exact e

/-- **C110**, partition of unity up to rounding. -/
theorem C110_unity (R : Rounding ε fl) (fma : Bool) (mem : Tri K) {p : Nat} {m k : Int} {U : Int → K} {u : K} (hs : SortedKnots m U)
    (hel : IsElement p m U k) (h0 : U k ≤ u) (h1 : u ≤ U (k+1)) :
    (1 - ε) ^ (6*p) ≤ ∑ r ∈ Finset.range (p+1), values fl fma mem k u p U r ∧
    ∑ r ∈ Finset.range (p+1), values fl fma mem k u p U r ≤ 1 / (1 - ε) ^ (6*p) := by
  have hsep : Sep U k p := sep_of_sorted hs hel.1 (by have := hel.2.1; omega) hel.2.2
  have hsum : ∑ r ∈ Finset.range (p+1), N U k u p (k-p+r) = 1 := by
    have := congrArg (Polynomial.eval u) (piece_sum U k p hsep)
    rw [Polynomial.eval_finset_sum, Polynomial.eval_one] at this
    exact this
  have hn : ∀ r ∈ Finset.range (p+1), Near (1-ε)⁻¹ (6*p) (N U k u p (k-p+r)) (values fl fma mem k u p U r) := fun r hr =>
    values_near R fma mem hs hel h0 h1 r (by have := Finset.mem_range.1 hr; omega)
  have q : 0 < (1 - ε) ^ (6*p) := pow_pos (by linarith [R.small]) _
  constructor
  · have h := Finset.sum_le_sum fun r hr => (hn r hr).2.2.1
    rw [hsum, ← Finset.sum_mul, inv_pow, ← div_eq_mul_inv, le_div_iff₀ q, one_mul] at h
    exact h
  · have h := Finset.sum_le_sum fun r hr => (hn r hr).2.2.2
    rw [← Finset.sum_mul, hsum, inv_pow, one_mul] at h
    rwa [one_div]

/-- An element of a tensor-product mesh and a point of it: per direction the degree, the knots, the interval and the
parameter, and the memory found by the routine. -/
structure At (K : Type) (d : Nat) where
  p : Fin d → Nat
  m : Fin d → Int
  k : Fin d → Int
  U : Fin d → Int → K
  u : Fin d → K
  mem : Fin d → Tri K

/-- The point lies in the element. -/
def At.Ok {d : Nat} (A : At K d) : Prop := ∀ i, SortedKnots (A.m i) (A.U i) ∧ IsElement (A.p i) (A.m i) (A.U i) (A.k i) ∧
  A.U i (A.k i) ≤ A.u i ∧ A.u i < A.U i (A.k i + 1)

/-- The functions of the element. -/
abbrev At.Idx {d : Nat} (A : At K d) : Type := (i : Fin d) → Fin (A.p i + 1)

/-- The exact value of a function at the point. -/
def At.exact {d : Nat} (A : At K d) (a : A.Idx) : K := ∏ i, bspline (A.U i) (A.p i) (A.k i - A.p i + (a i).val) (A.u i)

/-- The computed value. -/
def At.computed {d : Nat} (A : At K d) (fl : K → K) (fma : Bool) (a : A.Idx) : K :=
  tensor fl (List.ofFn fun i => values fl fma (A.mem i) (A.k i) (A.u i) (A.p i) (A.U i) (a i).val)

/-- The number of roundings. -/
def At.count {d : Nat} (A : At K d) : Nat := ∑ i, (6 * A.p i + 1)

theorem at_near (R : Rounding ε fl) (fma : Bool) {d : Nat} {A : At K d} (hA : A.Ok) (a : A.Idx) :
    Near (1-ε)⁻¹ A.count (A.exact a) (A.computed fl fma a) := by
  refine tensor_near R (fun i => 6 * A.p i) _ _ ?_
  intro i
  obtain ⟨hs, hel, h0, h1⟩ := hA i
  have := values_near R fma (A.mem i) hs hel h0 h1.le (a i).val (by have := (a i).isLt; omega)
  rw [show N (A.U i) (A.k i) (A.u i) (A.p i) (A.k i - A.p i + (a i).val) = bspline (A.U i) (A.p i) (A.k i - A.p i + (a i).val) (A.u i) from
    (piece_eval hs (by have := hel.1; omega) (by have := hel.2.1; omega) h0 h1 (A.p i) _ (by have := hel.1; omega)
      (by have := hel.2.1; have := (a i).isLt; omega)).symm] at this
  exact this

theorem at_unity {d : Nat} {A : At K d} (hA : A.Ok) : ∑ a, A.exact a = 1 := by
  have h1 : ∀ i, ∑ j : Fin (A.p i + 1), bspline (A.U i) (A.p i) (A.k i - A.p i + j.val) (A.u i) = 1 := by
    intro i
    obtain ⟨hs, hel, h0, h1⟩ := hA i
    have hsep : Sep (A.U i) (A.k i) (A.p i) := sep_of_sorted hs hel.1 (by have := hel.2.1; omega) hel.2.2
    have := congrArg (Polynomial.eval (A.u i)) (piece_sum (A.U i) (A.k i) (A.p i) hsep)
    rw [Polynomial.eval_finset_sum, Polynomial.eval_one, Finset.sum_range] at this
    rw [← this]
    refine Finset.sum_congr rfl fun j _ => ?_
    exact piece_eval hs (by have := hel.1; omega) (by have := hel.2.1; omega) h0 h1 (A.p i) _ (by have := hel.1; omega)
      (by have := hel.2.1; have := j.isLt; omega)
  unfold At.exact
  rw [← Fintype.prod_sum (fun i (j : Fin (A.p i + 1)) => bspline (A.U i) (A.p i) (A.k i - A.p i + j.val) (A.u i))]
  exact Finset.prod_eq_one fun i _ => h1 i

/-- **C110**, fields: in any dimension the computed value of a field at a point of an element differs from the exact one
by at most the roundings times the largest coefficient, in whatever order the compiler adds up. -/
theorem C110_field (R : Rounding ε fl) (fma : Bool) {d : Nat} {A : At K d} (hA : A.Ok) {o : Order A.Idx} (ho : o.Once)
    {c : A.Idx → K} {M : K} (hM : ∀ a, |c a| ≤ M) :
    |value fl o (A.computed fl fma) c - ∑ a, A.exact a * c a| ≤ (1 / (1-ε) ^ (A.count + 1 + o.depth) - 1) * M := by
  have := value_err R (at_near R fma hA) (at_unity hA) ho hM
  rwa [inv_pow, ← one_div] at this

/-- **C110**, NURBS: the computed rational functions have a small relative error, and fields made of them an error as in
`C110_field`. -/
theorem C110_nurbs (R : Rounding ε fl) (fma : Bool) {d : Nat} {A : At K d} (hA : A.Ok) {o o' : Order A.Idx} (ho : o.Once) (ho' : o'.Once)
    {w : A.Idx → K} (hw : ∀ a, 0 < w a) {c : A.Idx → K} {M : K} (hM : ∀ a, |c a| ≤ M) :
    (0 < ∑ b, w b * A.exact b) ∧ (0 < sum fl (fun b => fl (w b * A.computed fl fma b)) o) ∧
    (∀ a, (1-ε) ^ (2 * (A.count + 1) + o.depth + 1) * (w a * A.exact a / ∑ b, w b * A.exact b) ≤ rational fl o w (A.computed fl fma) a ∧
      rational fl o w (A.computed fl fma) a ≤ (w a * A.exact a / ∑ b, w b * A.exact b) / (1-ε) ^ (2 * (A.count + 1) + o.depth + 1)) ∧
    |value fl o' (rational fl o w (A.computed fl fma)) c - (∑ a, w a * A.exact a * c a) / ∑ b, w b * A.exact b| ≤
      (1 / (1-ε) ^ (2 * (A.count + 1) + o.depth + 1 + 1 + o'.depth) - 1) * M := by
  have hh := one_le_inv R
  have hn := at_near R fma hA
  have h1 := at_unity hA
  have hW : 0 < ∑ b, w b * A.exact b := by
    obtain ⟨a, -, ha⟩ : ∃ a ∈ (Finset.univ : Finset A.Idx), 0 < A.exact a := by
      by_contra hc
      push Not at hc
      have : ∑ a, A.exact a ≤ 0 := Finset.sum_nonpos hc
      linarith
    exact Finset.sum_pos' (fun b _ => mul_nonneg (hw b).le (hn b).1) ⟨a, Finset.mem_univ _, mul_pos (hw a) ha⟩
  have hr := rational_near R (fun a => (hw a).le) hn ho
  refine ⟨hW, ?_, ?_, ?_⟩
  · have h2 : ∀ b, Near (1-ε)⁻¹ (A.count + 1) (w b * A.exact b) (fl (w b * A.computed fl fma b)) := fun b => by
      have := near_fl R (near_mul hh (near_self hh 0 (hw b).le) (hn b))
      rwa [Nat.zero_add] at this
    obtain ⟨a, b, c, d⟩ := sum_near R h2 o
    rw [once_sum ho] at a c d
    rcases eq_or_lt_of_le b with e | e
    · rw [← e, zero_mul] at c
      linarith
    · exact e
  · intro a
    obtain ⟨-, -, c, d⟩ := hr a
    have q : 0 < (1 - ε) ^ (2 * (A.count + 1) + o.depth + 1) := pow_pos (by linarith [R.small]) _
    rw [inv_pow] at c d
    constructor
    · rw [mul_comm, ← le_div_iff₀ q, div_eq_mul_inv _ ((1-ε)^_)]; exact c
    · rw [div_eq_mul_inv _ ((1-ε)^_)]; exact d
  · have h3 : ∑ a, w a * A.exact a / ∑ b, w b * A.exact b = 1 := by
      rw [← Finset.sum_div, div_self hW.ne']
    have := value_err R hr h3 ho' hM
    rw [inv_pow, ← one_div] at this
    rw [Finset.sum_div]
    rw [show ∑ a, w a * A.exact a * c a / ∑ b, w b * A.exact b = ∑ a, w a * A.exact a / (∑ b, w b * A.exact b) * c a from
      Finset.sum_congr rfl fun a _ => by rw [div_mul_eq_mul_div]]
    exact this

/-! ### The loops of the code, and the exact model -/

theorem loop_terms {ι : Type} (fma : Bool) (as : List ι) : ∀ o : Order ι,
    (as.foldl (fun t a => if fma then .fma t a else .add t (.term a)) o).terms = o.terms ++ as ∧
    (as.foldl (fun t a => if fma then .fma t a else .add t (.term a)) o).depth = o.depth + as.length := by
  induction as with
  | nil => intro o; simp
  | cons a as ih =>
    intro o
    obtain ⟨x, y⟩ := ih (if fma then .fma o a else .add o (.term a))
    simp only [List.foldl_cons]
    rw [x, y]
    cases fma
    · refine ⟨by simp [Order.terms], ?_⟩
      simp only [Bool.false_eq_true, if_false, Order.depth, List.length_cons, Nat.max_zero]
      omega
    · refine ⟨by simp [Order.terms], ?_⟩
      simp only [if_true, Order.depth, List.length_cons]
      omega

/-- The loop over the functions, in whatever order it visits them, adds every term once and each of them goes through at most as many
additions as there are functions. -/
theorem loop_once {ι : Type} (fma : Bool) {as : List ι} (hn : as.Nodup) (ha : ∀ a, a ∈ as) : (Order.loop fma as).Once ∧ (Order.loop fma as).depth = as.length := by
  obtain ⟨x, y⟩ := loop_terms fma as .zero
  refine ⟨⟨?_, ?_⟩, ?_⟩
  · unfold Order.loop; rw [x]; simpa [Order.terms] using hn
  · intro a; unfold Order.loop; rw [x]; simpa [Order.terms] using ha a
  · unfold Order.loop; rw [y]; simp [Order.depth]

theorem rLoop_id (fma : Bool) (left right : Int → K) (j : Int) : ∀ (n : Nat) (s), rLoop id fma left right j n s = Bsp.rLoop left right j n s
  | 0, _ => rfl
  | n+1, s => by simp only [rLoop, Bsp.rLoop, rLoop_id fma left right j n s, addMul, id, ite_self]

/-- Without rounding the model is the one of C11. -/
theorem jLoop_id (fma : Bool) (i : Int) (uu : K) (U : Int → K) (t0 : Tri K) : ∀ n, jLoop id fma i uu U t0 n = Bsp.jLoop i uu U t0 n
  | 0 => rfl
  | n+1 => by simp only [jLoop, Bsp.jLoop, jLoop_id fma i uu U t0 n, rLoop_id, id]

/-! ### Examples -/

/-- Double precision. -/
example : Rounding ((1/2)^53) (binary 52) := binary_rounding 52

/-- Quadratic functions on two elements. -/
def exKnots (i : Int) : ℚ := if i ≤ 2 then 0 else if i ≤ 3 then 1/3 else 1

theorem exKnots_ok : SortedKnots 6 exKnots ∧ IsElement 2 6 exKnots 2 ∧ IsElement 2 6 exKnots 3 := by
  refine ⟨?_, by unfold IsElement; decide +kernel, by unfold IsElement; decide +kernel⟩
  intro i h0 h1
  have : ∀ j ∈ List.range 7, ∀ h : j + 1 ≤ 6, exKnots (j:Int) ≤ exKnots ((j:Int)+1) := by decide +kernel
  have := this i.toNat (by simp; omega) (by omega)
  rwa [show ((i.toNat : Nat) : Int) = i by omega] at this

/-- The hypotheses of `C110_values` and `C110_unity` hold and the rounding shows: the middle function on `[1/3, 1]` at `0.7`. -/
example : ∃ u : ℚ, binary 52 u = u ∧ exKnots 3 ≤ u ∧ u < exKnots 4 ∧
    values (binary 52) false ⟨fun _ _ => 0, fun _ => 0, fun _ => 0⟩ 3 u 2 exKnots 1 ≠ bspline exKnots 2 (3-2+1) u := by
  refine ⟨binary 52 (7/10), by decide +kernel, by decide +kernel, by decide +kernel, ?_⟩
  decide +kernel

/-- A point of a two-dimensional mesh. -/
def exAt : At ℚ 2 where
  p := fun _ => 2
  m := fun _ => 6
  k := fun i => if i = 0 then 2 else 3
  U := fun _ => exKnots
  u := fun i => if i = 0 then 1/4 else 3/4
  mem := fun _ => ⟨fun _ _ => 7, fun _ => 7, fun _ => 7⟩

example : exAt.Ok := by
  intro i
  refine ⟨exKnots_ok.1, ?_, ?_, ?_⟩
  · match i with
    | 0 => exact exKnots_ok.2.1
    | 1 => exact exKnots_ok.2.2
  · match i with
    | 0 => decide +kernel
    | 1 => decide +kernel
  · match i with
    | 0 => decide +kernel
    | 1 => decide +kernel

/-- The bound of `C110_field` for double precision and the loop of `IGA_GetValue`: for quadratic functions in two dimensions less than
`4.1e-15` times the largest coefficient. -/
example : exAt.count + 1 + 9 = 36 ∧ (1 / (1 - (1/2 : ℚ)^53) ^ 36 - 1) < 41/10^16 := by decide +kernel

end PetIGA.Flt
