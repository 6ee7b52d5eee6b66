import Verif.Model.Lagrange
import Mathlib.LinearAlgebra.Lagrange
import Mathlib.Tactic.Linarith
import Mathlib.Tactic.FieldSimp
import Mathlib.Tactic.Ring
import Mathlib.Tactic.IntervalCases
/-! Property theorems about the Lagrange and spectral kernels (C14). -/
set_option linter.unusedSectionVars false
namespace PetIGA.Lag
open Polynomial PetIGA.Bsp

variable {K : Type} [Field K]

/-- Indices not skipped. -/
def kept (p : Nat) (skip : List Int) : Finset Nat := (Finset.range p).filter (fun i => (i:Int) ∉ skip)

/-- The product of the linear factors not skipped. -/
noncomputable def P (p : Nat) (X : Int → K) (m : Int) (skip : List Int) : K[X] :=
  ∏ i ∈ kept (p+1) skip, Lagrange.basisDivisor (X m) (X i)

/-- The nesting of the loops to any depth `t`. -/
def entry (xx : K) (p : Nat) (X : Int → K) (m : Int) : Nat → List Int → K
  | 0, skip => prodLoop xx X m skip (p+1)
  | t+1, skip => sumLoop X m skip (fun j => entry xx p X m t (skip ++ [j])) (p+1)

theorem prodLoop_eq (xx : K) (X : Int → K) (m : Int) (skip : List Int) : ∀ c : Nat,
    prodLoop xx X m skip c = ∏ i ∈ kept c skip, (Lagrange.basisDivisor (X m) (X i)).eval xx
  | 0 => by simp [prodLoop, kept]
  | c+1 => by
    unfold prodLoop kept
    dsimp only
    rw [Finset.range_add_one, Finset.filter_insert, prodLoop_eq xx X m skip c]
    by_cases h : (c:Int) ∈ skip
    · rw [if_pos h, if_neg (not_not.2 h)]; rfl
    · rw [if_neg h, if_pos h, Finset.prod_insert (by simp)]
      unfold kept Lagrange.basisDivisor
      simp only [eval_mul, eval_C, eval_sub, eval_X]
      rw [div_eq_mul_inv]; ring

theorem sumLoop_eq (X : Int → K) (m : Int) (skip : List Int) (f : Int → K) : ∀ c : Nat,
    sumLoop X m skip f c = ∑ j ∈ kept c skip, f j / (X m - X j)
  | 0 => by simp [sumLoop, kept]
  | c+1 => by
    unfold sumLoop kept
    dsimp only
    rw [Finset.range_add_one, Finset.filter_insert, sumLoop_eq X m skip f c]
    by_cases h : (c:Int) ∈ skip
    · rw [if_pos h, if_neg (not_not.2 h)]; rfl
    · rw [if_neg h, if_pos h, Finset.sum_insert (by simp), add_comm]
      rfl

theorem kept_erase (p : Nat) (skip : List Int) (a : Nat) : (kept p skip).erase a = kept p (skip ++ [(a:Int)]) := by
  ext i
  unfold kept
  simp only [Finset.mem_erase, Finset.mem_filter, Finset.mem_range, List.mem_append, List.mem_singleton]
  constructor
  · rintro ⟨h1, h2, h3⟩; exact ⟨h2, fun h => h.elim h3 (fun h => h1 (by omega))⟩
  · rintro ⟨h2, h3⟩
    exact ⟨fun h => h3 (Or.inr (by omega)), h2, fun h => h3 (Or.inl h)⟩

theorem entry_eq (xx : K) (p : Nat) (X : Int → K) (m : Int) : ∀ (t : Nat) (skip : List Int),
    entry xx p X m t skip = (derivative^[t] (P p X m skip)).eval xx
  | 0, skip => by
    unfold entry P
    rw [prodLoop_eq, Function.iterate_zero, id, eval_prod]
  | t+1, skip => by
    unfold entry
    rw [sumLoop_eq, Function.iterate_succ_apply, P, derivative_prod_finset, iterate_derivative_sum,
      eval_finset_sum]
    refine Finset.sum_congr rfl (fun a _ => ?_)
    rw [entry_eq xx p X m t _, kept_erase]
    have : derivative (Lagrange.basisDivisor (X m) (X (a:Int))) = C (X m - X (a:Int))⁻¹ := by
      unfold Lagrange.basisDivisor
      simp
    rw [this, mul_comm (∏ b ∈ _, _), iterate_derivative_C_mul, eval_mul, eval_C, div_eq_mul_inv, mul_comm]
    rfl

theorem P_basis (p : Nat) (X : Int → K) (m : Nat) :
    P p X m [(m:Int)] = Lagrange.basis (Finset.range (p+1)) (fun i => X i) m := by
  unfold P Lagrange.basis
  refine Finset.prod_congr ?_ (fun _ _ => rfl)
  ext i
  unfold kept
  simp only [Finset.mem_erase, Finset.mem_filter, Finset.mem_range, List.mem_singleton]
  omega

/-- **C14** (orders 0..3): for every set of nodes `X 0 … X p`, every degree, every `u`, the entries of
the table are the Lagrange basis polynomials and their derivatives of order up to three. -/
theorem C14_rows_0_to_3 (p : Nat) (d : Int) (X : Int → K) (u : K) (B0 : Int → Int → K) (m t : Nat)
    (hm : m ≤ p) (ht : t ≤ 3) (htd : t ≤ d ∨ t = 0) :
    funsDers u p d X B0 t m =
      (derivative^[t] (Lagrange.basis (Finset.range (p+1)) (fun i => X i) m)).eval u := by
  rw [← P_basis, ← entry_eq]
  unfold funsDers
  rw [if_pos (by omega)]
  have : t = 0 ∨ t = 1 ∨ t = 2 ∨ t = 3 := by omega
  rcases this with rfl | rfl | rfl | rfl
  · rfl
  · rw [if_neg (by decide), if_pos (⟨rfl, by simpa using htd⟩)]; rfl
  · rw [if_neg (by decide), if_neg (by simp), if_pos (⟨rfl, by simpa using htd⟩)]; rfl
  · rw [if_neg (by decide), if_neg (by simp), if_neg (by simp), if_pos (⟨rfl, by simpa using htd⟩)]; rfl

/-- **C14**: with distinct nodes the basis is cardinal and sums to one. -/
theorem C14_cardinal (p : Nat) (d : Int) (X : Int → K) (B0 : Int → Int → K)
    (hX : ∀ i j : Nat, i ≤ p → j ≤ p → X i = X j → i = j) :
    (∀ m j : Nat, m ≤ p → j ≤ p → funsDers (X j) p d X B0 0 m = if j = m then 1 else 0) ∧
    (∀ u : K, ∑ m ∈ Finset.range (p+1), funsDers u p d X B0 0 m = 1) := by
  have hinj : Set.InjOn (fun i : Nat => X i) (Finset.range (p+1)) := by
    intro i hi j hj h
    simp only [Finset.coe_range, Set.mem_Iio] at hi hj
    exact hX i j (by omega) (by omega) h
  have hv : ∀ (u : K) (m : Nat), m ≤ p → funsDers u p d X B0 0 m =
      (Lagrange.basis (Finset.range (p+1)) (fun i : Nat => X i) m).eval u := by
    intro u m hm
    have := C14_rows_0_to_3 p d X u B0 m 0 hm (by omega) (Or.inr rfl)
    simpa using this
  constructor
  · intro m j hm hj
    rw [hv _ m hm]
    by_cases h : j = m
    · subst h; rw [if_pos rfl]
      exact Lagrange.eval_basis_self (v := fun i : Nat => X i) hinj (Finset.mem_range.2 (by omega))
    · rw [if_neg h]
      exact Lagrange.eval_basis_of_ne (v := fun i : Nat => X i) (fun h' => h h'.symm)
        (Finset.mem_range.2 (by omega))
  · intro u
    rw [Finset.sum_congr rfl (fun m hm => hv u m (by have := Finset.mem_range.1 hm; omega)),
      ← eval_finset_sum, Lagrange.sum_basis hinj ⟨0, by simp⟩, eval_one]

variable [LinearOrder K] [IsStrictOrderedRing K]

/-- **C14**: the nodes of the Lagrange basis are strictly increasing and include both ends of the
element. -/
theorem C14_newton_cotes_nodes (p : Nat) (hp : 1 ≤ p) (U0 U1 : K) (h : U0 < U1) :
    (∀ i j : Nat, i < j → newtonCotes ((p:Int)+1) U0 U1 i < newtonCotes ((p:Int)+1) U0 U1 j) ∧
    newtonCotes ((p:Int)+1) U0 U1 0 = U0 ∧ newtonCotes ((p:Int)+1) U0 U1 p = U1 := by
  have hp' : (0:K) < (p:K) := by exact_mod_cast hp
  have e : (((p:Int)+1-1 : Int) : K) = (p:K) := by push_cast; ring
  unfold newtonCotes
  rw [e]
  refine ⟨fun i j hij => ?_, by simp, ?_⟩
  · have hij' : (i:K) < (j:K) := by exact_mod_cast hij
    push_cast
    have : (U1 - U0) * (i:K) < (U1 - U0) * (j:K) := mul_lt_mul_of_pos_left hij' (by linarith)
    have := div_lt_div_of_pos_right this hp'
    linarith
  · push_cast; field_simp; ring

/-- **C14** for the Lagrange basis of the library: cardinal at equispaced nodes, values sum to one. -/
theorem C14_lagrange (k : Int) (p : Nat) (hp : 1 ≤ p) (d : Int) (U : Int → K) (B0 : Int → Int → K)
    (hk : U k < U (k+1)) :
    (∀ m j : Nat, m ≤ p → j ≤ p →
      basisLagrange k (U k + (U (k+1) - U k) * (j:K) / (p:K)) p d U B0 0 m = if j = m then 1 else 0) ∧
    (∀ u, ∑ m ∈ Finset.range (p+1), basisLagrange k u p d U B0 0 m = 1) := by
  obtain ⟨h1, h2, h3⟩ := C14_newton_cotes_nodes p hp (U k) (U (k+1)) hk
  have hX : ∀ i j : Nat, i ≤ p → j ≤ p → newtonCotes ((p:Int)+1) (U k) (U (k+1)) i =
      newtonCotes ((p:Int)+1) (U k) (U (k+1)) j → i = j := by
    intro i j _ _ he
    rcases lt_trichotomy i j with h | h | h
    · exact absurd he (ne_of_lt (h1 i j h))
    · exact h
    · exact absurd he.symm (ne_of_lt (h1 j i h))
  unfold basisLagrange
  obtain ⟨a, b⟩ := C14_cardinal p d _ (fun _ _ => 0) hX
  refine ⟨fun m j hm hj => ?_, fun u => ?_⟩
  · rw [← a m j hm hj, if_neg (by omega)]
    congr 1
    unfold newtonCotes; push_cast; ring
  · rw [← b u]
    refine Finset.sum_congr rfl (fun m _ => ?_)
    rw [if_neg (by omega)]

theorem lobattoRef_lt : ∀ p : Nat, 1 ≤ p → p ≤ 9 → ∀ i : Nat, i < p →
    lobattoRef (p+1) i < lobattoRef (p+1) ((i:Int)+1) := by
  intro p h1 h2 i hi
  interval_cases p <;> interval_cases i <;> decide +kernel

theorem lobattoRef_ends : ∀ p : Nat, 1 ≤ p → p ≤ 9 → lobattoRef (p+1) 0 = -1 ∧ lobattoRef (p+1) p = 1 := by
  intro p h1 h2
  interval_cases p <;> decide +kernel

/-- **C14**: up to degree 9 the spectral nodes are strictly increasing and include both ends. -/
theorem C14_lobatto_nodes (p : Nat) (hp : 1 ≤ p) (hp9 : p ≤ 9) (U0 U1 : K) (h : U0 < U1) :
    (∀ i j : Nat, i < j → j ≤ p → gaussLobatto (p+1) U0 U1 i < gaussLobatto (p+1) U0 U1 j) ∧
    gaussLobatto (p+1) U0 U1 0 = U0 ∧ gaussLobatto (p+1) U0 U1 p = U1 := by
  have hmono : ∀ i j : Nat, i < j → j ≤ p → lobattoRef (p+1) i < lobattoRef (p+1) j := by
    intro i j hij
    induction j with
    | zero => omega
    | succ j ih =>
      intro hj
      have := lobattoRef_lt p hp hp9 j (by omega)
      rcases Nat.lt_succ_iff_lt_or_eq.1 hij with h' | h'
      · exact lt_trans (ih h' (by omega)) (by exact_mod_cast this)
      · subst h'; exact_mod_cast this
  obtain ⟨e0, e1⟩ := lobattoRef_ends p hp hp9
  unfold gaussLobatto
  refine ⟨fun i j hij hj => ?_, ?_, ?_⟩
  · have : ((lobattoRef (p+1) i : Rat) : K) < ((lobattoRef (p+1) j : Rat) : K) := by
      exact_mod_cast hmono i j hij hj
    have h2 : ((lobattoRef (p+1) i : Rat) + 1 : K) * (U1 - U0) < ((lobattoRef (p+1) j : Rat) + 1 : K) * (U1 - U0) :=
      mul_lt_mul_of_pos_right (by linarith) (by linarith)
    linarith
  · rw [e0]; push_cast; ring
  · rw [e1]; push_cast; ring

/-- **C14** for the spectral basis of the library, degree 1..9. -/
theorem C14_spectral_partial (k : Int) (p : Nat) (hp : 1 ≤ p) (hp9 : p ≤ 9) (d : Int) (U : Int → K)
    (B0 : Int → Int → K) (hk : U k < U (k+1)) :
    (∀ m j : Nat, m ≤ p → j ≤ p → basisSpectral k (gaussLobatto (p+1) (U k) (U (k+1)) j) p d U B0 0 m =
      if j = m then 1 else 0) ∧
    (∀ u, ∑ m ∈ Finset.range (p+1), basisSpectral k u p d U B0 0 m = 1) := by
  obtain ⟨h1, h2, h3⟩ := C14_lobatto_nodes p hp hp9 (U k) (U (k+1)) hk
  have hX : ∀ i j : Nat, i ≤ p → j ≤ p → gaussLobatto (p+1) (U k) (U (k+1)) i =
      gaussLobatto (p+1) (U k) (U (k+1)) j → i = j := by
    intro i j hi hj he
    rcases lt_trichotomy i j with h | h | h
    · exact absurd he (ne_of_lt (h1 i j h hj))
    · exact h
    · exact absurd he.symm (ne_of_lt (h1 j i h hi))
  obtain ⟨a, b⟩ := C14_cardinal p d _ (fun _ _ => 0) hX
  unfold basisSpectral
  refine ⟨fun m j hm hj => by rw [← a m j hm hj, if_neg (by omega)], fun u => ?_⟩
  rw [← b u]
  exact Finset.sum_congr rfl (fun m _ => by rw [if_neg (by omega)])

/-- **C14 is false for order 4**: for a quartic Lagrange basis the library requests four derivatives and
stores 0 in row 4, but the fourth derivative of the first basis polynomial is 1. -/
theorem C14_order_4_refuted :
    ∃ (U : Int → Rat) (u : Rat), ∀ B0,
      basisLagrange 0 u 4 4 U B0 4 0 = 0 ∧
      (derivative^[4] (Lagrange.basis (Finset.range 5) (fun i : Nat => newtonCotes 5 (U 0) (U 1) i) 0)).eval u = 1 := by
  refine ⟨fun i => 4*i, 0, fun B0 => ⟨by unfold basisLagrange; rw [if_neg (by decide)]; decide +kernel, ?_⟩⟩
  rw [← P_basis 4 (newtonCotes 5 _ _) 0, ← entry_eq]
  decide +kernel

/-- **C14 is false for the spectral basis from degree 10 on**: all nodes coincide. -/
theorem C14_spectral_degree_10_refuted (p : Nat) (hp : 10 ≤ p) (U0 U1 : K) (i j : Int) :
    gaussLobatto (p+1) U0 U1 i = gaussLobatto (p+1) U0 U1 j := by
  have : lobattoTable (p+1) = none := by
    unfold lobattoTable
    split <;> first | omega | rfl
  unfold gaussLobatto lobattoRef
  rw [this]

/-- Non-vacuity: quadratic Lagrange basis on `[1,3]`. -/
example : basisLagrange 1 (2:Rat) 2 2 (fun i => 2*i-1) (fun _ _ => 7) 0 1 = 1 ∧
    basisLagrange 1 (2:Rat) 2 2 (fun i => 2*i-1) (fun _ _ => 7) 1 2 = 1/2 ∧
    basisLagrange 1 (2:Rat) 2 2 (fun i => 2*i-1) (fun _ _ => 7) 2 1 = -2 := by decide +kernel

end PetIGA.Lag
