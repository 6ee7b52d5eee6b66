import Verif.Model.DemoForms
import Verif.Props.GlobalDriver
import Mathlib.Analysis.SpecialFunctions.ExpDeriv
import Mathlib.Analysis.SpecialFunctions.Log.Deriv
import Mathlib.Analysis.Calculus.Deriv.Inv
import Mathlib.Logic.Equiv.Fin.Basic
import Mathlib.Data.List.ProdSigma
import Mathlib.Tactic.FinCases
/-
C104: in the demo programs that come with a hand-written Jacobian, the Jacobian is the derivative of the residual.
-/
set_option linter.unusedSectionVars false
namespace PetIGA.Frm
open PetIGA.Itg PetIGA.Ker PetIGA.Demo PetIGA.Drv PetIGA.Spec PetIGA.Ax PetIGA.Lay PetIGA.Asm PetIGA.Rule PetIGA.Grid PetIGA.Part

variable {d nsd n dof : Nat}

/-! ### What a callback leaves in a zeroed array -/

/-- What a callback leaves in an array of zeros. -/
def outcome (cb : (Int → ℝ) → Res (Int → ℝ)) : Int → ℝ :=
  match cb (fun _ => 0) with
  | .ok A => A
  | _ => fun _ => 0

theorem put_loop {τ : Type} (ix : τ → Int) (v : τ → ℝ) (l : List τ) (A : Int → ℝ) (x : τ) (hx : x ∈ l)
    (hi : ∀ y ∈ l, ix y = ix x → y = x) : l.foldl (fun A t => put A (ix t) (v t)) A (ix x) = v x := by
  suffices h : ∀ (l : List τ) (A : Int → ℝ), (∀ y ∈ l, ix y = ix x → y = x) → (x ∈ l ∨ A (ix x) = v x) →
      l.foldl (fun A t => put A (ix t) (v t)) A (ix x) = v x from h l A hi (Or.inl hx)
  intro l
  induction l with
  | nil => intro A _ h; simpa using h
  | cons y l ih =>
    intro A hl h
    rw [List.foldl_cons]
    refine ih _ (fun z hz => hl z (List.mem_cons_of_mem _ hz)) ?_
    by_cases e : ix y = ix x
    · right
      have := hl y (by simp) e
      subst this
      simp [put]
    · rcases h with h | h
      · rcases List.mem_cons.1 h with rfl | h
        · exact absurd rfl e
        · exact Or.inl h
      · right
        unfold put
        rw [if_neg (fun q => e q.symm), h]

theorem add_loop {τ : Type} (ix : τ → Int) (v : τ → ℝ) (l : List τ) (hl : l.Nodup) (A : Int → ℝ) (x : τ) (hx : x ∈ l)
    (hi : ∀ y ∈ l, ix y = ix x → y = x) : l.foldl (fun A t => put A (ix t) (A (ix t) + v t)) A (ix x) = A (ix x) + v x := by
  induction l generalizing A with
  | nil => simp at hx
  | cons y l ih =>
    rw [List.foldl_cons]
    rw [List.nodup_cons] at hl
    have skip : ∀ (l : List τ) (B : Int → ℝ), (∀ y ∈ l, ix y ≠ ix x) → l.foldl (fun A t => put A (ix t) (A (ix t) + v t)) B (ix x) = B (ix x) := by
      intro l
      induction l with
      | nil => intro B _; rfl
      | cons z l ih2 =>
        intro B hB
        rw [List.foldl_cons, ih2 _ (fun w hw => hB w (List.mem_cons_of_mem _ hw))]
        unfold put
        rw [if_neg (fun q => hB z (by simp) q.symm)]
    rcases List.mem_cons.1 hx with rfl | h
    · rw [skip l _ (fun w hw e => hl.1 (hi w (List.mem_cons_of_mem _ hw) e ▸ hw))]
      simp [put]
    · rw [ih hl.2 _ h (fun w hw => hi w (List.mem_cons_of_mem _ hw))]
      have hne : ix y ≠ ix x := fun e => by
        have := hi y (by simp) e
        subst this
        exact hl.1 h
      congr 1
      unfold put
      rw [if_neg (fun q => hne q.symm)]

theorem at1_lt (a : Fin n) (i : Fin dof) : at1 dof a i < n * dof := by
  unfold at1
  calc (a:Nat) * dof + i < (a:Nat) * dof + dof := by have := i.2; omega
    _ = ((a:Nat) + 1) * dof := by ring
    _ ≤ n * dof := Nat.mul_le_mul_right _ a.2

theorem at1_inj {a b : Fin n} {i j : Fin dof} (h : at1 dof a i = at1 dof b j) : a = b ∧ i = j := by
  unfold at1 at h
  have hd : 0 < dof := lt_of_le_of_lt (Nat.zero_le _) i.2
  have h1 := congrArg (· / dof) h
  have h2 := congrArg (· % dof) h
  simp only [Nat.mul_comm _ dof, Nat.mul_add_div hd, Nat.div_eq_of_lt i.2, Nat.div_eq_of_lt j.2, Nat.add_zero, Nat.mul_add_mod,
    Nat.mod_eq_of_lt i.2, Nat.mod_eq_of_lt j.2] at h1 h2
  exact ⟨Fin.ext h1, Fin.ext h2⟩

theorem at1_onto (i : Nat) (hi : i < n * dof) : ∃ (a : Fin n) (c : Fin dof), at1 dof a c = i := by
  have hd : 0 < dof := Nat.pos_of_mul_pos_left (Nat.lt_of_le_of_lt (Nat.zero_le _) hi)
  refine ⟨⟨i / dof, Nat.div_lt_of_lt_mul (by rwa [Nat.mul_comm])⟩, ⟨i % dof, Nat.mod_lt _ hd⟩, ?_⟩
  unfold at1
  simp only
  rw [Nat.mul_comm]
  exact Nat.div_add_mod i dof

theorem at2_eq (a : Fin n) (i : Fin dof) (b : Fin n) (j : Fin dof) : at2 dof a i b j = at1 dof a i * (n * dof) + at1 dof b j := by
  unfold at2 at1; ring

theorem at2_inj {a a' b b' : Fin n} {i i' j j' : Fin dof} (h : at2 dof a i b j = at2 dof a' i' b' j') : a = a' ∧ i = i' ∧ b = b' ∧ j = j' := by
  rw [at2_eq, at2_eq] at h
  have hb := at1_lt b j
  have hb' := at1_lt b' j'
  have hd : 0 < n * dof := lt_of_le_of_lt (Nat.zero_le _) hb
  have h1 := congrArg (· / (n * dof)) h
  have h2 := congrArg (· % (n * dof)) h
  simp only [Nat.mul_comm _ (n * dof), Nat.mul_add_div hd, Nat.div_eq_of_lt hb, Nat.div_eq_of_lt hb', Nat.add_zero, Nat.mul_add_mod,
    Nat.mod_eq_of_lt hb, Nat.mod_eq_of_lt hb'] at h1 h2
  obtain ⟨q1, q2⟩ := at1_inj h1
  obtain ⟨q3, q4⟩ := at1_inj h2
  exact ⟨q1, q2, q3, q4⟩

theorem fillVec_at (r : Fin n → Fin dof → ℝ) (A : Int → ℝ) (a : Fin n) (c : Fin dof) : fillVec r A (at1 dof a c) = r a c := by
  refine put_loop (fun x : Fin n × Fin dof => ((at1 dof x.1 x.2 : Nat) : Int)) (fun x => r x.1 x.2) (slots n dof) A (a, c) ?_ ?_
  · simp [slots, List.product]
  · intro y _ h
    obtain ⟨h1, h2⟩ := at1_inj (by exact_mod_cast h : at1 dof y.1 y.2 = at1 dof a c)
    exact Prod.ext h1 h2

theorem pairs_mem (x : Fin n × Fin n × Fin dof × Fin dof) : x ∈ pairs n dof := by
  obtain ⟨a, b, c, j⟩ := x
  simp [pairs, List.product]

theorem pairs_inj {a b : Fin n} {c j : Fin dof} (y : Fin n × Fin n × Fin dof × Fin dof)
    (h : ((at2 dof y.1 y.2.2.1 y.2.1 y.2.2.2 : Nat) : Int) = ((at2 dof a c b j : Nat) : Int)) : y = (a, b, c, j) := by
  obtain ⟨h1, h2, h3, h4⟩ := at2_inj (by exact_mod_cast h : at2 dof y.1 y.2.2.1 y.2.1 y.2.2.2 = at2 dof a c b j)
  exact Prod.ext h1 (Prod.ext h3 (Prod.ext h2 h4))

theorem fillMat_at (k : Fin n → Fin dof → Fin n → Fin dof → ℝ) (A : Int → ℝ) (a : Fin n) (c : Fin dof) (b : Fin n) (j : Fin dof) :
    fillMat k A (at2 dof a c b j) = k a c b j :=
  put_loop (fun x : Fin n × Fin n × Fin dof × Fin dof => ((at2 dof x.1 x.2.2.1 x.2.1 x.2.2.2 : Nat) : Int))
    (fun x => k x.1 x.2.2.1 x.2.1 x.2.2.2) (pairs n dof) A (a, b, c, j) (pairs_mem _) fun y _ h => pairs_inj y h

theorem addMat_at (k : Fin n → Fin dof → Fin n → Fin dof → ℝ) (A : Int → ℝ) (a : Fin n) (c : Fin dof) (b : Fin n) (j : Fin dof) :
    addMat k A (at2 dof a c b j) = A (at2 dof a c b j) + k a c b j := by
  refine add_loop (fun x : Fin n × Fin n × Fin dof × Fin dof => ((at2 dof x.1 x.2.2.1 x.2.1 x.2.2.2 : Nat) : Int))
    (fun x => k x.1 x.2.2.1 x.2.1 x.2.2.2) (pairs n dof) ?_ A (a, b, c, j) (pairs_mem _) fun y _ h => pairs_inj y h
  unfold pairs
  exact (List.nodup_finRange n).product ((List.nodup_finRange n).product ((List.nodup_finRange dof).product (List.nodup_finRange dof)))

theorem at2_onto (i : Nat) (hi : i < n * dof * (n * dof)) : ∃ (a : Fin n) (c : Fin dof) (b : Fin n) (j : Fin dof), at2 dof a c b j = i := by
  have hd : 0 < n * dof := Nat.pos_of_mul_pos_left (Nat.lt_of_le_of_lt (Nat.zero_le _) hi)
  obtain ⟨a, c, h1⟩ := at1_onto (n := n) (dof := dof) (i / (n * dof)) (Nat.div_lt_of_lt_mul hi)
  obtain ⟨b, j, h2⟩ := at1_onto (n := n) (dof := dof) (i % (n * dof)) (Nat.mod_lt _ hd)
  refine ⟨a, c, b, j, ?_⟩
  rw [at2_eq, h1, h2, Nat.mul_comm]
  exact Nat.div_add_mod i (n * dof)

/-- A callback that assigns all the entries of the vector does not depend on what it was given. -/
theorem fills_vec {P : Type} (cb : P → (Int → ℝ) → Res (Int → ℝ)) (r : P → Fin n → Fin dof → ℝ) (h : ∀ p A, cb p A = .ok (fillVec (r p) A)) :
    Fills (n * dof) cb (fun p => outcome (cb p)) := by
  intro p A _
  refine ⟨_, h p A, fun i h0 hi => ?_⟩
  obtain ⟨j, rfl⟩ := Int.eq_ofNat_of_zero_le h0
  obtain ⟨a, c, rfl⟩ := at1_onto (n := n) (dof := dof) j (by exact_mod_cast hi)
  simp only [outcome, h, fillVec_at]

theorem fills_mat {P : Type} (cb : P → (Int → ℝ) → Res (Int → ℝ)) (k : P → Fin n → Fin dof → Fin n → Fin dof → ℝ)
    (h : ∀ p A, cb p A = .ok (fillMat (k p) A)) : Fills (n * dof * (n * dof)) cb (fun p => outcome (cb p)) := by
  intro p A _
  refine ⟨_, h p A, fun i h0 hi => ?_⟩
  obtain ⟨j, rfl⟩ := Int.eq_ofNat_of_zero_le h0
  obtain ⟨a, c, b, e, rfl⟩ := at2_onto (n := n) (dof := dof) j (by exact_mod_cast hi)
  simp only [outcome, h, fillMat_at]

theorem fills_add {P : Type} (cb : P → (Int → ℝ) → Res (Int → ℝ)) (k : P → Fin n → Fin dof → Fin n → Fin dof → ℝ)
    (h : ∀ p A, cb p A = .ok (addMat (k p) A)) : Fills (n * dof * (n * dof)) cb (fun p => outcome (cb p)) := by
  intro p A hA
  refine ⟨_, h p A, fun i h0 hi => ?_⟩
  have hz := hA i h0 hi
  obtain ⟨j, rfl⟩ := Int.eq_ofNat_of_zero_le h0
  obtain ⟨a, c, b, e, rfl⟩ := at2_onto (n := n) (dof := dof) j (by exact_mod_cast hi)
  simp only [outcome, h, addMat_at, hz]

/-! ### Rows -/

theorem sum_at1 (f : Nat → ℝ) : ((List.range (n * dof)).map f).sum = ∑ b : Fin n, ∑ j : Fin dof, f (at1 dof b j) := by
  have h1 : ((List.range (n * dof)).map f).sum = ∑ i : Fin (n * dof), f i := by
    rw [← List.sum_ofFn]
    congr 1
    apply List.ext_getElem
    · simp
    · intro i h1 h2; simp
  rw [h1, ← Fintype.sum_prod_type' (fun (b : Fin n) (j : Fin dof) => f (at1 dof b j)), ← finProdFinEquiv.sum_comp]
  refine Finset.sum_congr rfl fun x _ => ?_
  congr 1
  unfold at1
  simp [finProdFinEquiv]
  ring

theorem row_eq (k : Fin n → Fin dof → Fin n → Fin dof → ℝ) (K : Int → ℝ) (hK : ∀ a c b j, K (at2 dof a c b j) = k a c b j) (a : Fin n) (c : Fin dof)
    (W : List ℝ) : rowTimes (n * dof) K (at1 dof a c) W = ∑ b, ∑ j, k a c b j * fld W j b := by
  unfold rowTimes
  rw [sum_at1]
  refine Finset.sum_congr rfl fun b _ => Finset.sum_congr rfl fun j _ => ?_
  rw [← hK, at2_eq]
  simp [fld, at1]

/-- The derivative of the entries of the vector along `W` gives the derivative of the outcome of the callback. -/
theorem deriv_of (cbR : ℝ → (Int → ℝ) → Res (Int → ℝ)) (cbK : (Int → ℝ) → Res (Int → ℝ)) (r : ℝ → Fin n → Fin dof → ℝ)
    (k : Fin n → Fin dof → Fin n → Fin dof → ℝ) (hR : ∀ s A, cbR s A = .ok (fillVec (r s) A))
    (hK : (∀ A, cbK A = .ok (fillMat k A)) ∨ ∀ A, cbK A = .ok (addMat k A)) (W : List ℝ)
    (h : ∀ a c, HasDerivAt (fun s => r s a c) (∑ b, ∑ j, k a c b j * fld W j b) 0) (i : Nat) (hi : i < n * dof) :
    HasDerivAt (fun s => outcome (cbR s) i) (rowTimes (n * dof) (outcome cbK) i W) 0 := by
  obtain ⟨a, c, rfl⟩ := at1_onto (n := n) (dof := dof) i hi
  rw [row_eq k]
  · simpa only [outcome, hR, fillVec_at] using h a c
  · intro a c b j
    rcases hK with hK | hK
    · simp only [outcome, hK, fillMat_at]
    · simp only [outcome, hK, addMat_at, zero_add]

/-! ### The fields along a direction -/

theorem fld_axpy {U W : List ℝ} (h : U.length = W.length) (s : ℝ) (c : Fin dof) (a : Fin n) :
    fld (axpy U s W) c a = fld U c a + s * fld W c a := by
  unfold fld
  by_cases hi : (a:Nat) * dof + (c:Nat) < U.length
  · exact axpy_getD s h _ hi
  · have h1 : (axpy U s W).length = U.length := by simp [axpy, h]
    rw [List.getD_eq_default _ _ (by omega), List.getD_eq_default _ _ (by omega), List.getD_eq_default _ _ (by omega)]
    simp

theorem value_axpy {U W : List ℝ} (h : U.length = W.length) (s : ℝ) (p : PtData d nsd n) (c : Fin dof) :
    value dof p (axpy U s W) c = value dof p U c + s * value dof p W c := by
  simp only [value, Ker.evaluate, fld_axpy h, Finset.mul_sum, ← Finset.sum_add_distrib]
  exact Finset.sum_congr rfl fun _ _ => by ring

theorem grad_axpy {U W : List ℝ} (h : U.length = W.length) (s : ℝ) (p : PtData d nsd n) (c : Fin dof) (i : Fin d) :
    grad dof p (axpy U s W) c i = grad dof p U c i + s * grad dof p W c i := by
  simp only [grad, Ker.evaluate, fld_axpy h, Finset.mul_sum, ← Finset.sum_add_distrib]
  exact Finset.sum_congr rfl fun _ _ => by ring

theorem hess_axpy {U W : List ℝ} (h : U.length = W.length) (s : ℝ) (p : PtData d nsd n) (c : Fin dof) (i j : Fin d) :
    hess dof p (axpy U s W) c i j = hess dof p U c i j + s * hess dof p W c i j := by
  simp only [hess, Ker.evaluate, fld_axpy h, Finset.mul_sum, ← Finset.sum_add_distrib]
  exact Finset.sum_congr rfl fun _ _ => by ring

theorem del2_axpy {U W : List ℝ} (h : U.length = W.length) (s : ℝ) (p : PtData d nsd n) (c : Fin dof) :
    del2 dof p (axpy U s W) c = del2 dof p U c + s * del2 dof p W c := by
  simp only [del2, Ker.getDel2, fld_axpy h, Finset.mul_sum, ← Finset.sum_add_distrib]
  exact Finset.sum_congr rfl fun _ _ => Finset.sum_congr rfl fun _ _ => by ring

theorem line_deriv (u w : ℝ) : HasDerivAt (fun s : ℝ => u + s * w) w 0 := by
  have := ((hasDerivAt_id (0:ℝ)).mul_const w).const_add u
  simpa using this

theorem dot_eq (x y : Fin d → ℝ) : dot x y = ∑ i, x i * y i := by
  unfold dot
  have : ∀ (l : List (Fin d)) (z : ℝ), l.foldl (fun s i => s + x i * y i) z = z + (l.map fun i => x i * y i).sum := by
    intro l
    induction l with
    | nil => intro z; simp
    | cons i l ih => intro z; rw [List.foldl_cons, ih, List.map_cons, List.sum_cons]; ring
  rw [this, zero_add]
  exact (Fin.sum_univ_def _).symm

theorem dot_grad (p : PtData d nsd n) (a : Fin n) (W : List ℝ) :
    dot (fun i => p.shape.t1 i a) (grad 1 p W 0) = ∑ b : Fin n, dot (fun i => p.shape.t1 i a) (fun i => p.shape.t1 i b) * fld (dof := 1) W 0 b := by
  simp only [dot_eq, grad, Ker.evaluate, Finset.mul_sum, Finset.sum_mul]
  rw [Finset.sum_comm]
  exact Finset.sum_congr rfl fun _ _ => Finset.sum_congr rfl fun _ _ => by ring

/-- Compute the derivative of an expression in the variable of the line. -/
macro "line_derivative" : tactic => `(tactic| (repeat' first
  | exact hasDerivAt_const _ _
  | exact line_deriv _ _
  | apply HasDerivAt.fun_add
  | apply HasDerivAt.fun_sub
  | apply HasDerivAt.fun_mul
  | apply HasDerivAt.fun_neg))

/-- Show that a linear expression in the fields of a direction is the row of the matrix times the direction. -/
macro "collect" : tactic => `(tactic| (
  simp only [dot_grad, value, grad, hess, del2, Ker.evaluate, Ker.getDel2, zero_mul, mul_zero, zero_add, add_zero, Finset.mul_sum, Finset.sum_mul, ← Finset.sum_add_distrib,
    ← Finset.sum_sub_distrib, ← Finset.sum_neg_distrib]
  refine Finset.sum_congr rfl fun b _ => ?_
  simp [Fin.sum_univ_succ]
  try ring))

/-! ### Bratu -/

theorem dot_line (x y z : Fin d → ℝ) (s : ℝ) : dot x (fun i => y i + s * z i) = dot x y + s * dot x z := by
  simp only [dot_eq, Finset.mul_sum, ← Finset.sum_add_distrib]
  exact Finset.sum_congr rfl fun _ _ => by ring

theorem exp_line (u w : ℝ) : HasDerivAt (fun s : ℝ => Real.exp (u + s * w)) (Real.exp u * w) 0 := by
  have := (line_deriv u w).exp
  simpa using this

/-- **C104**, demo/BratuFJ.F90, steady problem with the Galerkin method: the array `Bratu_Jacobian` leaves is the derivative of the array `Bratu_Function`
leaves. -/
theorem C104_bratu (lambda : ℝ) (neq : Nat) (hneq : neq ≠ 1) (p : PtData d nsd n) (U W : List ℝ) (hU : U.length = n * 1) (hW : W.length = n * 1)
    (i : Nat) (hi : i < n * 1) :
    HasDerivAt (fun s => outcome (bratuFunction lambda neq p (axpy U s W)) i)
      (rowTimes (n * 1) (outcome (bratuJacobian lambda neq p U)) i W) 0 := by
  have hl : U.length = W.length := hU.trans hW.symm
  refine deriv_of (dof := 1) _ _ _ _ (fun s A => if_neg hneq) (Or.inl fun A => if_neg hneq) W (fun a c => ?_) i hi
  have hg : ∀ s, grad 1 p (axpy U s W) 0 = fun i => grad 1 p U 0 i + s * grad 1 p W 0 i := fun s => funext fun i => grad_axpy hl s p 0 i
  simp only [value_axpy hl, hg, dot_line]
  have he := exp_line (value 1 p U 0) (value 1 p W 0)
  apply HasDerivAt.congr_deriv
  · line_derivative
    exact he
  · generalize value 1 p U 0 = u
    collect

/-- **C104**, demo/BratuFJ.F90, steady problem with collocation: there is one equation per point, and the row `Bratu_Jacobian` leaves is the derivative of the
number `Bratu_Function` leaves. -/
theorem C104_bratu_collocation (lambda : ℝ) (p : PtData d nsd n) (U W : List ℝ) (hU : U.length = n) (hW : W.length = n) :
    HasDerivAt (fun s => outcome (bratuFunction lambda 1 p (axpy U s W)) 0)
      (∑ b : Fin n, outcome (bratuJacobian lambda 1 p U) ((b:Nat) : Int) * W.getD b 0) 0 := by
  have hl : U.length = W.length := hU.trans hW.symm
  have hK : ∀ b : Fin n, outcome (bratuJacobian lambda 1 p U) ((b:Nat) : Int) =
      -(∑ i, p.shape.t2 i i b) - p.shape.t0 b * lambda * Real.exp (value 1 p U 0) := by
    intro b
    have h1 : (List.finRange d).foldl (fun s i => s + p.shape.t2 i i b) 0 = ∑ i, p.shape.t2 i i b := by
      have := dot_eq (fun i => p.shape.t2 i i b) (fun _ : Fin d => (1:ℝ))
      simpa [dot] using this
    have h2 := put_loop (fun a : Fin n => ((a:Nat) : Int)) (fun a : Fin n => -((List.finRange d).foldl (fun s i => s + p.shape.t2 i i a) 0) - p.shape.t0 a * lambda * Real.exp (value 1 p U 0))
      (List.finRange n) (fun _ => 0) b (List.mem_finRange b) (fun y _ e => Fin.ext (by exact_mod_cast e))
    simp only [outcome, bratuJacobian, if_true]
    rw [← h1]
    exact h2
  simp only [hK]
  have hR : ∀ s, outcome (bratuFunction lambda 1 p (axpy U s W)) 0 =
      -(del2 1 p U 0 + s * del2 1 p W 0) - lambda * Real.exp (value 1 p U 0 + s * value 1 p W 0) := by
    intro s
    simp [outcome, bratuFunction, put, value_axpy hl, del2_axpy hl]
  simp only [hR]
  have he := exp_line (value 1 p U 0) (value 1 p W 0)
  apply HasDerivAt.congr_deriv
  · line_derivative
    exact he
  · generalize value 1 p U 0 = u
    have e : ∀ b : Fin n, (-(∑ i, p.shape.t2 i i b) - p.shape.t0 b * lambda * Real.exp u) * W.getD b 0 =
        -(∑ i, p.shape.t2 i i b * fld (dof := 1) W 0 b) - lambda * (Real.exp u * (p.shape.t0 b * fld (dof := 1) W 0 b)) := by
      intro b
      rw [← Finset.sum_mul]
      simp only [fld, Nat.mul_one, Fin.val_zero, Nat.add_zero]
      ring
    rw [Finset.sum_congr rfl fun b _ => e b, Finset.sum_sub_distrib, Finset.sum_neg_distrib, ← Finset.mul_sum, ← Finset.mul_sum, zero_mul, zero_add]
    rfl

/-- **C104**, demo/BratuFJ.F90, time-dependent problem. -/
theorem C104_bratu_transient (lambda : ℝ) (p : PtData d nsd n) (shift t : ℝ) (V U W : List ℝ) (hV : V.length = n * 1) (hU : U.length = n * 1) (hW : W.length = n * 1)
    (i : Nat) (hi : i < n * 1) :
    HasDerivAt (fun s => outcome (bratuIFunction lambda p shift (axpy V (s * shift) W) t (axpy U s W)) i)
      (rowTimes (n * 1) (outcome (bratuIJacobian lambda p shift V t U)) i W) 0 := by
  have hl : U.length = W.length := hU.trans hW.symm
  have hv : V.length = W.length := hV.trans hW.symm
  refine deriv_of (dof := 1) _ _ _ _ (fun s A => rfl) (Or.inl fun A => rfl) W (fun a c => ?_) i hi
  have hg : ∀ s, grad 1 p (axpy U s W) 0 = fun i => grad 1 p U 0 i + s * grad 1 p W 0 i := fun s => funext fun i => grad_axpy hl s p 0 i
  simp only [value_axpy hl, value_axpy hv, hg, dot_line, mul_assoc _ shift _]
  have he := exp_line (value 1 p U 0) (value 1 p W 0)
  apply HasDerivAt.congr_deriv
  · line_derivative
    exact he
  · generalize value 1 p U 0 = u
    collect

/-- **C104**, demo/ElasticRodFJ.F90. -/
theorem C104_elastic_rod (rho E : ℝ) (p : PtData d nsd n) (shiftA shiftV t : ℝ) (A V U W : List ℝ) (hA : A.length = n * 1) (hU : U.length = n * 1)
    (hW : W.length = n * 1) (i : Nat) (hi : i < n * 1) :
    HasDerivAt (fun s => outcome (rodFunction rho E p shiftA (axpy A (s * shiftA) W) shiftV (axpy V (s * shiftV) W) t (axpy U s W)) i)
      (rowTimes (n * 1) (outcome (rodJacobian rho E p shiftA A shiftV V t U)) i W) 0 := by
  have hl : U.length = W.length := hU.trans hW.symm
  have ha : A.length = W.length := hA.trans hW.symm
  refine deriv_of (dof := 1) _ _ _ _ (fun s A => rfl) (Or.inl fun A => rfl) W (fun a c => ?_) i hi
  have hg : ∀ s, grad 1 p (axpy U s W) 0 = fun i => grad 1 p U 0 i + s * grad 1 p W 0 i := fun s => funext fun i => grad_axpy hl s p 0 i
  simp only [value_axpy ha, hg, dot_line, mul_assoc _ shiftA _]
  apply HasDerivAt.congr_deriv
  · line_derivative
  · collect

/-! ### Cahn-Hilliard -/

/-- **C104**, demo/CahnHilliard2D.c and 3D: the derivative of the mobility. -/
theorem C104_mobility (c : ℝ) : HasDerivAt mobM (mobD c) c ∧ HasDerivAt mobD (mobD2 c) c := by
  constructor
  · have := (hasDerivAt_id c).fun_mul ((hasDerivAt_id c).const_sub 1)
    refine this.congr_deriv ?_
    simp [mobD]
    ring
  · have := ((hasDerivAt_id c).const_mul 2).const_sub 1
    refine this.congr_deriv ?_
    simp [mobD2]

theorem potential_deriv (theta k c : ℝ) (h0 : 0 < c) (h1 : c < 1) :
    HasDerivAt (fun c => (0.5 / theta * Real.log (c / (1 - c)) + 1 - 2 * c) * k) ((0.5 / theta * 1 / (c * (1 - c)) - 2) * k) c := by
  have hc : c ≠ 0 := h0.ne'
  have hm : (1 - c) ≠ 0 := by linarith
  have hq : HasDerivAt (fun c : ℝ => c / (1 - c)) ((1 * (1 - c) - c * (-1)) / (1 - c) ^ 2) c :=
    (hasDerivAt_id c).fun_div ((hasDerivAt_id c).const_sub 1) hm
  have hlog := hq.log (div_ne_zero hc hm)
  have := ((((hlog.const_mul (0.5 / theta)).add_const 1).fun_sub ((hasDerivAt_id c).const_mul 2)).mul_const k)
  refine this.congr_deriv ?_
  by_cases ht : theta = 0
  · subst ht; simp
  · field_simp
    ring

theorem potential_deriv2 (theta k c : ℝ) (h0 : c ≠ 0) (h1 : c ≠ 1) :
    HasDerivAt (fun c => (0.5 / theta * 1 / (c * (1 - c)) - 2) * k) ((0.5 / theta * (2 * c - 1) / (c * c * (1 - c) * (1 - c))) * k) c := by
  have hm : (1 - c) ≠ 0 := sub_ne_zero.2 (Ne.symm h1)
  have hq : HasDerivAt (fun c : ℝ => c * (1 - c)) (1 * (1 - c) + c * (-1)) c := (hasDerivAt_id c).fun_mul ((hasDerivAt_id c).const_sub 1)
  have := ((((hasDerivAt_const c (0.5 / theta * 1)).fun_div hq (mul_ne_zero h0 hm)).sub_const 2).mul_const k)
  refine this.congr_deriv ?_
  by_cases ht : theta = 0
  · subst ht; simp
  · field_simp
    ring

/-- **C104**, demo/CahnHilliard2D.c: the derivatives of the chemical potential. -/
theorem C104_potential_2d (alpha theta c : ℝ) : (0 < c → c < 1 → HasDerivAt (chemMu2D alpha theta) (chem2D alpha theta c) c) ∧
    (c ≠ 0 → c ≠ 1 → HasDerivAt (chem2D alpha theta) (chemD2D alpha theta c) c) :=
  ⟨potential_deriv theta (3 * alpha) c, potential_deriv2 theta (3 * alpha) c⟩

/-- **C104**, demo/CahnHilliard3D.c: the derivatives of the chemical potential. -/
theorem C104_potential_3d (theta L0 lambda c : ℝ) : (0 < c → c < 1 → HasDerivAt (chemMu3D theta L0 lambda) (chem3D theta L0 lambda c) c) ∧
    (c ≠ 0 → c ≠ 1 → HasDerivAt (chem3D theta L0 lambda) (chemD3D theta L0 lambda c) c) := by
  refine ⟨potential_deriv theta (L0 * L0 / lambda) c, fun h0 h1 => (potential_deriv2 theta (L0 * L0 / lambda) c h0 h1).congr_deriv ?_⟩
  unfold chemD3D
  ring

theorem comp_line {f : ℝ → ℝ} {f' : ℝ} (u w : ℝ) (h : HasDerivAt f f' u) : HasDerivAt (fun s : ℝ => f (u + s * w)) (f' * w) 0 := by
  have h1 : HasDerivAt f f' (u + 0 * w) := by simpa using h
  exact h1.comp (0:ℝ) (line_deriv u w)

/-- **C104**, demo/CahnHilliard2D.c: `Tangent` is the derivative of `Residual`, wherever the concentration is neither 0 nor 1. -/
theorem C104_cahn_hilliard_2d (alpha theta : ℝ) (p : PtData 2 nsd n) (shift t : ℝ) (V U W : List ℝ) (hV : V.length = n * 1) (hU : U.length = n * 1) (hW : W.length = n * 1)
    (h0 : value 1 p U 0 ≠ 0) (h1 : value 1 p U 0 ≠ 1) (i : Nat) (hi : i < n * 1) :
    HasDerivAt (fun s => outcome (ch2Residual alpha theta p shift (axpy V (s * shift) W) t (axpy U s W)) i)
      (rowTimes (n * 1) (outcome (ch2Tangent alpha theta p shift V t U)) i W) 0 := by
  have hl : U.length = W.length := hU.trans hW.symm
  have hv : V.length = W.length := hV.trans hW.symm
  refine deriv_of (dof := 1) _ _ _ _ (fun s A => rfl) (Or.inl fun A => rfl) W (fun a c => ?_) i hi
  simp only [value_axpy hl, value_axpy hv, grad_axpy hl, del2_axpy hl, mul_assoc _ shift _]
  have e1 := comp_line (value 1 p U 0) (value 1 p W 0) (C104_mobility (value 1 p U 0)).1
  have e2 := comp_line (value 1 p U 0) (value 1 p W 0) (C104_mobility (value 1 p U 0)).2
  have e3 := comp_line (value 1 p U 0) (value 1 p W 0) ((C104_potential_2d alpha theta (value 1 p U 0)).2 h0 h1)
  generalize value 1 p U 0 = u at *
  generalize value 1 p V 0 = v at *
  generalize grad 1 p U 0 0 = gx at *
  generalize grad 1 p U 0 1 = gy at *
  generalize del2 1 p U 0 = l at *
  generalize chem2D alpha theta = q1 at *
  generalize chemD2D alpha theta = q2 at *
  generalize mobM = q3 at *
  generalize mobD = q4 at *
  generalize mobD2 = q5 at *
  apply HasDerivAt.congr_deriv
  · line_derivative
    all_goals first | exact e1 | exact e2 | exact e3
  · collect

/-- **C104**, demo/CahnHilliard3D.c: `Tangent` is the derivative of `Residual`, wherever the concentration is neither 0 nor 1. -/
theorem C104_cahn_hilliard_3d (theta L0 lambda : ℝ) (p : PtData 3 nsd n) (shift t : ℝ) (V U W : List ℝ) (hV : V.length = n * 1) (hU : U.length = n * 1) (hW : W.length = n * 1)
    (h0 : value 1 p U 0 ≠ 0) (h1 : value 1 p U 0 ≠ 1) (i : Nat) (hi : i < n * 1) :
    HasDerivAt (fun s => outcome (ch3Residual theta L0 lambda p shift (axpy V (s * shift) W) t (axpy U s W)) i)
      (rowTimes (n * 1) (outcome (ch3Tangent theta L0 lambda p shift V t U)) i W) 0 := by
  have hl : U.length = W.length := hU.trans hW.symm
  have hv : V.length = W.length := hV.trans hW.symm
  refine deriv_of (dof := 1) _ _ _ _ (fun s A => rfl) (Or.inl fun A => rfl) W (fun a c => ?_) i hi
  simp only [value_axpy hl, value_axpy hv, grad_axpy hl, hess_axpy hl, mul_assoc _ shift _]
  have e1 := comp_line (value 1 p U 0) (value 1 p W 0) (C104_mobility (value 1 p U 0)).1
  have e2 := comp_line (value 1 p U 0) (value 1 p W 0) (C104_mobility (value 1 p U 0)).2
  have e3 := comp_line (value 1 p U 0) (value 1 p W 0) ((C104_potential_3d theta L0 lambda (value 1 p U 0)).2 h0 h1)
  generalize value 1 p U 0 = u at *
  generalize value 1 p V 0 = v at *
  generalize grad 1 p U 0 0 = gx at *
  generalize grad 1 p U 0 1 = gy at *
  generalize grad 1 p U 0 2 = gz at *
  generalize hess 1 p U 0 0 0 = lx at *
  generalize hess 1 p U 0 1 1 = ly at *
  generalize hess 1 p U 0 2 2 = lz at *
  generalize chem3D theta L0 lambda = q1 at *
  generalize chemD3D theta L0 lambda = q2 at *
  generalize mobM = q3 at *
  generalize mobD = q4 at *
  generalize mobD2 = q5 at *
  apply HasDerivAt.congr_deriv
  · line_derivative
    all_goals first | exact e1 | exact e2 | exact e3
  · collect

/-! ### Pattern formation -/

/-- **C104**, demo/PatternFormation.c: `Jacobian` is the derivative of `Function` with respect to the new state, both when the reaction is taken at the new
state and when it is taken at the old one. -/
theorem C104_pattern_formation (w : Pattern) (hb : w.beta ≠ 0) (p : PtData 2 nsd n) (shift t t0 : ℝ) (V U1 U0 W : List ℝ) (hV : V.length = n * 2) (hU : U1.length = n * 2)
    (hW : W.length = n * 2) (i : Nat) (hi : i < n * 2) :
    HasDerivAt (fun s => outcome (patFunction w p shift (axpy V (s * shift) W) t (axpy U1 s W) t0 U0) i)
      (rowTimes (n * 2) (outcome (patJacobian w p shift V t U1 t0 U0)) i W) 0 := by
  have hl : U1.length = W.length := hU.trans hW.symm
  have hv : V.length = W.length := hV.trans hW.symm
  refine deriv_of (dof := 2) _ _ _ _ (fun s A => rfl) (Or.inr fun A => rfl) W (fun a c => ?_) i hi
  obtain ⟨imp, delta, D1, D2, alpha, beta, gamma, tau1, tau2⟩ := w
  cases imp
  all_goals
    simp only [if_true, Bool.false_eq_true, if_false, value_axpy hl, value_axpy hv, grad_axpy hl, mul_assoc _ shift _]
    generalize value 2 p U1 0 = u at *
    generalize value 2 p U1 1 = v at *
    generalize value 2 p V 0 = ut at *
    generalize value 2 p V 1 = vt at *
    generalize grad 2 p U1 0 0 = ux at *
    generalize grad 2 p U1 0 1 = uy at *
    generalize grad 2 p U1 1 0 = vx at *
    generalize grad 2 p U1 1 1 = vy at *
    generalize value 2 p U0 0 = u0 at *
    generalize value 2 p U0 1 = v0 at *
    fin_cases c
    all_goals
      simp only [Fin.isValue, Fin.zero_eta, Fin.mk_one, if_true, one_ne_zero, if_false]
      apply HasDerivAt.congr_deriv
      · line_derivative
      · simp only [zero_mul, mul_zero, zero_add, add_zero]
        simp only [dot_grad, value, grad, hess, del2, Ker.evaluate, Ker.getDel2, zero_mul, mul_zero, zero_add, add_zero, Finset.mul_sum, Finset.sum_mul, ← Finset.sum_add_distrib,
          ← Finset.sum_sub_distrib, ← Finset.sum_neg_distrib]
        refine Finset.sum_congr rfl fun b _ => ?_
        simp only [Fin.sum_univ_two, Fin.isValue, if_true, one_ne_zero, if_false]
        field_simp
        ring

/-! ### Navier-Stokes-Korteweg -/

theorem pressure_deriv (theta r : ℝ) (h : r ≠ 1) :
    HasDerivAt (fun r => 8 / 27 * theta * r / (1 - r) - r * r) (8 / 27 * theta / (1 - r) * (r / (1 - r) + 1) - 2 * r) r := by
  have hm : (1 - r) ≠ 0 := sub_ne_zero.2 (Ne.symm h)
  have hid := hasDerivAt_id r
  have := (((hid.const_mul (8 / 27 * theta)).fun_div (hid.const_sub 1) hm).fun_sub (hid.fun_mul hid))
  refine this.congr_deriv ?_
  simp only [id]
  field_simp
  ring

/-- **C104**, demo/NavierStokesKorteweg2D.c: `Jacobian` is the derivative of `Residual`, wherever the density is not 1 (where the pressure is singular). -/
theorem C104_nsk (Ca Re theta : ℝ) (p : PtData 2 nsd n) (shift t : ℝ) (V U W : List ℝ) (hV : V.length = n * 3) (hU : U.length = n * 3)
    (hW : W.length = n * 3) (h1 : value 3 p U 0 ≠ 1) (i : Nat) (hi : i < n * 3) :
    HasDerivAt (fun s => outcome (nskResidual Ca Re theta p shift (axpy V (s * shift) W) t (axpy U s W)) i)
      (rowTimes (n * 3) (outcome (nskJacobian Ca Re theta p shift V t U)) i W) 0 := by
  have hl : U.length = W.length := hU.trans hW.symm
  have hv : V.length = W.length := hV.trans hW.symm
  refine deriv_of (dof := 3) _ _ _ _ (fun s A => rfl) (Or.inr fun A => rfl) W (fun a c => ?_) i hi
  simp only [value_axpy hl, value_axpy hv, grad_axpy hl, hess_axpy hl, mul_assoc _ shift _]
  obtain ⟨q1, hq1⟩ : ∃ q : ℝ → ℝ, q = fun r => 8 / 27 * theta * r / (1 - r) - r * r := ⟨_, rfl⟩
  have e1 := comp_line (value 3 p U 0) (value 3 p W 0) (f := q1) (hq1 ▸ pressure_deriv theta (value 3 p U 0) h1)
  have eq1 : ∀ r : ℝ, 8 / 27 * theta * r / (1 - r) - r * r = q1 r := fun r => by rw [hq1]
  simp only [eq1]
  generalize 8 / 27 * theta / (1 - value 3 p U 0) * (value 3 p U 0 / (1 - value 3 p U 0) + 1) - 2 * value 3 p U 0 = dp at *
  clear hq1 eq1 h1
  have f0 : (1 : Fin 3) = Fin.succ (0 : Fin 2) := rfl
  have f1 : (2 : Fin 3) = Fin.succ (1 : Fin 2) := rfl
  refine Fin.cases ?_ (fun c => ?_) c
  · simp only [Fin.cons_zero, ← f0, ← f1]
    try generalize value 3 p U 0 = u0 at *
    try generalize value 3 p V 0 = v0 at *
    try generalize grad 3 p U 0 0 = g00 at *
    try generalize grad 3 p U 0 1 = g01 at *
    try generalize value 3 p U 1 = u1 at *
    try generalize value 3 p V 1 = v1 at *
    try generalize grad 3 p U 1 0 = g10 at *
    try generalize grad 3 p U 1 1 = g11 at *
    try generalize value 3 p U 2 = u2 at *
    try generalize value 3 p V 2 = v2 at *
    try generalize grad 3 p U 2 0 = g20 at *
    try generalize grad 3 p U 2 1 = g21 at *
    try generalize hess 3 p U 0 0 0 = l0 at *
    try generalize hess 3 p U 0 1 1 = l1 at *
    apply HasDerivAt.congr_deriv
    · line_derivative
    · simp only [zero_mul, mul_zero, zero_add, add_zero]
      simp only [value, grad, hess, Ker.evaluate, Finset.mul_sum, Finset.sum_mul, ← Finset.sum_add_distrib, ← Finset.sum_sub_distrib, ← Finset.sum_neg_distrib]
      refine Finset.sum_congr rfl fun b _ => ?_
      rw [Fin.sum_univ_succ, Fin.sum_univ_two]
      simp only [Fin.cons_zero, Fin.cons_succ, Fin.isValue, if_true, one_ne_zero, zero_ne_one, if_false]
      simp only [← f0, ← f1]
      ring
  · simp only [Fin.cons_succ]
    fin_cases c
    all_goals
      simp only [Fin.isValue, Fin.zero_eta, Fin.mk_one, ← f0, ← f1]
      try generalize value 3 p U 0 = u0 at *
      try generalize value 3 p V 0 = v0 at *
      try generalize grad 3 p U 0 0 = g00 at *
      try generalize grad 3 p U 0 1 = g01 at *
      try generalize value 3 p U 1 = u1 at *
      try generalize value 3 p V 1 = v1 at *
      try generalize grad 3 p U 1 0 = g10 at *
      try generalize grad 3 p U 1 1 = g11 at *
      try generalize value 3 p U 2 = u2 at *
      try generalize value 3 p V 2 = v2 at *
      try generalize grad 3 p U 2 0 = g20 at *
      try generalize grad 3 p U 2 1 = g21 at *
      try generalize hess 3 p U 0 0 0 = l0 at *
      try generalize hess 3 p U 0 1 1 = l1 at *
      apply HasDerivAt.congr_deriv
      · line_derivative
        exact e1
      · simp only [zero_mul, mul_zero, zero_add, add_zero]
        simp only [value, grad, hess, Ker.evaluate, Finset.mul_sum, Finset.sum_mul, ← Finset.sum_add_distrib, ← Finset.sum_sub_distrib, ← Finset.sum_neg_distrib]
        refine Finset.sum_congr rfl fun b _ => ?_
        rw [Fin.sum_univ_succ, Fin.sum_univ_two]
        simp only [Fin.cons_zero, Fin.cons_succ, Fin.isValue, if_true, one_ne_zero, zero_ne_one, if_false]
        simp only [← f0, ← f1]
        ring

/-! ### The assembled residual and Jacobian -/

variable {K : Type} [Field K] [LinearOrder K] [IsStrictOrderedRing K]

/-- What `IGAComputeFunction` and `IGAComputeJacobian` return for the callbacks `cbR` and `cbK`, on any number of processes: a residual `f` of the field, and
a matrix that is its derivative at every field which is `Good` at the quadrature points. -/
def NewtonF {P : Type} (axes axs : List (Axis K)) (dof : Nat) (elt : List Int → Elt ℝ P) (cbR cbK : P → List ℝ → (Int → ℝ) → Res (Int → ℝ))
    (Good : P → List ℝ → Prop) : Prop :=
  ∃ (f : (List Int → Nat → ℝ) → List Int → Nat → ℝ) (a : (List Int → Nat → ℝ) → List Int → Nat → List Int → Nat → ℝ),
    ∀ {g2 : Guess2} {g3 : Guess3} {size : Int} {procs : List Int} {Ls : List (Layout K)},
      Setup g2 g3 false size procs axes axs Ls →
      (∀ hist pw w vecU junk u, Represents axs Ls dof vecU u →
        (∃ F, computeFunction Ls hist dof ⟨elt, pw, w⟩ cbR vecU junk = .ok F ∧ Represents axs Ls dof F (f u)) ∧
        ∃ J, computeJacobian Ls hist dof ⟨elt, pw, w⟩ cbK vecU junk = .ok J ∧ RepresentsMat axs Ls dof J (a u)) ∧
      ∀ u, AtPoints axs elt (fun e p => Good p (withValues (elt e) (valuesOf false axs dof u e))) →
        ∀ w, IsDerivative axs dof (fun s => f (along u s w)) (a u) w

/-- The same for `IGAComputeIFunction` and `IGAComputeIJacobian`: the derivative with respect to the state, when the rate changes by `shift` times the change of the
state. -/
def NewtonI {P : Type} (axes axs : List (Axis K)) (dof : Nat) (elt : List Int → Elt ℝ P) (cbR cbK : P → ℝ → List ℝ → ℝ → List ℝ → (Int → ℝ) → Res (Int → ℝ))
    (shift t : ℝ) (Good : P → List ℝ → Prop) : Prop :=
  ∃ (f : (List Int → Nat → ℝ) → (List Int → Nat → ℝ) → List Int → Nat → ℝ)
      (a : (List Int → Nat → ℝ) → (List Int → Nat → ℝ) → List Int → Nat → List Int → Nat → ℝ),
    ∀ {g2 : Guess2} {g3 : Guess3} {size : Int} {procs : List Int} {Ls : List (Layout K)},
      Setup g2 g3 false size procs axes axs Ls →
      (∀ hist pw w vecV vecU junkV junkU v u, Represents axs Ls dof vecV v → Represents axs Ls dof vecU u →
        (∃ F, computeIFunction Ls hist dof ⟨elt, pw, w⟩ cbR shift vecV t vecU junkV junkU = .ok F ∧ Represents axs Ls dof F (f v u)) ∧
        ∃ J, computeIJacobian Ls hist dof ⟨elt, pw, w⟩ cbK shift vecV t vecU junkV junkU = .ok J ∧ RepresentsMat axs Ls dof J (a v u)) ∧
      ∀ v u, AtPoints axs elt (fun e p => Good p (withValues (elt e) (valuesOf false axs dof u e))) →
        ∀ w, IsDerivative axs dof (fun s => f (along v (s * shift) w) (along u s w)) (a v u) w

/-- The number of basis functions of an element. -/
abbrev nodes (axs : List (Axis K)) : Nat := (indices (nens axs)).length

theorem newtonI_of {axes axs : List (Axis K)} {dof : Nat} {elt : List Int → Elt ℝ (PtData d nsd (nodes axs))} (hE : Elements axs dof elt)
    (cbR cbK : PtData d nsd (nodes axs) → ℝ → List ℝ → ℝ → List ℝ → (Int → ℝ) → Res (Int → ℝ))
    (r : PtData d nsd (nodes axs) → ℝ → List ℝ → ℝ → List ℝ → Fin (nodes axs) → Fin dof → ℝ)
    (k : PtData d nsd (nodes axs) → ℝ → List ℝ → ℝ → List ℝ → Fin (nodes axs) → Fin dof → Fin (nodes axs) → Fin dof → ℝ)
    (hR : ∀ p a X t U A, cbR p a X t U A = .ok (fillVec (r p a X t U) A))
    (hK : (∀ p a X t U A, cbK p a X t U A = .ok (fillMat (k p a X t U) A)) ∨ ∀ p a X t U A, cbK p a X t U A = .ok (addMat (k p a X t U) A))
    (Good : PtData d nsd (nodes axs) → List ℝ → Prop)
    (hD : ∀ p a X t U W, Good p U → X.length = nodes axs * dof → U.length = nodes axs * dof → W.length = nodes axs * dof → ∀ i : Nat, i < nodes axs * dof →
      HasDerivAt (fun s => outcome (cbR p a (axpy X (s * a) W) t (axpy U s W)) i) (rowTimes (nodes axs * dof) (outcome (cbK p a X t U)) i W) 0) (shift t : ℝ) :
    NewtonI axes axs dof elt cbR cbK shift t Good :=
  C78_ifunction_at axes axs dof elt hE cbR cbK (fun p a X t U => outcome (cbR p a X t U)) (fun p a X t U => outcome (cbK p a X t U))
    (fun a X t U => fills_vec _ (fun p => r p a X t U) fun p A => hR p a X t U A)
    (fun a X t U => by
      rcases hK with hK | hK
      · exact fills_mat _ (fun p => k p a X t U) fun p A => hK p a X t U A
      · exact fills_add _ (fun p => k p a X t U) fun p A => hK p a X t U A)
    (fun p _ U => Good p U) (fun p a X t U W hg hX hU hW i hi => hD p a X t U W hg hX hU hW i hi) shift t

/-- **C104**, demo/Bratu.c, steady: the matrix the Newton solver gets is the derivative of the residual it gets. -/
theorem C104_bratu_assembled (axes axs : List (Axis K)) (lambda : ℝ) (neq : Nat) (hneq : neq ≠ 1) (elt : List Int → Elt ℝ (PtData d nsd (nodes axs)))
    (hE : Elements axs 1 elt) : NewtonF axes axs 1 elt (bratuFunction lambda neq) (bratuJacobian lambda neq) (fun _ _ => True) :=
  C78_function_at axes axs 1 elt hE _ _ (fun p U => outcome (bratuFunction lambda neq p U)) (fun p U => outcome (bratuJacobian lambda neq p U))
    (fun U => fills_vec (dof := 1) _ _ fun p A => if_neg hneq) (fun U => fills_mat (dof := 1) _ _ fun p A => if_neg hneq)
    (fun _ _ => True) fun p U W _ hU hW i hi => C104_bratu lambda neq hneq p U W hU hW i hi

/-- **C104**, demo/Bratu.c, time-dependent. -/
theorem C104_bratu_transient_assembled (axes axs : List (Axis K)) (lambda : ℝ) (elt : List Int → Elt ℝ (PtData d nsd (nodes axs))) (hE : Elements axs 1 elt)
    (shift t : ℝ) : NewtonI axes axs 1 elt (bratuIFunction lambda) (bratuIJacobian lambda) shift t (fun _ _ => True) :=
  newtonI_of hE (bratuIFunction lambda) (bratuIJacobian lambda) _ _ (fun _ _ _ _ _ _ => rfl) (Or.inl fun _ _ _ _ _ _ => rfl) _
    (fun p a X t U W _ hX hU hW i hi => C104_bratu_transient lambda p a t X U W hX hU hW i hi) shift t

/-- **C104**, demo/CahnHilliard2D.c: at every field whose concentration is neither 0 nor 1 at the quadrature points. -/
theorem C104_cahn_hilliard_2d_assembled (axes axs : List (Axis K)) (alpha theta : ℝ) (elt : List Int → Elt ℝ (PtData 2 nsd (nodes axs))) (hE : Elements axs 1 elt)
    (shift t : ℝ) : NewtonI axes axs 1 elt (ch2Residual alpha theta) (ch2Tangent alpha theta) shift t
      (fun p U => value 1 p U 0 ≠ 0 ∧ value 1 p U 0 ≠ 1) :=
  newtonI_of hE (ch2Residual alpha theta) (ch2Tangent alpha theta) _ _ (fun _ _ _ _ _ _ => rfl) (Or.inl fun _ _ _ _ _ _ => rfl) _
    (fun p a X t U W hg hX hU hW i hi => C104_cahn_hilliard_2d alpha theta p a t X U W hX hU hW hg.1 hg.2 i hi) shift t

/-- **C104**, demo/CahnHilliard3D.c. -/
theorem C104_cahn_hilliard_3d_assembled (axes axs : List (Axis K)) (theta L0 lambda : ℝ) (elt : List Int → Elt ℝ (PtData 3 nsd (nodes axs))) (hE : Elements axs 1 elt)
    (shift t : ℝ) : NewtonI axes axs 1 elt (ch3Residual theta L0 lambda) (ch3Tangent theta L0 lambda) shift t
      (fun p U => value 1 p U 0 ≠ 0 ∧ value 1 p U 0 ≠ 1) :=
  newtonI_of hE (ch3Residual theta L0 lambda) (ch3Tangent theta L0 lambda) _ _ (fun _ _ _ _ _ _ => rfl) (Or.inl fun _ _ _ _ _ _ => rfl) _
    (fun p a X t U W hg hX hU hW i hi => C104_cahn_hilliard_3d theta L0 lambda p a t X U W hX hU hW hg.1 hg.2 i hi) shift t

/-- **C104**, demo/NavierStokesKorteweg2D.c. -/
theorem C104_nsk_assembled (axes axs : List (Axis K)) (Ca Re theta : ℝ) (elt : List Int → Elt ℝ (PtData 2 nsd (nodes axs))) (hE : Elements axs 3 elt)
    (shift t : ℝ) : NewtonI axes axs 3 elt (nskResidual Ca Re theta) (nskJacobian Ca Re theta) shift t (fun p U => value 3 p U 0 ≠ 1) :=
  newtonI_of hE (nskResidual Ca Re theta) (nskJacobian Ca Re theta) _ _ (fun _ _ _ _ _ _ => rfl) (Or.inr fun _ _ _ _ _ _ => rfl) _
    (fun p a X t U W hg hX hU hW i hi => C104_nsk Ca Re theta p a t X U W hX hU hW hg i hi) shift t

/-- **C104**, demo/PatternFormation.c: the derivative with respect to the new state, the old state being fixed. -/
theorem C104_pattern_formation_assembled (axes axs : List (Axis K)) (m : Pattern) (hb : m.beta ≠ 0) (elt : List Int → Elt ℝ (PtData 2 nsd (nodes axs)))
    (hE : Elements axs 2 elt) (shift t t0 : ℝ) :
    ∃ (f : (List Int → Nat → ℝ) → (List Int → Nat → ℝ) → (List Int → Nat → ℝ) → List Int → Nat → ℝ)
        (a : (List Int → Nat → ℝ) → (List Int → Nat → ℝ) → (List Int → Nat → ℝ) → List Int → Nat → List Int → Nat → ℝ),
      ∀ {g2 : Guess2} {g3 : Guess3} {size : Int} {procs : List Int} {Ls : List (Layout K)},
        Setup g2 g3 false size procs axes axs Ls →
        (∀ hist pw w vecV vecU vecU0 junkV junkU junkU0 v u u0, Represents axs Ls 2 vecV v → Represents axs Ls 2 vecU u → Represents axs Ls 2 vecU0 u0 →
          (∃ F, computeIEFunction Ls hist 2 ⟨elt, pw, w⟩ (patFunction m) shift vecV t vecU t0 vecU0 junkV junkU junkU0 = .ok F ∧ Represents axs Ls 2 F (f v u u0)) ∧
          ∃ J, computeIEJacobian Ls hist 2 ⟨elt, pw, w⟩ (patJacobian m) shift vecV t vecU t0 vecU0 junkV junkU junkU0 = .ok J ∧
            RepresentsMat axs Ls 2 J (a v u u0)) ∧
        ∀ v u u0 w, IsDerivative axs 2 (fun s => f (along v (s * shift) w) (along u s w) u0) (a v u u0) w :=
  C78_iefunction axes axs 2 elt hE _ _ (fun p a X t U t0 U0 => outcome (patFunction m p a X t U t0 U0)) (fun p a X t U t0 U0 => outcome (patJacobian m p a X t U t0 U0))
    (fun a X t U t0 U0 => fills_vec (dof := 2) _ _ fun p A => rfl) (fun a X t U t0 U0 => fills_add (dof := 2) _ _ fun p A => rfl)
    (fun p a X t U t0 U0 W hX hU _ hW i hi => C104_pattern_formation m hb p a t t0 X U U0 W hX hU hW i hi) shift t t0

/-- **C104**, demo/ElasticRod.c: second order in time. -/
theorem C104_elastic_rod_assembled (axes axs : List (Axis K)) (rho E : ℝ) (elt : List Int → Elt ℝ (PtData d nsd (nodes axs))) (hE : Elements axs 1 elt)
    (shiftA shiftV t : ℝ) :
    ∃ (f : (List Int → Nat → ℝ) → (List Int → Nat → ℝ) → (List Int → Nat → ℝ) → List Int → Nat → ℝ)
        (a : (List Int → Nat → ℝ) → (List Int → Nat → ℝ) → (List Int → Nat → ℝ) → List Int → Nat → List Int → Nat → ℝ),
      ∀ {g2 : Guess2} {g3 : Guess3} {size : Int} {procs : List Int} {Ls : List (Layout K)},
        Setup g2 g3 false size procs axes axs Ls →
        (∀ hist pw w vecA vecV vecU junkA junkV junkU x v u, Represents axs Ls 1 vecA x → Represents axs Ls 1 vecV v → Represents axs Ls 1 vecU u →
          (∃ F, computeI2Function Ls hist 1 ⟨elt, pw, w⟩ (rodFunction rho E) shiftA vecA shiftV vecV t vecU junkA junkV junkU = .ok F ∧
            Represents axs Ls 1 F (f x v u)) ∧
          ∃ J, computeI2Jacobian Ls hist 1 ⟨elt, pw, w⟩ (rodJacobian rho E) shiftA vecA shiftV vecV t vecU junkA junkV junkU = .ok J ∧
            RepresentsMat axs Ls 1 J (a x v u)) ∧
        ∀ x v u w, IsDerivative axs 1 (fun s => f (along x (s * shiftA) w) (along v (s * shiftV) w) (along u s w)) (a x v u) w :=
  C78_i2function axes axs 1 elt hE _ _ (fun p a X b Y t U => outcome (rodFunction rho E p a X b Y t U)) (fun p a X b Y t U => outcome (rodJacobian rho E p a X b Y t U))
    (fun a X b Y t U => fills_vec (dof := 1) _ _ fun p A => rfl) (fun a X b Y t U => fills_mat (dof := 1) _ _ fun p A => rfl)
    (fun p a X b Y t U W hX _ hU hW i hi => C104_elastic_rod rho E p a b t X Y U W hX hU hW i hi) shiftA shiftV t

/-! ### The hypotheses can be met -/

/-- A point of an element with three functions: values adding up to 1, slopes adding up to 0. -/
noncomputable def exPoint (d : Nat) : PtData d d 3 where
  u := []
  shape := ⟨fun _ => 1/3, fun _ a => if a = 0 then -1 else if a = 2 then 1 else 0, fun _ _ a => if a = 1 then -2 else 1, fun _ _ _ _ => 0, fun _ _ _ _ _ => 0⟩
  arrays := ⟨⟨fun _ => 0, fun _ _ => 0, fun _ _ _ => 0, fun _ _ _ _ => 0, fun _ _ _ _ _ => 0⟩,
    ⟨fun _ => 0, fun _ _ => 0, fun _ _ _ => 0, fun _ _ _ _ => 0, fun _ _ _ _ _ => 0⟩, 0,
    ⟨fun _ => 0, fun _ _ => 0, fun _ _ _ => 0, fun _ _ _ _ => 0, fun _ _ _ _ _ => 0⟩,
    ⟨fun _ => 0, fun _ _ => 0, fun _ _ _ => 0, fun _ _ _ _ => 0, fun _ _ _ _ _ => 0⟩, 0, fun _ => 0, 0⟩

theorem exPoint_value : value 1 (exPoint d) [1/2, 1/4, 1/8] 0 = 7/24 := by
  simp [value, Ker.evaluate, exPoint, fld, Fin.sum_univ_succ]
  norm_num

/-- `C104_cahn_hilliard_2d` applies, and the derivative is not zero. -/
example : HasDerivAt (fun s => outcome (ch2Residual 1 1 (exPoint 2) 2 (axpy [0, 0, 0] (s * 2) [1, 0, 0]) 0 (axpy [1/2, 1/4, 1/8] s [1, 0, 0])) 1)
      (rowTimes (3 * 1) (outcome (ch2Tangent 1 1 (exPoint 2) 2 [0, 0, 0] 0 [1/2, 1/4, 1/8])) 1 [1, 0, 0]) 0 :=
  C104_cahn_hilliard_2d 1 1 (exPoint 2) 2 0 [0, 0, 0] [1/2, 1/4, 1/8] [1, 0, 0] rfl rfl rfl (by rw [exPoint_value]; norm_num)
    (by rw [exPoint_value]; norm_num) 1 (by norm_num)

/-- `C104_cahn_hilliard_3d` applies. -/
example : HasDerivAt (fun s => outcome (ch3Residual 1 1 1 (exPoint 3) 2 (axpy [0, 0, 0] (s * 2) [1, 0, 0]) 0 (axpy [1/2, 1/4, 1/8] s [1, 0, 0])) 1)
      (rowTimes (3 * 1) (outcome (ch3Tangent 1 1 1 (exPoint 3) 2 [0, 0, 0] 0 [1/2, 1/4, 1/8])) 1 [1, 0, 0]) 0 :=
  C104_cahn_hilliard_3d 1 1 1 (exPoint 3) 2 0 [0, 0, 0] [1/2, 1/4, 1/8] [1, 0, 0] rfl rfl rfl (by rw [exPoint_value]; norm_num)
    (by rw [exPoint_value]; norm_num) 1 (by norm_num)

/-- `C104_nsk` applies. -/
example (W : List ℝ) (hW : W.length = 9) (i : Nat) (hi : i < 9) :
    HasDerivAt (fun s => outcome (nskResidual 1 1 1 (exPoint 2) 2 (axpy [0, 0, 0, 0, 0, 0, 0, 0, 0] (s * 2) W) 0 (axpy [1/2, 1, 0, 1/4, 0, 1, 1/8, 1, 1] s W)) i)
      (rowTimes (3 * 3) (outcome (nskJacobian 1 1 1 (exPoint 2) 2 [0, 0, 0, 0, 0, 0, 0, 0, 0] 0 [1/2, 1, 0, 1/4, 0, 1, 1/8, 1, 1])) i W) 0 :=
  C104_nsk 1 1 1 (exPoint 2) 2 0 _ _ W rfl rfl hW (by
    simp [value, Ker.evaluate, exPoint, fld, Fin.sum_univ_succ]
    norm_num) i hi

/-- `C104_bratu`, `C104_bratu_transient`, `C104_elastic_rod` and `C104_pattern_formation` have no condition on the state; the Bratu Jacobian is not zero. -/
example : outcome (bratuJacobian 1 3 (exPoint 1) [0, 0, 0]) 1 = -(1/9) := by
  have h := fillMat_at (n := 3) (dof := 1) (fun a _ b _ => dot (fun i => (exPoint 1).shape.t1 i a) (fun i => (exPoint 1).shape.t1 i b) -
    (exPoint 1).shape.t0 a * (exPoint 1).shape.t0 b * 1 * Real.exp (value 1 (exPoint 1) [0, 0, 0] 0)) (fun _ => 0) 0 0 1 0
  have h2 : ((at2 1 (0 : Fin 3) (0 : Fin 1) (1 : Fin 3) (0 : Fin 1) : Nat) : Int) = 1 := by decide
  rw [h2] at h
  simp only [outcome, bratuJacobian, OfNat.ofNat_ne_one, if_false]
  rw [h]
  have hv : value 1 (exPoint 1) [0, 0, 0] 0 = 0 := by simp [value, Ker.evaluate, exPoint, fld, Fin.sum_univ_succ]
  rw [hv, dot_eq]
  simp [exPoint]
  norm_num

end PetIGA.Frm
