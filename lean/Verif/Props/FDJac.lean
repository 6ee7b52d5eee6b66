import Verif.Model.FDJac
import Mathlib.Algebra.BigOperators.Ring.Finset
import Mathlib.Algebra.BigOperators.Field
import Mathlib.Tactic.FieldSimp
import Mathlib.Tactic.Ring
import Mathlib.Tactic.Linarith
import Mathlib.Tactic.Positivity
set_option linter.unusedSectionVars false
/-
C47: the finite difference Jacobians.
-/
namespace PetIGA.Spec
/-- The vector with `δ` added to entry `j`. -/
noncomputable def bump (U : Nat → ℝ) (j : Nat) (δ : ℝ) : Nat → ℝ := fun k => if k = j then U k + δ else U k
end PetIGA.Spec

namespace PetIGA.FD
open Finset PetIGA.Spec

theorem deltaWP_pos {e : ℝ} (he : 0 < e) (N : Nat) (U : Arr) : 0 < deltaWP e N U := by
  unfold deltaWP
  have := Real.sqrt_nonneg ((List.range N).foldl (fun s i => s + U i * U i) 0)
  exact mul_pos he (Real.sqrt_pos.mpr (by linarith))

theorem update_bump (U : Arr) (j : Nat) (δ : ℝ) : Function.update U j (U j + δ) = bump U j δ := by
  funext k
  unfold bump
  by_cases h : k = j
  · subst h; simp
  · simp [h]

theorem writeCol_spec {M N j : Nat} (hj : j < N) (h : ℝ) (F G J : Arr) :
    (∀ i, i < M → writeCol M N j h F G J (i*N+j) = (G i - F i)/h) ∧
    ∀ q, (∀ i, i < M → q ≠ i*N+j) → writeCol M N j h F G J q = J q := by
  induction M with
  | zero => exact ⟨by intro i hi; omega, fun q _ => rfl⟩
  | succ M ih =>
    have e : writeCol (M+1) N j h F G J = Function.update (writeCol M N j h F G J) (M*N+j) ((G M - F M)/h) := by
      unfold writeCol; rw [List.range_succ, List.foldl_append]; rfl
    rw [e]
    constructor
    · intro i hi
      by_cases c : i = M
      · subst c; simp
      · have hne : i*N+j ≠ M*N+j := by
          intro h'
          have : i*N = M*N := by omega
          exact c (Nat.eq_of_mul_eq_mul_right (by omega) this)
        rw [Function.update_of_ne hne]
        exact ih.1 i (by omega)
    · intro q hq
      rw [Function.update_of_ne (hq M (by omega))]
      exact ih.2 q fun i hi => hq i (by omega)

/-- Whatever the callback does, a successful return leaves the inputs as they were. -/
theorem columns_ins {m : Nat} (f : Callback m) (scale : Fin m → ℝ) (h : ℝ) (M N : Nat) (F : Arr) :
    ∀ (cnt j : Nat) (ins : Fin m → Arr) (G J J' : Arr), (columns f scale h M N F cnt j ins G J).2 = .ok J' →
      (columns f scale h M N F cnt j ins G J).1 = ins := by
  intro cnt
  induction cnt with
  | zero => intros; rfl
  | succ cnt ih =>
    intro j ins G J J' hok
    unfold columns at hok ⊢
    dsimp only at hok ⊢
    cases hf : f (fun a => Function.update (ins a) j (ins a j + h * scale a)) G with
    | ok G' =>
      rw [hf] at hok
      dsimp only at hok ⊢
      rw [ih _ _ _ _ _ hok]
      funext a
      simp
    | err e => rw [hf] at hok; cases hok
    | ub => rw [hf] at hok; cases hok

/-- The loop, for a callback that turns `Gs j` into `Gs (j+1)` in column `j`. -/
theorem columns_spec {m : Nat} (f : Callback m) (scale : Fin m → ℝ) (h : ℝ) (M N : Nat) (F : Arr) (ins : Fin m → Arr)
    (Gs : Nat → Arr) (hf : ∀ j, j < N → f (fun a => bump (ins a) j (h * scale a)) (Gs j) = .ok (Gs (j+1))) :
    ∀ (cnt j : Nat) (J : Arr), j + cnt = N → ∃ J', columns f scale h M N F cnt j ins (Gs j) J = (ins, .ok J') ∧
      (∀ i l, i < M → j ≤ l → l < N → J' (i*N+l) = (Gs (l+1) i - F i)/h) ∧
      ∀ q, (∀ i l, i < M → j ≤ l → l < N → q ≠ i*N+l) → J' q = J q := by
  intro cnt
  induction cnt with
  | zero => intro j J hj; exact ⟨J, rfl, by intro i l _ _ _; omega, fun _ _ => rfl⟩
  | succ cnt ih =>
    intro j J hj
    obtain ⟨J', e, h1, h2⟩ := ih (j+1) (writeCol M N j h F (Gs (j+1)) J) (by omega)
    have hw := writeCol_spec (M := M) (N := N) (j := j) (by omega) h F (Gs (j+1)) J
    refine ⟨J', ?_, ?_, ?_⟩
    · unfold columns
      dsimp only
      have hb : (fun a => Function.update (ins a) j (ins a j + h * scale a)) = fun a => bump (ins a) j (h * scale a) := by
        funext a; exact update_bump _ _ _
      rw [hb, hf j (by omega)]
      dsimp only
      have hr : (fun a => Function.update (Function.update (ins a) j (ins a j + h * scale a)) j (ins a j)) = ins := by
        funext a; simp
      rw [hr]; exact e
    · intro i l hi hl hN
      by_cases c : l = j
      · subst c
        rw [h2, hw.1 i hi]
        intro i' l' hi' hl' hN' heq
        have : (i*N+l) % N = (i'*N+l') % N := by rw [heq]
        rw [Nat.mul_add_mod', Nat.mul_add_mod', Nat.mod_eq_of_lt hN, Nat.mod_eq_of_lt hN'] at this
        omega
      · exact h1 i l hi (by omega) hN
    · intro q hq
      rw [h2 q fun i l hi hl hN => hq i l hi (by omega) hN]
      exact hw.2 q fun i hi => hq i j hi (by omega) (by omega)

/-- The point loop is running and two of the eight work vectors are free. -/
def Ready (p : Pt) : Prop := 0 ≤ p.index ∧ p.nvec + 2 ≤ 8

theorem fd_spec {m : Nat} (p : Pt) (hp : Ready p) (f : Callback m) (scale : Fin m → ℝ) (h : ℝ) (M N : Nat)
    (ins : Fin m → Arr) (J : Arr) (F : Arr) (Gs : Nat → Arr)
    (hF : f ins (fun i => if i < p.size then 0 else p.wvec p.nvec i) = .ok F)
    (h0 : Gs 0 = fun i => if i < p.size then 0 else p.wvec (p.nvec + 1) i)
    (hf : ∀ j, j < N → f (fun a => bump (ins a) j (h * scale a)) (Gs j) = .ok (Gs (j+1))) :
    ∃ J', fdJacobian p f scale h M N ins J = (ins, .ok J') ∧
      (∀ i l, i < M → l < N → J' (i*N+l) = (Gs (l+1) i - F i)/h) ∧ ∀ q, M*N ≤ q → J' q = J q := by
  obtain ⟨J', e, h1, h2⟩ := columns_spec f scale h M N F ins Gs hf N 0 J (by omega)
  refine ⟨J', ?_, fun i l hi hl => h1 i l hi (by omega) hl, fun q hq => h2 q ?_⟩
  · unfold fdJacobian getWorkVec
    rw [if_neg (by have := hp.1; omega), if_neg (by have := hp.2; omega)]
    dsimp only
    rw [if_neg (by have := hp.1; omega), if_neg (by have := hp.2; omega)]
    dsimp only
    rw [hF, ← h0]
    exact e
  · intro i l hi _ hl heq
    have : i*N + l < (i+1)*N := by rw [Nat.succ_mul]; omega
    have : (i+1)*N ≤ M*N := Nat.mul_le_mul_right _ hi
    omega

/-- Callbacks that write every entry of the output, whatever it contained. -/
theorem fd_overwrite {m : Nat} (p : Pt) (hp : Ready p) (f : Callback m) (scale : Fin m → ℝ) (h : ℝ) (M N : Nat)
    (ins : Fin m → Arr) (J : Arr) (r : (Fin m → Arr) → Nat → ℝ)
    (hf : ∀ x g, ∃ g', f x g = .ok g' ∧ ∀ i, i < M → g' i = r x i) :
    ∃ J', fdJacobian p f scale h M N ins J = (ins, .ok J') ∧
      (∀ i l, i < M → l < N → J' (i*N+l) = (r (fun a => bump (ins a) l (h * scale a)) i - r ins i)/h) ∧
      ∀ q, M*N ≤ q → J' q = J q := by
  choose out ho hr using hf
  obtain ⟨J', e, h1, h2⟩ := fd_spec p hp f scale h M N ins J (out ins _)
    (fun n => Nat.rec (motive := fun _ => Arr) (fun i => if i < p.size then 0 else p.wvec (p.nvec + 1) i)
      (fun j g => out (fun a => bump (ins a) j (h * scale a)) g) n) (ho _ _) rfl (fun j _ => ho _ _)
  refine ⟨J', e, ?_, h2⟩
  intro i l hi hl
  rw [h1 i l hi hl, hr _ _ i hi]
  congr 2
  exact hr _ _ i hi

/-- Affine function of one more vector. -/
noncomputable def lin (N : Nat) (A : Nat → Nat → ℝ) (U : Arr) (i : Nat) : ℝ := ∑ k ∈ range N, A i k * U k

theorem lin_bump {N j : Nat} (hj : j < N) (A : Nat → Nat → ℝ) (U : Arr) (δ : ℝ) (i : Nat) :
    lin N A (bump U j δ) i = lin N A U i + A i j * δ := by
  unfold lin
  have : ∀ k ∈ range N, A i k * bump U j δ k = A i k * U k + (if k = j then A i j * δ else 0) := by
    intro k _
    unfold bump
    by_cases c : k = j
    · subst c; simp; ring
    · simp [c]
  rw [sum_congr rfl this, sum_add_distrib, sum_ite_eq', if_pos (mem_range.mpr hj)]

/-- The array `J` holds the `M × N` matrix `D` row by row and is otherwise unchanged. -/
def Holds (M N : Nat) (J0 J : Arr) (D : Nat → Nat → ℝ) : Prop :=
  (∀ i j, i < M → j < N → J (i*N+j) = D i j) ∧ ∀ q, M*N ≤ q → J q = J0 q

/-- The callback computes the residual `r` and does not look at what its output array contained. -/
def Writes (M : Nat) (f : Arr → Res Arr) (r : Nat → ℝ) : Prop := ∀ g, ∃ g', f g = .ok g' ∧ ∀ i, i < M → g' i = r i

/-! ### The five functions, for callbacks that write their output -/

/-- **C47** (partial: callbacks that write every entry of their output array).  `IGAFormJacobianFD` leaves `U`
unchanged and stores the difference quotients of the residual in the matrix, one column per unknown. -/
theorem C47_jacobian_partial (sqrteps : ℝ) (he : 0 < sqrteps) (p : Pt) (hp : Ready p) (M N : Nat)
    (f : Arr → Arr → Res Arr) (r : Arr → Nat → ℝ) (hf : ∀ U, Writes M (f U) (r U)) (U J : Arr) :
    ∃ h, 0 < h ∧ ∃ J', jacobianFD sqrteps p M N f U J = (U, .ok J') ∧
      Holds M N J J' (fun i j => (r (bump U j h) i - r U i) / h) := by
  refine ⟨_, deltaWP_pos he N U, ?_⟩
  obtain ⟨J', e, h1, h2⟩ := fd_overwrite p hp (fun (x : Fin 1 → Arr) => f (x 0)) (fun _ => 1) (deltaWP sqrteps N U) M N
    (fun _ => U) J (fun x => r (x 0)) (fun x g => hf (x 0) g)
  refine ⟨J', ?_, ?_, h2⟩
  · unfold jacobianFD; rw [e]
  · intro i j hi hj; rw [h1 i j hi hj, mul_one]

/-- **C47**, `IGAFormIJacobianFD`. -/
theorem C47_ijacobian_partial (sqrteps : ℝ) (he : 0 < sqrteps) (p : Pt) (hp : Ready p) (M N : Nat)
    (f : ℝ → Arr → ℝ → Arr → Arr → Res Arr) (r : ℝ → Arr → ℝ → Arr → Nat → ℝ)
    (hf : ∀ s V t U, Writes M (f s V t U) (r s V t U)) (s : ℝ) (V : Arr) (t : ℝ) (U J : Arr) :
    ∃ h, 0 < h ∧ ∃ J', iJacobianFD sqrteps p M N f s V t U J = ((V, U), .ok J') ∧
      Holds M N J J' (fun i j => (r s (bump V j (h*s)) t (bump U j h) i - r s V t U i) / h) := by
  refine ⟨_, deltaWP_pos he N U, ?_⟩
  obtain ⟨J', e, h1, h2⟩ := fd_overwrite p hp (fun (x : Fin 2 → Arr) => f s (x 0) t (x 1)) (fun a => if a = 0 then s else 1)
    (deltaWP sqrteps N U) M N (fun a => if a = 0 then V else U) J (fun x => r s (x 0) t (x 1))
    (fun x g => hf s (x 0) t (x 1) g)
  refine ⟨J', ?_, ?_, h2⟩
  · unfold iJacobianFD; rw [e]; rfl
  · intro i j hi hj; rw [h1 i j hi hj]; simp

/-- **C47**, `IGAFormIEJacobianFD`. -/
theorem C47_iejacobian_partial (sqrteps : ℝ) (he : 0 < sqrteps) (p : Pt) (hp : Ready p) (M N : Nat)
    (f : ℝ → Arr → ℝ → Arr → ℝ → Arr → Arr → Res Arr) (r : ℝ → Arr → ℝ → Arr → ℝ → Arr → Nat → ℝ)
    (hf : ∀ s V t U t0 U0, Writes M (f s V t U t0 U0) (r s V t U t0 U0)) (s : ℝ) (V : Arr) (t : ℝ) (U : Arr) (t0 : ℝ)
    (U0 J : Arr) :
    ∃ h, 0 < h ∧ ∃ J', ieJacobianFD sqrteps p M N f s V t U t0 U0 J = ((V, U), .ok J') ∧
      Holds M N J J' (fun i j => (r s (bump V j (h*s)) t (bump U j h) t0 U0 i - r s V t U t0 U0 i) / h) := by
  refine ⟨_, deltaWP_pos he N U, ?_⟩
  obtain ⟨J', e, h1, h2⟩ := fd_overwrite p hp (fun (x : Fin 2 → Arr) => f s (x 0) t (x 1) t0 U0)
    (fun a => if a = 0 then s else 1)
    (deltaWP sqrteps N U) M N (fun a => if a = 0 then V else U) J (fun x => r s (x 0) t (x 1) t0 U0)
    (fun x g => hf s (x 0) t (x 1) t0 U0 g)
  refine ⟨J', ?_, ?_, h2⟩
  · unfold ieJacobianFD; rw [e]; rfl
  · intro i j hi hj; rw [h1 i j hi hj]; simp

/-- **C47**, `IGAFormI2JacobianFD`. -/
theorem C47_i2jacobian_partial (sqrteps : ℝ) (he : 0 < sqrteps) (p : Pt) (hp : Ready p) (M N : Nat)
    (f : ℝ → Arr → ℝ → Arr → ℝ → Arr → Arr → Res Arr) (r : ℝ → Arr → ℝ → Arr → ℝ → Arr → Nat → ℝ)
    (hf : ∀ a A v V t U, Writes M (f a A v V t U) (r a A v V t U)) (a : ℝ) (A : Arr) (v : ℝ) (V : Arr) (t : ℝ)
    (U J : Arr) :
    ∃ h, 0 < h ∧ ∃ J', i2JacobianFD sqrteps p M N f a A v V t U J = ((A, V, U), .ok J') ∧
      Holds M N J J' (fun i j => (r a (bump A j (h*a)) v (bump V j (h*v)) t (bump U j h) i - r a A v V t U i) / h) := by
  refine ⟨_, deltaWP_pos he N U, ?_⟩
  obtain ⟨J', e, h1, h2⟩ := fd_overwrite p hp (fun (x : Fin 3 → Arr) => f a (x 0) v (x 1) t (x 2))
    (fun b => if b = 0 then a else if b = 1 then v else 1)
    (deltaWP sqrteps N U) M N (fun b => if b = 0 then A else if b = 1 then V else U) J (fun x => r a (x 0) v (x 1) t (x 2))
    (fun x g => hf a (x 0) v (x 1) t (x 2) g)
  refine ⟨J', ?_, ?_, h2⟩
  · unfold i2JacobianFD; rw [e]; rfl
  · intro i j hi hj
    rw [h1 i j hi hj]
    have e1 : ((2 : Fin 3) = 0) = False := by decide
    have e2 : ((2 : Fin 3) = 1) = False := by decide
    have e3 : ((1 : Fin 3) = 0) = False := by decide
    simp [e1, e2, e3]

/-- **C47**, `IGAFormRHSJacobianFD`. -/
theorem C47_rhsjacobian_partial (sqrteps : ℝ) (he : 0 < sqrteps) (p : Pt) (hp : Ready p) (M N : Nat)
    (f : ℝ → Arr → Arr → Res Arr) (r : ℝ → Arr → Nat → ℝ) (hf : ∀ t U, Writes M (f t U) (r t U)) (t : ℝ) (U J : Arr) :
    ∃ h, 0 < h ∧ ∃ J', rhsJacobianFD sqrteps p M N f t U J = (U, .ok J') ∧
      Holds M N J J' (fun i j => (r t (bump U j h) i - r t U i) / h) := by
  refine ⟨_, deltaWP_pos he N U, ?_⟩
  obtain ⟨J', e, h1, h2⟩ := fd_overwrite p hp (fun (x : Fin 1 → Arr) => f t (x 0)) (fun _ => 1) (deltaWP sqrteps N U) M N
    (fun _ => U) J (fun x => r t (x 0)) (fun x g => hf t (x 0) g)
  refine ⟨J', ?_, ?_, h2⟩
  · unfold rhsJacobianFD; rw [e]
  · intro i j hi hj; rw [h1 i j hi hj, mul_one]

/-! ### Affine residuals -/

theorem holds_congr {M N : Nat} {J0 J : Arr} {D D' : Nat → Nat → ℝ} (h : Holds M N J0 J D)
    (e : ∀ i j, i < M → j < N → D i j = D' i j) : Holds M N J0 J D' :=
  ⟨fun i j hi hj => (h.1 i j hi hj).trans (e i j hi hj), h.2⟩

/-- **C47**, affine residuals: `F(U) = b + B U` gives exactly `B`. -/
theorem C47_affine_jacobian_partial (sqrteps : ℝ) (he : 0 < sqrteps) (p : Pt) (hp : Ready p) (M N : Nat)
    (f : Arr → Arr → Res Arr) (b : Nat → ℝ) (B : Nat → Nat → ℝ)
    (hf : ∀ U, Writes M (f U) (fun i => b i + ∑ k ∈ range N, B i k * U k)) (U J : Arr) :
    ∃ J', jacobianFD sqrteps p M N f U J = (U, .ok J') ∧ Holds M N J J' B := by
  obtain ⟨h, hh, J', e, H⟩ := C47_jacobian_partial sqrteps he p hp M N f (fun U i => b i + lin N B U i) hf U J
  refine ⟨J', e, holds_congr H ?_⟩
  intro i j _ hj
  rw [lin_bump hj]
  have := hh.ne'
  field_simp; ring

/-- **C47**, affine residuals: `F(t,U) = b(t) + B(t) U`. -/
theorem C47_affine_rhsjacobian_partial (sqrteps : ℝ) (he : 0 < sqrteps) (p : Pt) (hp : Ready p) (M N : Nat)
    (f : ℝ → Arr → Arr → Res Arr) (b : ℝ → Nat → ℝ) (B : ℝ → Nat → Nat → ℝ)
    (hf : ∀ t U, Writes M (f t U) (fun i => b t i + ∑ k ∈ range N, B t i k * U k)) (t : ℝ) (U J : Arr) :
    ∃ J', rhsJacobianFD sqrteps p M N f t U J = (U, .ok J') ∧ Holds M N J J' (B t) := by
  obtain ⟨h, hh, J', e, H⟩ := C47_rhsjacobian_partial sqrteps he p hp M N f (fun t U i => b t i + lin N (B t) U i) hf t U J
  refine ⟨J', e, holds_congr H ?_⟩
  intro i j _ hj
  rw [lin_bump hj]
  have := hh.ne'
  field_simp; ring

/-- **C47**, affine residuals: `F(s,V,t,U) = b + C V + B U` gives the shifted matrix `s C + B`. -/
theorem C47_affine_ijacobian_partial (sqrteps : ℝ) (he : 0 < sqrteps) (p : Pt) (hp : Ready p) (M N : Nat)
    (f : ℝ → Arr → ℝ → Arr → Arr → Res Arr) (b : Nat → ℝ) (C B : Nat → Nat → ℝ)
    (hf : ∀ s V t U, Writes M (f s V t U)
      (fun i => b i + ∑ k ∈ range N, C i k * V k + ∑ k ∈ range N, B i k * U k))
    (s : ℝ) (V : Arr) (t : ℝ) (U J : Arr) :
    ∃ J', iJacobianFD sqrteps p M N f s V t U J = ((V, U), .ok J') ∧
      Holds M N J J' (fun i j => s * C i j + B i j) := by
  obtain ⟨h, hh, J', e, H⟩ := C47_ijacobian_partial sqrteps he p hp M N f
    (fun _ V _ U i => b i + lin N C V i + lin N B U i) hf s V t U J
  refine ⟨J', e, holds_congr H ?_⟩
  intro i j _ hj
  rw [lin_bump hj, lin_bump hj]
  have := hh.ne'
  field_simp; ring

/-- **C47**, affine residuals: `F(s,V,t,U,t0,U0) = b + C V + B U + E U0` gives `s C + B` (the old solution is kept
fixed). -/
theorem C47_affine_iejacobian_partial (sqrteps : ℝ) (he : 0 < sqrteps) (p : Pt) (hp : Ready p) (M N : Nat)
    (f : ℝ → Arr → ℝ → Arr → ℝ → Arr → Arr → Res Arr) (b : Nat → ℝ) (C B E : Nat → Nat → ℝ)
    (hf : ∀ s V t U t0 U0, Writes M (f s V t U t0 U0)
      (fun i => b i + ∑ k ∈ range N, C i k * V k + ∑ k ∈ range N, B i k * U k + ∑ k ∈ range N, E i k * U0 k))
    (s : ℝ) (V : Arr) (t : ℝ) (U : Arr) (t0 : ℝ) (U0 J : Arr) :
    ∃ J', ieJacobianFD sqrteps p M N f s V t U t0 U0 J = ((V, U), .ok J') ∧
      Holds M N J J' (fun i j => s * C i j + B i j) := by
  obtain ⟨h, hh, J', e, H⟩ := C47_iejacobian_partial sqrteps he p hp M N f
    (fun _ V _ U _ U0 i => b i + lin N C V i + lin N B U i + lin N E U0 i) hf s V t U t0 U0 J
  refine ⟨J', e, holds_congr H ?_⟩
  intro i j _ hj
  rw [lin_bump hj, lin_bump hj]
  have := hh.ne'
  field_simp; ring

/-- **C47**, affine residuals: `F(a,A,v,V,t,U) = b + D A + C V + B U` gives `a D + v C + B`. -/
theorem C47_affine_i2jacobian_partial (sqrteps : ℝ) (he : 0 < sqrteps) (p : Pt) (hp : Ready p) (M N : Nat)
    (f : ℝ → Arr → ℝ → Arr → ℝ → Arr → Arr → Res Arr) (b : Nat → ℝ) (D C B : Nat → Nat → ℝ)
    (hf : ∀ a A v V t U, Writes M (f a A v V t U)
      (fun i => b i + ∑ k ∈ range N, D i k * A k + ∑ k ∈ range N, C i k * V k + ∑ k ∈ range N, B i k * U k))
    (a : ℝ) (A : Arr) (v : ℝ) (V : Arr) (t : ℝ) (U J : Arr) :
    ∃ J', i2JacobianFD sqrteps p M N f a A v V t U J = ((A, V, U), .ok J') ∧
      Holds M N J J' (fun i j => a * D i j + v * C i j + B i j) := by
  obtain ⟨h, hh, J', e, H⟩ := C47_i2jacobian_partial sqrteps he p hp M N f
    (fun _ A _ V _ U i => b i + lin N D A i + lin N C V i + lin N B U i) hf a A v V t U J
  refine ⟨J', e, holds_congr H ?_⟩
  intro i j _ hj
  rw [lin_bump hj, lin_bump hj, lin_bump hj]
  have := hh.ne'
  field_simp; ring

/-! ### Callbacks that add to their output array -/

/-- The callback adds the residual `r` to what its output array contains, which is legal wherever the array is
zeroed before the call. -/
def Adds (M : Nat) (f : Arr → Res Arr) (r : Nat → ℝ) : Prop :=
  ∀ g, ∃ g', f g = .ok g' ∧ (∀ i, i < M → g' i = g i + r i) ∧ ∀ i, M ≤ i → g' i = g i

/-- **C47**: what `IGAFormJacobianFD` computes with a callback that adds to its output: column `j` is the difference
quotient plus the residuals of all previous columns divided by `h`.  Only the first column is right in general. -/
theorem C47_accumulating (sqrteps : ℝ) (he : 0 < sqrteps) (p : Pt) (hp : Ready p) (M N : Nat) (hM : M = p.size)
    (f : Arr → Arr → Res Arr) (r : Arr → Nat → ℝ) (hf : ∀ U, Adds M (f U) (r U)) (U J : Arr) :
    ∃ h, 0 < h ∧ ∃ J', jacobianFD sqrteps p M N f U J = (U, .ok J') ∧
      Holds M N J J' (fun i j => (r (bump U j h) i - r U i) / h + (∑ l ∈ range j, r (bump U l h) i) / h) := by
  refine ⟨_, deltaWP_pos he N U, ?_⟩
  choose out ho ha hb using hf
  obtain ⟨J', e, h1, h2⟩ := fd_spec p hp (fun (x : Fin 1 → Arr) => f (x 0)) (fun _ => 1) (deltaWP sqrteps N U) M N
    (fun _ => U) J (out U _)
    (fun n => Nat.rec (motive := fun _ => Arr) (fun i => if i < p.size then 0 else p.wvec (p.nvec + 1) i)
      (fun j g => out (bump U j (deltaWP sqrteps N U * 1)) g) n) (ho _ _) rfl (fun j _ => ho _ _)
  refine ⟨J', ?_, ?_, h2⟩
  · unfold jacobianFD; rw [e]
  · intro i j hi hj
    have key : ∀ n, (Nat.rec (motive := fun _ => Arr) (fun i => if i < p.size then 0 else p.wvec (p.nvec + 1) i)
        (fun j g => out (bump U j (deltaWP sqrteps N U * 1)) g) n : Arr) i
        = ∑ l ∈ range n, r (bump U l (deltaWP sqrteps N U)) i := by
      intro n
      induction n with
      | zero => simp [hM ▸ hi]
      | succ n ih =>
        rw [sum_range_succ, ← ih]
        have := ha (bump U n (deltaWP sqrteps N U * 1))
          (Nat.rec (motive := fun _ => Arr) (fun i => if i < p.size then 0 else p.wvec (p.nvec + 1) i)
            (fun j g => out (bump U j (deltaWP sqrteps N U * 1)) g) n : Arr) i hi
        rw [mul_one] at this ⊢
        exact this
    rw [h1 i j hi hj, key (j+1), ha U _ i hi, sum_range_succ]
    rw [if_pos (hM ▸ hi)]
    ring

/-- **C47 fails** for callbacks that add to their output array: the residual `U_0 + U_1 + 1` of one equation in two
unknowns has Jacobian `(1, 1)`, the second entry comes out wrong whatever the machine precision. -/
theorem C47_accumulating_refuted : ¬ ∀ (sqrteps : ℝ) (p : Pt) (M N : Nat) (f : Arr → Arr → Res Arr) (b : Nat → ℝ)
    (B : Nat → Nat → ℝ) (U J : Arr), 0 < sqrteps → Ready p → M = p.size →
    (∀ U, Adds M (f U) (fun i => b i + ∑ k ∈ range N, B i k * U k)) →
    ∃ J', jacobianFD sqrteps p M N f U J = (U, .ok J') ∧ Holds M N J J' B := by
  intro H
  let f : Arr → Arr → Res Arr := fun U g => .ok fun i => if i < 1 then g i + (1 + ∑ k ∈ range 2, 1 * U k) else g i
  have hf : ∀ U, Adds 1 (f U) (fun i => (fun _ => 1) i + ∑ k ∈ range 2, (fun _ _ => 1) i k * U k) := by
    intro U g
    refine ⟨_, rfl, ?_, ?_⟩
    · intro i hi; exact if_pos hi
    · intro i hi; exact if_neg (by omega)
  have hp : Ready ⟨0, 0, 1, fun _ _ => 0⟩ := ⟨by decide, by decide⟩
  obtain ⟨J1, e1, H1⟩ := H 1 ⟨0, 0, 1, fun _ _ => 0⟩ 1 2 f (fun _ => 1) (fun _ _ => 1) (fun _ => 0) (fun _ => 0)
    one_pos hp rfl hf
  obtain ⟨h, hh, J2, e2, H2⟩ := C47_accumulating 1 one_pos ⟨0, 0, 1, fun _ _ => 0⟩ hp 1 2 rfl f _ hf (fun _ => 0)
    (fun _ => 0)
  rw [e1] at e2
  have : J1 = J2 := by injection e2 with _ a; injection a
  subst this
  have a := H1.1 0 1 (by decide) (by decide)
  have b := H2.1 0 1 (by decide) (by decide)
  rw [a] at b
  simp [sum_range_succ, bump] at b
  field_simp at b
  linarith

/-! ### The input vectors -/

theorem fd_ins {m : Nat} (p : Pt) (f : Callback m) (scale : Fin m → ℝ) (h : ℝ) (M N : Nat) (ins : Fin m → Arr)
    (J J' : Arr) (hok : (fdJacobian p f scale h M N ins J).2 = .ok J') : (fdJacobian p f scale h M N ins J).1 = ins := by
  unfold fdJacobian at hok ⊢
  cases h1 : getWorkVec p with
  | err e => rfl
  | ub => rfl
  | ok x =>
    rw [h1] at hok
    dsimp only at hok ⊢
    cases h2 : getWorkVec x.2 with
    | err e => rfl
    | ub => rfl
    | ok y =>
      rw [h2] at hok
      dsimp only at hok ⊢
      cases h3 : f ins x.1 with
      | err e => rfl
      | ub => rfl
      | ok F => rw [h3] at hok; exact columns_ins _ _ _ _ _ _ _ _ _ _ _ _ hok

/-- **C47** (partial: when the function succeeds).  Whatever the callback computes, the vectors passed by the user have
their old contents when one of the five functions returns successfully. -/
theorem C47_inputs_unchanged_partial (sqrteps : ℝ) (p : Pt) (M N : Nat) (J J' : Arr) :
    (∀ f U, (jacobianFD sqrteps p M N f U J).2 = .ok J' → (jacobianFD sqrteps p M N f U J).1 = U) ∧
    (∀ f t U, (rhsJacobianFD sqrteps p M N f t U J).2 = .ok J' → (rhsJacobianFD sqrteps p M N f t U J).1 = U) ∧
    (∀ f s V t U, (iJacobianFD sqrteps p M N f s V t U J).2 = .ok J' → (iJacobianFD sqrteps p M N f s V t U J).1 = (V, U)) ∧
    (∀ f s V t U t0 U0, (ieJacobianFD sqrteps p M N f s V t U t0 U0 J).2 = .ok J' →
      (ieJacobianFD sqrteps p M N f s V t U t0 U0 J).1 = (V, U)) ∧
    (∀ f a A v V t U, (i2JacobianFD sqrteps p M N f a A v V t U J).2 = .ok J' →
      (i2JacobianFD sqrteps p M N f a A v V t U J).1 = (A, V, U)) := by
  refine ⟨?_, ?_, ?_, ?_, ?_⟩
  · intro f U h; exact congrFun (fd_ins p _ _ _ M N _ J J' h) 0
  · intro f t U h; exact congrFun (fd_ins p _ _ _ M N _ J J' h) 0
  · intro f s V t U h
    have := fd_ins p _ _ _ M N _ J J' h
    exact Prod.ext (congrFun this 0) (congrFun this 1)
  · intro f s V t U t0 U0 h
    have := fd_ins p _ _ _ M N _ J J' h
    exact Prod.ext (congrFun this 0) (congrFun this 1)
  · intro f a A v V t U h
    have := fd_ins p _ _ _ M N _ J J' h
    exact Prod.ext (congrFun this 0) (Prod.ext (congrFun this 1) (congrFun this 2))

/-- **C47 fails** for the input vectors when the residual callback reports an error: the perturbed entry is not put
back (here the callback refuses vectors whose first entry is not zero). -/
theorem C47_inputs_after_error_refuted (sqrteps : ℝ) (he : 0 < sqrteps) (J : Arr) :
    ∃ (p : Pt) (f : Arr → Arr → Res Arr) (U : Arr), Ready p ∧
      (jacobianFD sqrteps p 1 1 f U J).2 = .err .user ∧ (jacobianFD sqrteps p 1 1 f U J).1 0 ≠ U 0 := by
  classical
  refine ⟨⟨0, 0, 1, fun _ _ => 0⟩, fun U g => if U 0 = 0 then .ok g else .err .user, fun _ => 0, ⟨by decide, by decide⟩, ?_⟩
  have hd := (deltaWP_pos he 1 (fun _ => 0)).ne'
  have h1 : Function.update (fun _ : Nat => (0:ℝ)) 0 (0 + deltaWP sqrteps 1 (fun _ => 0) * 1) 0 ≠ 0 := by
    simpa using hd
  unfold jacobianFD fdJacobian getWorkVec
  simp only [columns, if_neg h1]
  simp [hd]

/-- **C47**: outside a point loop, or with fewer than two free work vectors, nothing is touched and an error is
returned. -/
theorem C47_not_ready (sqrteps : ℝ) (p : Pt) (hp : ¬ Ready p) (M N : Nat) (f : Arr → Arr → Res Arr) (U J : Arr) :
    ∃ e, jacobianFD sqrteps p M N f U J = (U, .err e) ∧ (e = .wrongState ∨ e = .outOfRange) := by
  unfold Ready at hp
  unfold jacobianFD fdJacobian getWorkVec
  by_cases c : p.index < 0
  · exact ⟨.wrongState, by simp [c], .inl rfl⟩
  · refine ⟨.outOfRange, ?_, .inr rfl⟩
    by_cases c2 : p.nvec ≥ 8
    · simp [c, c2]
    · have : p.nvec + 1 ≥ 8 := by omega
      simp [c, c2, this]

/-! ### The hypotheses can be met -/

/-- A point in the loop with one work vector taken, two equations in three unknowns, a nonlinear residual. -/
example : ∃ h : ℝ, 0 < h ∧ ∃ J' : Arr, jacobianFD (1/1000) ⟨4, 1, 2, fun _ _ => 7⟩ 2 3
      (fun U _ => .ok fun i => (U i)^2 + U 2) (fun k => k) (fun _ => 5) = ((fun k : Nat => (k:ℝ)), Res.ok J') ∧
    Holds 2 3 (fun _ => 5) J'
      (fun i j => (((bump (fun k => k) j h i)^2 + bump (fun k => k) j h 2) - ((i:ℝ)^2 + ((2:Nat):ℝ))) / h) :=
  C47_jacobian_partial (1/1000) (by norm_num) ⟨4, 1, 2, fun _ _ => 7⟩ ⟨by decide, by decide⟩ 2 3 _
    (fun U i => (U i)^2 + U 2) (fun U g => ⟨_, rfl, fun _ _ => rfl⟩) _ _

example : ∃ J' : Arr, iJacobianFD (1/1000) ⟨4, 1, 2, fun _ _ => 7⟩ 1 2
      (fun _ V _ U _ => .ok fun i => 3 + ∑ k ∈ range 2, (k:ℝ) * V k + ∑ k ∈ range 2, (i+2:ℝ) * U k) 10 (fun _ => 1) 0
        (fun k => k) (fun _ => 5)
      = (((fun _ : Nat => (1:ℝ)), (fun k : Nat => (k:ℝ))), Res.ok J') ∧ J' 1 = 12 := by
  obtain ⟨J', e, H⟩ := C47_affine_ijacobian_partial (1/1000) (by norm_num) ⟨4, 1, 2, fun _ _ => 7⟩ ⟨by decide, by decide⟩ 1 2
    _ (fun _ => 3) (fun _ k => k) (fun i _ => i+2) (fun s V t U g => ⟨_, rfl, fun _ _ => rfl⟩) 10 (fun _ => 1) 0
    (fun k => k) (fun _ => 5)
  refine ⟨J', e, ?_⟩
  have := H.1 0 1 (by decide) (by decide)
  norm_num at this
  exact this

end PetIGA.FD
