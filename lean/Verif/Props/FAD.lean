import Verif.Model.FAD
import Verif.Props.GlobalDriver
import Mathlib.Analysis.Calculus.Deriv.Inv
import Mathlib.Analysis.SpecialFunctions.ExpDeriv
/-
C93: Jacobians obtained by automatic differentiation of a residual written as a template.
-/
set_option linter.unusedSectionVars false
namespace PetIGA.AD
open PetIGA.Drv

/-! ### Specification -/

/-- The AD number `x` describes the curve `γ` at `0`, where `w j` is the rate of change of the `j`-th independent
variable: its value is `γ 0` and its partial derivatives give the derivative of `γ` by the chain rule. -/
def Tangent (N : Nat) (w : Nat → ℝ) (γ : ℝ → ℝ) (x : Dual) : Prop :=
  γ 0 = x.val ∧ HasDerivAt γ (((List.range N).map fun j => x.dx j * w j).sum) 0

/-- Every operation of the expression is differentiable where it is evaluated: no division by zero, elementary functions at
points where `f'` is their derivative, comparisons that are not decided by equality. -/
def Expr.Defined (V U : List ℝ) (o : ℝ) : Expr → Prop
  | .const _ | .varV _ | .varU _ | .out => True
  | .add a b | .sub a b | .mul a b => a.Defined V U o ∧ b.Defined V U o
  | .div a b => a.Defined V U o ∧ b.Defined V U o ∧ b.real V U o ≠ 0
  | .app f f' a => a.Defined V U o ∧ HasDerivAt f (f' (a.real V U o)) (a.real V U o)
  | .cond e a b => e.Defined V U o ∧ e.real V U o ≠ 0 ∧
      (0 < e.real V U o → a.Defined V U o) ∧ (e.real V U o < 0 → b.Defined V U o)

/-- The expression does not use what the output array contained. -/
def Expr.Overwrites : Expr → Prop
  | .const _ | .varV _ | .varU _ => True
  | .out => False
  | .add a b | .sub a b | .mul a b | .div a b => a.Overwrites ∧ b.Overwrites
  | .app _ _ a => a.Overwrites
  | .cond e a b => e.Overwrites ∧ a.Overwrites ∧ b.Overwrites

/-! ### AD arithmetic is the chain rule -/

theorem sum_lin (N : Nat) (f g w : Nat → ℝ) (a b : ℝ) :
    ((List.range N).map fun j => (a * f j + b * g j) * w j).sum
      = a * ((List.range N).map fun j => f j * w j).sum + b * ((List.range N).map fun j => g j * w j).sum := by
  induction N with
  | zero => simp
  | succ n ih => simp only [List.range_succ, List.map_append, List.sum_append, ih]; simp; ring

theorem sum_scale (N : Nat) (f w : Nat → ℝ) (a : ℝ) :
    ((List.range N).map fun j => (a * f j) * w j).sum = a * ((List.range N).map fun j => f j * w j).sum := by
  have := sum_lin N f f w a 0
  simpa using this

theorem sum_const (N : Nat) (w : Nat → ℝ) : ((List.range N).map fun j => (0:ℝ) * w j).sum = 0 := by
  have := sum_scale N (fun _ => 0) w 0
  simpa using this

theorem tangent_const (N : Nat) (w : Nat → ℝ) (c : ℝ) : Tangent N w (fun _ => c) (Dual.const c) := by
  refine ⟨rfl, ?_⟩
  show HasDerivAt _ ((List.range N).map fun j => (0:ℝ) * w j).sum 0
  rw [sum_const]
  exact hasDerivAt_const 0 c

theorem Tangent.add {N w γ δ x y} (h : Tangent N w γ x) (k : Tangent N w δ y) :
    Tangent N w (fun s => γ s + δ s) (x.add y) := by
  refine ⟨by show γ 0 + δ 0 = x.val + y.val; rw [h.1, k.1], (h.2.fun_add k.2).congr_deriv ?_⟩
  have := sum_lin N x.dx y.dx w 1 1
  simp only [one_mul] at this
  exact this.symm

theorem Tangent.sub {N w γ δ x y} (h : Tangent N w γ x) (k : Tangent N w δ y) :
    Tangent N w (fun s => γ s - δ s) (x.sub y) := by
  refine ⟨by show γ 0 - δ 0 = x.val - y.val; rw [h.1, k.1], (h.2.fun_sub k.2).congr_deriv ?_⟩
  have := sum_lin N x.dx y.dx w 1 (-1)
  simp only [one_mul, neg_one_mul, ← sub_eq_add_neg] at this
  exact this.symm

theorem Tangent.mul {N w γ δ x y} (h : Tangent N w γ x) (k : Tangent N w δ y) :
    Tangent N w (fun s => γ s * δ s) (x.mul y) := by
  refine ⟨by show γ 0 * δ 0 = x.val * y.val; rw [h.1, k.1], (h.2.fun_mul k.2).congr_deriv ?_⟩
  have := sum_lin N x.dx y.dx w y.val x.val
  rw [h.1, k.1, mul_comm _ y.val, ← this]
  refine congrArg List.sum (List.map_congr_left fun j _ => ?_)
  show _ = (x.dx j * y.val + x.val * y.dx j) * w j
  ring

theorem Tangent.div {N w γ δ x y} (h : Tangent N w γ x) (k : Tangent N w δ y) (hy : y.val ≠ 0) :
    Tangent N w (fun s => γ s / δ s) (x.div y) := by
  have hd : δ 0 ≠ 0 := by rw [k.1]; exact hy
  refine ⟨by show γ 0 / δ 0 = x.val / y.val; rw [h.1, k.1], (h.2.fun_div k.2 hd).congr_deriv ?_⟩
  have := sum_lin N x.dx y.dx w (y.val / (y.val * y.val)) (-(x.val / (y.val * y.val)))
  have e : ((List.range N).map fun j => (x.div y).dx j * w j).sum
      = ((List.range N).map fun j =>
          (y.val / (y.val * y.val) * x.dx j + -(x.val / (y.val * y.val)) * y.dx j) * w j).sum := by
    refine congrArg List.sum (List.map_congr_left fun j _ => ?_)
    show (x.dx j * y.val - x.val * y.dx j) / (y.val * y.val) * w j = _
    ring
  rw [e, this, h.1, k.1]
  ring

theorem Tangent.app {N w γ x} {f f' : ℝ → ℝ} (h : Tangent N w γ x) (hf : HasDerivAt f (f' x.val) x.val) :
    Tangent N w (fun s => f (γ s)) (x.app f f') := by
  refine ⟨by show f (γ 0) = f x.val; rw [h.1], ?_⟩
  rw [← h.1] at hf
  refine (hf.comp (0:ℝ) h.2).congr_deriv ?_
  have := sum_scale N x.dx w (f' x.val)
  rw [h.1, ← this]
  rfl

/-- The instance for AD numbers of an expression describes the curve computed by the instance for real numbers. -/
theorem Expr.tangent {N : Nat} {w : Nat → ℝ} (V U : ℝ → List ℝ) (o : ℝ → ℝ) (X Y : List Dual) (z : Dual)
    (hV : ∀ i, Tangent N w (fun s => (V s).getD i 0) (Y.getD i (Dual.const 0)))
    (hU : ∀ i, Tangent N w (fun s => (U s).getD i 0) (X.getD i (Dual.const 0)))
    (ho : Tangent N w o z) (e : Expr) (hd : e.Defined (V 0) (U 0) (o 0)) :
    Tangent N w (fun s => e.real (V s) (U s) (o s)) (e.ad Y X z) := by
  induction e with
  | const c => exact tangent_const N w c
  | varV i => exact hV i
  | varU i => exact hU i
  | out => exact ho
  | add a b iha ihb => exact (iha hd.1).add (ihb hd.2)
  | sub a b iha ihb => exact (iha hd.1).sub (ihb hd.2)
  | mul a b iha ihb => exact (iha hd.1).mul (ihb hd.2)
  | div a b iha ihb =>
    have hb := ihb hd.2.1
    exact (iha hd.1).div hb (by rw [← hb.1]; exact hd.2.2)
  | app f f' a ih =>
    have ha := ih hd.1
    refine ha.app ?_
    rw [← ha.1]; exact hd.2
  | cond e a b ihe iha ihb =>
    obtain ⟨he, hne, h1, h2⟩ := hd
    have ht := ihe he
    have hc : ContinuousAt (fun s => e.real (V s) (U s) (o s)) 0 := ht.2.continuousAt
    rcases lt_or_gt_of_ne hne with hlt | hgt
    · have hb := ihb (h2 hlt)
      have ev : (fun s => (Expr.cond e a b).real (V s) (U s) (o s)) =ᶠ[nhds 0] fun s => b.real (V s) (U s) (o s) := by
        filter_upwards [hc.eventually_lt (continuousAt_const (y := (0:ℝ))) hlt] with s hs
        exact if_neg (not_lt.2 hs.le)
      have ea : (Expr.cond e a b).ad Y X z = b.ad Y X z := by
        show (if _ then _ else _) = _
        rw [← ht.1, if_neg (not_lt.2 hlt.le)]
      rw [ea]
      exact ⟨ev.eq_of_nhds.trans hb.1, hb.2.congr_of_eventuallyEq ev⟩
    · have ha := iha (h1 hgt)
      have ev : (fun s => (Expr.cond e a b).real (V s) (U s) (o s)) =ᶠ[nhds 0] fun s => a.real (V s) (U s) (o s) := by
        filter_upwards [(continuousAt_const (y := (0:ℝ))).eventually_lt hc hgt] with s hs
        exact if_pos hs
      have ea : (Expr.cond e a b).ad Y X z = a.ad Y X z := by
        show (if _ then _ else _) = _
        rw [← ht.1, if_pos hgt]
      rw [ea]
      exact ⟨ev.eq_of_nhds.trans ha.1, ha.2.congr_of_eventuallyEq ev⟩

/-! ### What is written to the output array does not depend on its old contents -/

theorem Expr.ad_overwrites (Y X : List Dual) (z z' : Dual) (e : Expr) (h : e.Overwrites) : e.ad Y X z = e.ad Y X z' := by
  induction e with
  | const c => rfl
  | varV i => rfl
  | varU i => rfl
  | out => exact absurd h id
  | add a b iha ihb => show Dual.add _ _ = Dual.add _ _; rw [iha h.1, ihb h.2]
  | sub a b iha ihb => show Dual.sub _ _ = Dual.sub _ _; rw [iha h.1, ihb h.2]
  | mul a b iha ihb => show Dual.mul _ _ = Dual.mul _ _; rw [iha h.1, ihb h.2]
  | div a b iha ihb => show Dual.div _ _ = Dual.div _ _; rw [iha h.1, ihb h.2]
  | app f f' a ih => show Dual.app _ _ _ = Dual.app _ _ _; rw [ih h]
  | cond e a b ihe iha ihb =>
    show (if _ then _ else _) = (if _ then _ else _)
    rw [ihe h.1, iha h.2.1, ihb h.2.2]

/-! ### Input and output -/

theorem inputFrom_getD (U : List ℝ) (i k : Nat) :
    (inputFrom i U).getD k (Dual.const 0) = if k < U.length then def_ (U.getD k 0) (i+k) else Dual.const 0 := by
  induction U generalizing i k with
  | nil => simp [inputFrom]
  | cons u U ih =>
    cases k with
    | zero => simp [inputFrom]
    | succ k =>
      have := ih (i+1) k
      simp only [inputFrom, List.getD_cons_succ, List.length_cons, Nat.succ_lt_succ_iff] at this ⊢
      rw [this, show i + 1 + k = i + (k+1) by omega]

theorem inputSeedFrom_getD (s : ℝ) (U : List ℝ) (i k : Nat) :
    (inputSeedFrom s i U).getD k (Dual.const 0) = if k < U.length then defSeed (U.getD k 0) s (i+k) else Dual.const 0 := by
  induction U generalizing i k with
  | nil => simp [inputSeedFrom]
  | cons u U ih =>
    cases k with
    | zero => simp [inputSeedFrom]
    | succ k =>
      have := ih (i+1) k
      simp only [inputSeedFrom, List.getD_cons_succ, List.length_cons, Nat.succ_lt_succ_iff] at this ⊢
      rw [this, show i + 1 + k = i + (k+1) by omega]

theorem sum_unit (N k : Nat) (s : ℝ) (w : Nat → ℝ) (hk : k < N) :
    ((List.range N).map fun j => (if j = k then s else 0) * w j).sum = s * w k := by
  induction N with
  | zero => omega
  | succ n ih =>
    rw [List.range_succ, List.map_append, List.sum_append]
    by_cases h : k = n
    · subst h
      have z : ((List.range k).map fun j => (if j = k then s else 0) * w j).sum = 0 := by
        have : ((List.range k).map fun j => (if j = k then s else 0) * w j) = (List.range k).map fun j => (0:ℝ) * w j :=
          List.map_congr_left fun j hj => by rw [if_neg (by have := List.mem_range.1 hj; omega)]
        rw [this, sum_const]
      rw [z]; simp
    · rw [ih (by omega)]; simp [Ne.symm h]

/-- `Input(X,U)`: the entries describe the motion of `U` with velocity `W`. -/
theorem input_tangent (U W : List ℝ) (h : U.length = W.length) (i : Nat) :
    Tangent U.length (fun j => W.getD j 0) (fun s => (axpy U s W).getD i 0) ((input U).getD i (Dual.const 0)) := by
  unfold input
  rw [inputFrom_getD]
  by_cases hi : i < U.length
  · rw [if_pos hi]
    have e : (fun s => (axpy U s W).getD i 0) = fun s => U.getD i 0 + s * W.getD i 0 :=
      funext fun s => axpy_getD s h i hi
    rw [e]
    refine ⟨by simp [def_], ?_⟩
    have hs : ((List.range U.length).map fun j => (def_ (U.getD i 0) (0+i)).dx j * W.getD j 0).sum = W.getD i 0 := by
      have := sum_unit U.length i 1 (fun j => W.getD j 0) hi
      simpa [def_] using this
    rw [hs]
    exact ((hasDerivAt_const (0:ℝ) (U.getD i 0)).fun_add ((hasDerivAt_id (0:ℝ)).mul_const (W.getD i 0))).congr_deriv (by simp)
  · rw [if_neg hi]
    have e : (fun s => (axpy U s W).getD i 0) = fun _ => (0:ℝ) := funext fun s => by
      unfold axpy
      rw [List.getD_eq_getElem?_getD, List.getElem?_eq_none (by simp; omega)]; rfl
    rw [e]
    exact tangent_const _ _ 0

/-- `Input(Y,V,s)`: the entries describe the motion of `V` with velocity `s W`. -/
theorem inputSeed_tangent (V W : List ℝ) (a : ℝ) (h : V.length = W.length) (i : Nat) :
    Tangent V.length (fun j => W.getD j 0) (fun s => (axpy V (s * a) W).getD i 0) ((inputSeed V a).getD i (Dual.const 0)) := by
  unfold inputSeed
  rw [inputSeedFrom_getD]
  by_cases hi : i < V.length
  · rw [if_pos hi]
    have e : (fun s => (axpy V (s * a) W).getD i 0) = fun s => V.getD i 0 + s * a * W.getD i 0 :=
      funext fun s => axpy_getD (s * a) h i hi
    rw [e]
    refine ⟨by simp [defSeed, def_], ?_⟩
    have hs : ((List.range V.length).map fun j => (defSeed (V.getD i 0) a (0+i)).dx j * W.getD j 0).sum = a * W.getD i 0 := by
      rw [← sum_unit V.length i a (fun j => W.getD j 0) hi]
      refine congrArg List.sum (List.map_congr_left fun j _ => ?_)
      unfold defSeed def_
      dsimp only
      rw [Function.update_apply, Nat.zero_add]
      by_cases hj : j = i
      · rw [if_pos hj, if_pos hj]
      · rw [if_neg hj, if_neg hj, if_neg hj]
    rw [hs]
    exact ((hasDerivAt_const (0:ℝ) (V.getD i 0)).fun_add
      (((hasDerivAt_id (0:ℝ)).mul_const a).mul_const (W.getD i 0))).congr_deriv (by simp)
  · rw [if_neg hi]
    have e : (fun s => (axpy V (s * a) W).getD i 0) = fun _ => (0:ℝ) := funext fun s => by
      unfold axpy
      rw [List.getD_eq_getElem?_getD, List.getElem?_eq_none (by simp; omega)]; rfl
    rw [e]
    exact tangent_const _ _ 0

theorem row_at (i N : Int) (v : Nat → ℝ) (M : Nat) (J : Int → ℝ) (k : Int) :
    (List.range M).foldl (fun J (j : Nat) => put J (i * N + j) (v j)) J k
      = if i * N ≤ k ∧ k < i * N + M then v (k - i * N).toNat else J k := by
  induction M with
  | zero =>
    rw [if_neg (by omega)]; rfl
  | succ n ih =>
    rw [List.range_succ, List.foldl_append]
    show (if k = i * N + n then v n else (List.range n).foldl (fun J (j : Nat) => put J (i * N + j) (v j)) J k) = _
    by_cases h : k = i * N + n
    · rw [if_pos h, if_pos (by push_cast; omega), h, show (i * N + (n:Int) - i * N).toNat = n by omega]
    · rw [if_neg h, ih]
      by_cases h2 : i * N ≤ k ∧ k < i * N + n
      · rw [if_pos h2, if_pos (by push_cast; omega)]
      · rw [if_neg h2, if_neg (by push_cast; omega)]

theorem rows_at (N : Nat) (R : Int → Dual) (M : Nat) (J : Int → ℝ) (k : Int) :
    (List.range M).foldl (fun J (i : Nat) => (List.range N).foldl
        (fun J (j : Nat) => put J ((i : Int) * N + j) ((R i).dx j)) J) J k
      = if 0 ≤ k ∧ k < M * N then (R (k / N)).dx (k % N).toNat else J k := by
  induction M with
  | zero => rw [if_neg (by push_cast; omega)]; rfl
  | succ n ih =>
    rw [List.range_succ, List.foldl_append]
    show (List.range N).foldl (fun J (j : Nat) => put J ((n : Int) * N + j) ((R n).dx j)) _ k = _
    rw [row_at, ih]
    have e : ((n+1 : Nat) : Int) * N = n * N + N := by push_cast; ring
    have hn : (0:Int) ≤ n * N := by positivity
    rw [e]
    by_cases h : (n:Int) * N ≤ k ∧ k < n * N + N
    · have hN : (0:Int) < N := by omega
      have h1 : k / N = n := by
        refine le_antisymm ?_ ?_
        · exact Int.lt_add_one_iff.1 (Int.ediv_lt_of_lt_mul hN (by rw [add_mul]; omega))
        · exact Int.le_ediv_of_mul_le hN h.1
      have h2 : k % N = k - n * N := by
        have := Int.emod_add_mul_ediv k N
        rw [h1, mul_comm] at this
        omega
      rw [if_pos h, if_pos (by omega), h1, h2]
    · rw [if_neg h]
      by_cases h2 : 0 ≤ k ∧ k < n * N
      · rw [if_pos h2, if_pos (by omega)]
      · rw [if_neg h2, if_neg (by omega)]

theorem output_at (N : Nat) (R : Int → Dual) (J : Int → ℝ) (k : Int) :
    output N R J k = if 0 ≤ k ∧ k < N * N then (R (k / N)).dx (k % N).toNat else J k := rows_at N R N J k

theorem output_entry (N : Nat) (R : Int → Dual) (J : Int → ℝ) (i j : Nat) (hi : i < N) (hj : j < N) :
    output N R J (i * N + j) = (R i).dx j := by
  have hN : (0:Int) < N := by omega
  have h0 : (0:Int) ≤ i * N := by positivity
  have hlt : (i:Int) * N + j < N * N := by
    have : (i:Int) * N + N ≤ N * N := by
      have : ((i:Int) + 1) * N ≤ N * N := Int.mul_le_mul_of_nonneg_right (by omega) (by omega)
      rw [add_mul] at this; omega
    omega
  rw [output_at, if_pos ⟨by omega, hlt⟩, Int.add_comm, Int.add_mul_ediv_right _ _ (by omega),
    Int.ediv_eq_zero_of_lt (by omega) (by omega), Int.zero_add, Int.add_mul_emod_self_right,
    Int.emod_eq_of_lt (by omega) (by omega), Int.toNat_natCast]

theorem rowTimes_output (N : Nat) (R : Int → Dual) (J : Int → ℝ) (i : Nat) (hi : i < N) (W : List ℝ) :
    rowTimes N (output N R J) i W = ((List.range N).map fun j => (R i).dx j * W.getD j 0).sum := by
  unfold rowTimes
  refine congrArg List.sum (List.map_congr_left fun j hj => ?_)
  rw [output_entry N R J i j hi (List.mem_range.1 hj)]

/-! ### The property -/

variable {P : Type}

/-- The AD instance of the residual obeys the chain rule at `U`: whatever curve the inputs describe, the outputs describe
the curve computed by `r`, the real instance. -/
def Propagates (N : Nat) (T : FunctionT P) (p : P) (R : Int → Dual) (r : List ℝ → Nat → ℝ) (U : List ℝ) : Prop :=
  ∀ (w : Nat → ℝ) (γ : ℝ → List ℝ) (X : List Dual), γ 0 = U →
    (∀ i, Tangent N w (fun s => (γ s).getD i 0) (X.getD i (Dual.const 0))) →
    ∀ i, i < N → Tangent N w (fun s => r (γ s) i) ((T.ad p X R).2 i)

/-- The same with the rates `V`. -/
def PropagatesI (N : Nat) (T : IFunctionT P) (p : P) (a t : ℝ) (R : Int → Dual) (r : List ℝ → List ℝ → Nat → ℝ)
    (V U : List ℝ) : Prop :=
  ∀ (w : Nat → ℝ) (δ γ : ℝ → List ℝ) (Y X : List Dual), δ 0 = V → γ 0 = U →
    (∀ i, Tangent N w (fun s => (δ s).getD i 0) (Y.getD i (Dual.const 0))) →
    (∀ i, Tangent N w (fun s => (γ s).getD i 0) (X.getD i (Dual.const 0))) →
    ∀ i, i < N → Tangent N w (fun s => r (δ s) (γ s) i) ((T.ad p a Y t X R).2 i)

theorem axpy_zero (U W : List ℝ) (h : U.length = W.length) : axpy U 0 W = U := by
  unfold axpy
  induction U generalizing W with
  | nil => rfl
  | cons u U ih =>
    cases W with
    | nil => simp at h
    | cons w W => simp only [List.zipWith_cons_cons]; rw [ih W (by simpa using h)]; simp

/-- **C93**, nonlinear problems: entry `[a][i][b][j]` of the matrix is the derivative of entry `[a][i]` of the residual in
the unknown `[b][j]`; applied to `W`, the matrix gives the derivative of the residual along `W`.  Nothing beyond the
`N*N` entries is written. -/
theorem C93_jacobian (N : Nat) (R : Int → Dual) (T : FunctionT P) (p : P) (r : List ℝ → Nat → ℝ) (U : List ℝ)
    (hU : U.length = N) (hT : Propagates N T p R r U) (J : Int → ℝ) :
    ∃ J', jacobian N R T p U J = Res.ok J' ∧
      (∀ W : List ℝ, W.length = N → ∀ i, i < N → HasDerivAt (fun s => r (axpy U s W) i) (rowTimes N J' i W) 0) ∧
      (∀ i j, i < N → j < N → HasDerivAt (fun x => r (U.set j x) i) (J' (i * N + j)) (U.getD j 0)) ∧
      ∀ k : Int, k < 0 ∨ N * N ≤ k → J' k = J k := by
  have main : ∀ W : List ℝ, W.length = N → ∀ i, i < N →
      HasDerivAt (fun s => r (axpy U s W) i) (rowTimes N (output N (T.ad p (input U) R).2 J) i W) 0 := by
    intro W hW i hi
    rw [rowTimes_output N _ J i hi W]
    refine (hT (fun j => W.getD j 0) (fun s => axpy U s W) (input U) (axpy_zero U W (by omega)) (fun k => ?_) i hi).2
    have := input_tangent U W (by omega) k
    rwa [hU] at this
  refine ⟨_, rfl, main, fun i j hi hj => ?_, fun k hk => ?_⟩
  · -- the unit vector in direction j
    let W : List ℝ := (List.range N).map fun k => if k = j then 1 else 0
    have hW : W.length = N := by simp [W]
    have hWj : ∀ k, k < N → W.getD k 0 = if k = j then 1 else 0 := by
      intro k hk
      rw [List.getD_eq_getElem?_getD, List.getElem?_eq_getElem (by omega)]
      simp [W]
    have h1 := main W hW i hi
    have hr : rowTimes N (output N (T.ad p (input U) R).2 J) i W = output N (T.ad p (input U) R).2 J (i * N + j) := by
      unfold rowTimes
      have := sum_unit N j 1 (fun k : Nat => output N (T.ad p (input U) R).2 J (i * N + k)) hj
      rw [one_mul] at this
      rw [← this]
      refine congrArg List.sum (List.map_congr_left fun k hk => ?_)
      rw [hWj k (List.mem_range.1 hk), mul_comm]
    rw [hr] at h1
    have hax : ∀ s, axpy U s W = U.set j (U.getD j 0 + s) := by
      intro s
      refine List.ext_getElem? fun k => ?_
      by_cases hk : k < N
      · have e1 := axpy_getD s (by omega : U.length = W.length) k (by omega)
        rw [hWj k hk, List.getD_eq_getElem?_getD, List.getElem?_eq_getElem (by simp [axpy]; omega)] at e1
        rw [List.getElem?_eq_getElem (by simp [axpy]; omega)]
        simp only [Option.getD_some] at e1
        rw [e1, List.getElem?_set]
        by_cases hjk : j = k
        · subst hjk
          simp [hU, hk]
        · rw [if_neg (Ne.symm hjk), if_neg hjk, List.getElem?_eq_getElem (by omega), List.getD_eq_getElem?_getD,
            List.getElem?_eq_getElem (by omega)]
          simp
      · rw [List.getElem?_eq_none (by simp [axpy]; omega), List.getElem?_eq_none (by simp; omega)]
    simp only [hax] at h1
    have h2 : HasDerivAt (fun x : ℝ => x - U.getD j 0) 1 (U.getD j 0) := (hasDerivAt_id _).sub_const _
    have h3 : HasDerivAt (fun s => r (U.set j (U.getD j 0 + s)) i) (output N (T.ad p (input U) R).2 J (i * N + j))
        ((fun x : ℝ => x - U.getD j 0) (U.getD j 0)) := by
      simpa using h1
    have := (HasDerivAt.comp (h := fun x : ℝ => x - U.getD j 0) (U.getD j 0) h3 h2).congr_deriv (mul_one _)
    refine this.congr_of_eventuallyEq (Filter.Eventually.of_forall fun x => ?_)
    show r (U.set j x) i = r (U.set j (U.getD j 0 + (x - U.getD j 0))) i
    rw [add_sub_cancel]
  · rw [output_at, if_neg (by omega)]

/-- **C93**, time dependent problems: the matrix is `∂F/∂U + a ∂F/∂V`, the derivative of the residual when `U` moves along
`W` and `V` along `a W`. -/
theorem C93_ijacobian (N : Nat) (R : Int → Dual) (T : IFunctionT P) (p : P) (a t : ℝ) (r : List ℝ → List ℝ → Nat → ℝ)
    (V U : List ℝ) (hV : V.length = N) (hU : U.length = N) (hT : PropagatesI N T p a t R r V U) (J : Int → ℝ) :
    ∃ J', ijacobian N R T p a V t U J = Res.ok J' ∧
      (∀ W : List ℝ, W.length = N → ∀ i, i < N →
        HasDerivAt (fun s => r (axpy V (s * a) W) (axpy U s W) i) (rowTimes N J' i W) 0) ∧
      ∀ k : Int, k < 0 ∨ N * N ≤ k → J' k = J k := by
  refine ⟨_, rfl, fun W hW i hi => ?_, fun k hk => by rw [output_at, if_neg (by omega)]⟩
  rw [rowTimes_output N _ J i hi W]
  refine (hT (fun j => W.getD j 0) (fun s => axpy V (s * a) W) (fun s => axpy U s W) (inputSeed V a) (input U)
    (by show axpy V (0 * a) W = V; rw [zero_mul]; exact axpy_zero V W (by omega)) (axpy_zero U W (by omega)) (fun k => ?_) (fun k => ?_) i hi).2
  · have := inputSeed_tangent V W a (by omega) k
    rwa [hV] at this
  · have := input_tangent U W (by omega) k
    rwa [hU] at this

/-- The array of AD numbers is either not read or created with zeros. -/
def Clean (code : Nat → Expr) (R : Int → Dual) : Prop := (∀ i, (code i).Overwrites) ∨ ∀ k, R k = Dual.const 0

/-- **C93**, every residual made of `+ - * /`, elementary functions and comparisons obeys the chain rule where its
operations are differentiable. -/
theorem C93_propagates (N : Nat) (code : P → Nat → Expr) (p : P) (R : Int → Dual) (hR : Clean (code p) R) (U : List ℝ)
    (hd : ∀ i, i < N → (code p i).Defined [] U 0) :
    Propagates N (FunctionT.ofCode N code) p R (fun U i => (code p i).real [] U 0) U := by
  intro w γ X h0 hX i hi
  have key := Expr.tangent (N := N) (w := w) (fun _ => []) γ (fun _ => 0) X [] (Dual.const 0)
    (fun k => by simpa using tangent_const N w 0) hX (tangent_const N w 0) (code p i) (by rw [h0]; exact hd i hi)
  have e : ((FunctionT.ofCode N code).ad p X R).2 i = (code p i).ad [] X (Dual.const 0) := by
    show (if (0:Int) ≤ i ∧ (i:Int) < N then (code p (i:Int).toNat).ad [] X (R i) else R i) = _
    rw [if_pos (by omega), Int.toNat_natCast]
    rcases hR with h | h
    · exact Expr.ad_overwrites [] X _ _ _ (h i)
    · rw [h]
  rw [e]
  exact key

/-- **C93**, the same for residuals with rates. -/
theorem C93_propagates_rates (N : Nat) (code : P → ℝ → ℝ → Nat → Expr) (p : P) (a t : ℝ) (R : Int → Dual)
    (hR : Clean (code p a t) R) (V U : List ℝ) (hd : ∀ i, i < N → (code p a t i).Defined V U 0) :
    PropagatesI N (IFunctionT.ofCode N code) p a t R (fun V U i => (code p a t i).real V U 0) V U := by
  intro w δ γ Y X h0 h1 hY hX i hi
  have key := Expr.tangent (N := N) (w := w) δ γ (fun _ => 0) X Y (Dual.const 0)
    hY hX (tangent_const N w 0) (code p a t i) (by rw [h0, h1]; exact hd i hi)
  have e : ((IFunctionT.ofCode N code).ad p a Y t X R).2 i = (code p a t i).ad Y X (Dual.const 0) := by
    show (if (0:Int) ≤ i ∧ (i:Int) < N then (code p a t (i:Int).toNat).ad Y X (R i) else R i) = _
    rw [if_pos (by omega), Int.toNat_natCast]
    rcases hR with h | h
    · exact Expr.ad_overwrites Y X _ _ _ (h i)
    · rw [h]
  rw [e]
  exact key

/-! ### Assembly -/

section Assembly
open PetIGA.Ax PetIGA.Part PetIGA.Lay PetIGA.Grid PetIGA.Asm PetIGA.Spec
variable {K : Type} [Field K] [LinearOrder K] [IsStrictOrderedRing K]

theorem function_fills (N : Nat) (code : P → Nat → Expr) (U : List ℝ) :
    Fills N (fun p => function (FunctionT.ofCode N code) p U) (fun p i => (code p i.toNat).real [] U 0) := by
  intro p A hA
  refine ⟨_, rfl, fun i h0 h1 => ?_⟩
  show (if 0 ≤ i ∧ i < N then (code p i.toNat).real [] U (A i) else A i) = _
  rw [if_pos ⟨h0, h1⟩, hA i h0 h1]

theorem ifunction_fills (N : Nat) (code : P → ℝ → ℝ → Nat → Expr) (a : ℝ) (V : List ℝ) (t : ℝ) (U : List ℝ) :
    Fills N (fun p => ifunction (IFunctionT.ofCode N code) p a V t U) (fun p i => (code p a t i.toNat).real V U 0) := by
  intro p A hA
  refine ⟨_, rfl, fun i h0 h1 => ?_⟩
  show (if 0 ≤ i ∧ i < N then (code p a t i.toNat).real V U (A i) else A i) = _
  rw [if_pos ⟨h0, h1⟩, hA i h0 h1]

/-- **C93**, nonlinear problems: with the residual and the Jacobian made from one template, the matrix assembled by
`IGAComputeJacobian` is the derivative of the vector assembled by `IGAComputeFunction`, on any number of processes. -/
theorem C93_assembled (axes axs : List (Axis K)) (dof : Nat) (elt : List Int → Elt ℝ P) (hE : Elements axs dof elt)
    (R : Int → Dual) (code : P → Nat → Expr) (hR : ∀ p, Clean (code p) R)
    (hd : ∀ p U i, i < unknowns axs dof → (code p i).Defined [] U 0) :
    ∃ (f : (List Int → Nat → ℝ) → List Int → Nat → ℝ) (a : (List Int → Nat → ℝ) → List Int → Nat → List Int → Nat → ℝ),
      ∀ {g2 : Guess2} {g3 : Guess3} {size : Int} {procs : List Int} {Ls : List (Layout K)},
        Setup g2 g3 false size procs axes axs Ls →
        (∀ hist pw w vecU junk u, Represents axs Ls dof vecU u →
          (∃ F, computeFunction Ls hist dof ⟨elt, pw, w⟩ (function (FunctionT.ofCode (unknowns axs dof) code)) vecU junk
              = .ok F ∧ Represents axs Ls dof F (f u)) ∧
          ∃ J, computeJacobian Ls hist dof ⟨elt, pw, w⟩
              (jacobian (unknowns axs dof) R (FunctionT.ofCode (unknowns axs dof) code)) vecU junk = .ok J ∧
            RepresentsMat axs Ls dof J (a u)) ∧
        ∀ u w, IsDerivative axs dof (fun s => f (along u s w)) (a u) w := by
  refine C78_function axes axs dof elt hE _ _ (fun p U i => (code p i.toNat).real [] U 0)
    (fun p U => output (unknowns axs dof) ((FunctionT.ofCode (unknowns axs dof) code).ad p (input U) R).2 (fun _ => 0))
    (fun U => function_fills _ code U) (fun U p A hA => ⟨_, rfl, fun i h0 h1 => ?_⟩) (fun p U W hU hW i hi => ?_)
  · beta_reduce
    rw [output_at, output_at, if_pos ⟨h0, by push_cast at h1; exact h1⟩, if_pos ⟨h0, by push_cast at h1; exact h1⟩]
  · obtain ⟨J', e, h, -⟩ := C93_jacobian _ R _ p _ U hU (C93_propagates (unknowns axs dof) code p R (hR p) U (hd p U)) (fun _ => 0)
    cases e
    exact h W hW i hi

/-- **C93**, time dependent problems: with the residual and the Jacobian made from one template, the matrix assembled by
`IGAComputeIJacobian` is `∂F/∂U + a ∂F/∂V` of the vector assembled by `IGAComputeIFunction`. -/
theorem C93_iassembled (axes axs : List (Axis K)) (dof : Nat) (elt : List Int → Elt ℝ P) (hE : Elements axs dof elt)
    (R : Int → Dual) (code : P → ℝ → ℝ → Nat → Expr) (hR : ∀ p a t, Clean (code p a t) R)
    (hd : ∀ p a t V U i, i < unknowns axs dof → (code p a t i).Defined V U 0) (a t : ℝ) :
    ∃ (f : (List Int → Nat → ℝ) → (List Int → Nat → ℝ) → List Int → Nat → ℝ) (a' : (List Int → Nat → ℝ) → (List Int → Nat → ℝ) → List Int → Nat → List Int → Nat → ℝ),
      ∀ {g2 : Guess2} {g3 : Guess3} {size : Int} {procs : List Int} {Ls : List (Layout K)},
        Setup g2 g3 false size procs axes axs Ls →
        (∀ hist pw w vecV vecU junkV junkU v u, Represents axs Ls dof vecV v → Represents axs Ls dof vecU u →
          (∃ F, computeIFunction Ls hist dof ⟨elt, pw, w⟩ (ifunction (IFunctionT.ofCode (unknowns axs dof) code))
              a vecV t vecU junkV junkU = .ok F ∧ Represents axs Ls dof F (f v u)) ∧
          ∃ J, computeIJacobian Ls hist dof ⟨elt, pw, w⟩
              (ijacobian (unknowns axs dof) R (IFunctionT.ofCode (unknowns axs dof) code))
              a vecV t vecU junkV junkU = .ok J ∧ RepresentsMat axs Ls dof J (a' v u)) ∧
        ∀ v u w, IsDerivative axs dof (fun s => f (along v (s * a) w) (along u s w)) (a' v u) w := by
  refine C78_ifunction axes axs dof elt hE _ _ (fun p a V t U i => (code p a t i.toNat).real V U 0)
    (fun p a V t U => output (unknowns axs dof)
      ((IFunctionT.ofCode (unknowns axs dof) code).ad p a (inputSeed V a) t (input U) R).2 (fun _ => 0))
    (fun a V t U => ifunction_fills _ code a V t U) (fun a V t U p A hA => ⟨_, rfl, fun i h0 h1 => ?_⟩)
    (fun p a V t U W hV hU hW i hi => ?_) a t
  · beta_reduce
    rw [output_at, output_at, if_pos ⟨h0, by push_cast at h1; exact h1⟩, if_pos ⟨h0, by push_cast at h1; exact h1⟩]
  · obtain ⟨J', e, h, -⟩ := C93_ijacobian _ R _ p a t _ V U hV hU
      (C93_propagates_rates (unknowns axs dof) code p a t R (hR p a t) V U (hd p a t V U)) (fun _ => 0)
    cases e
    exact h W hW i hi

end Assembly

/-! ### What does not hold -/

/-- **C93**, refuted part: an error reported by the residual is not reported by the Jacobian made from it, which returns
success and a matrix of leftovers. -/
theorem C93_errors_refuted : ∃ (N : Nat) (T : FunctionT Unit) (R : Int → Dual) (J : Int → ℝ),
    (∀ U F, function T () U F = Res.err .user) ∧ (∀ X R, (T.ad () X R).1 = some Err.user) ∧
      ∀ U, ∃ J', jacobian N R T () U J = Res.ok J' ∧ J' 0 = 7 :=
  ⟨1, ⟨fun _ _ F => (some .user, F), fun _ _ R => (some .user, R)⟩, fun _ => ⟨0, fun _ => 7⟩, fun _ => 0,
    fun _ _ => rfl, fun _ _ => rfl, fun _ => ⟨_, rfl, rfl⟩⟩

/-- **C93**, refuted part: with collocation a point has `neq*dof = dof` equations and the matrix it fills has
`dof*(nen*dof)` entries, but `(nen*dof)*(nen*dof)` entries are written: the entries behind the end of the matrix. -/
theorem C93_collocation_refuted (nen dof : Nat) (hn : 1 < nen) (hd : 0 < dof) :
    ∃ (T : FunctionT Unit) (R : Int → Dual) (U : List ℝ) (J J' : Int → ℝ),
      U.length = nen * dof ∧ jacobian (nen * dof) R T () U J = Res.ok J' ∧
        J' ((1 * dof) * (nen * dof) : Nat) ≠ J ((1 * dof) * (nen * dof) : Nat) := by
  refine ⟨FunctionT.ofCode (nen * dof) (fun _ _ => .varU 0), fun _ => Dual.const 0,
    List.replicate (nen * dof) 0, fun _ => 0, _, by simp, rfl, ?_⟩
  have hlt : 1 * dof < nen * dof := Nat.mul_lt_mul_of_pos_right hn hd
  have hpos : 0 < nen * dof := by omega
  have := output_entry (nen * dof) ((FunctionT.ofCode (P := Unit) (nen * dof) (fun _ _ => .varU 0)).ad ()
    (input (List.replicate (nen * dof) 0)) (fun _ => Dual.const 0)).2 (fun _ => 0) (1 * dof) 0 hlt hpos
  have e : ((1 * dof * (nen * dof) : Nat) : Int) = ((1 * dof : Nat) : Int) * (nen * dof : Nat) + (0 : Nat) := by push_cast; ring
  rw [e, this]
  show (if (0:Int) ≤ (1 * dof : Nat) ∧ ((1 * dof : Nat) : Int) < (nen * dof : Nat) then
    (input (List.replicate (nen * dof) 0)).getD 0 (Dual.const 0) else Dual.const 0).dx 0 ≠ 0
  rw [if_pos (by omega)]
  unfold input
  rw [inputFrom_getD, if_pos (by simpa using hpos)]
  simp [def_]

/-! ### The hypotheses can be met -/

/-- The residual of the Bratu problem, demo/AutoDiff/BratuFAD.cxx, with two basis functions of values `1/2` and derivatives
`-1`, `1`, and `λ = 3`: `F[a] = N1[a] ∇u - N0[a] λ exp(u)`. -/
noncomputable def bratu (a : Nat) : Expr :=
  let u : Expr := .add (.mul (.const (1/2)) (.varU 0)) (.mul (.const (1/2)) (.varU 1))
  let g : Expr := .add (.mul (.const (-1)) (.varU 0)) (.mul (.const 1) (.varU 1))
  .sub (.mul (.const (if a = 0 then -1 else 1)) g) (.mul (.const (1/2)) (.mul (.const 3) (.app Real.exp Real.exp u)))

example (U : List ℝ) (hU : U.length = 2) (R : Int → Dual) (J : Int → ℝ) :
    ∃ J', jacobian 2 R (FunctionT.ofCode 2 fun (_ : Unit) => bratu) () U J = Res.ok J' ∧
      ∀ i j, i < 2 → j < 2 → HasDerivAt (fun x => (bratu i).real [] (U.set j x) 0) (J' (i * 2 + j)) (U.getD j 0) := by
  obtain ⟨J', e, -, h, -⟩ := C93_jacobian 2 R (FunctionT.ofCode 2 fun (_ : Unit) => bratu) ()
    (fun U i => (bratu i).real [] U 0) U hU
    (C93_propagates 2 (fun _ => bratu) () R (Or.inl fun i => by simp [bratu, Expr.Overwrites]) U
      (fun i _ => by simp [bratu, Expr.Defined, Real.hasDerivAt_exp])) J
  exact ⟨J', e, h⟩

/-- The entry `[0][1]` it computes at `U = (0,0)`: `∂F_0/∂U_1 = -1 - (1/2) 3 (1/2)`. -/
example (R : Int → Dual) (J : Int → ℝ) :
    jacobian 2 R (FunctionT.ofCode 2 fun (_ : Unit) => bratu) () [0, 0] J
      = Res.ok (output 2 (((FunctionT.ofCode 2 fun (_ : Unit) => bratu).ad () (input [0, 0]) R).2) J) ∧
    output 2 (((FunctionT.ofCode 2 fun (_ : Unit) => bratu).ad () (input [0, 0]) R).2) J 1 = -1 - 1/2 * (3 * (1/2)) := by
  refine ⟨rfl, ?_⟩
  have := output_entry 2 (((FunctionT.ofCode 2 fun (_ : Unit) => bratu).ad () (input [0, 0]) R).2) J 0 1 (by omega) (by omega)
  rw [show (1:Int) = (0:Nat) * (2:Nat) + (1:Nat) by norm_num, this]
  simp [FunctionT.ofCode, bratu, Expr.ad, input, inputFrom, def_, Dual.sub, Dual.mul, Dual.add, Dual.app, Dual.const]

/-- An equation with a rate, `F = 2 V + U²`. -/
noncomputable def heat (_ : Nat) : Expr :=
  .add (.mul (.const 2) (.varV 0)) (.mul (.varU 0) (.varU 0))

example (a t v u : ℝ) (R : Int → Dual) (J : Int → ℝ) :
    ∃ J', ijacobian 1 R (IFunctionT.ofCode 1 fun (_ : Unit) _ _ => heat) () a [v] t [u] J = Res.ok J' ∧
      HasDerivAt (fun s => 2 * (v + s * a) + (u + s) * (u + s)) (J' 0) 0 := by
  obtain ⟨J', e, h, -⟩ := C93_ijacobian 1 R (IFunctionT.ofCode 1 fun (_ : Unit) _ _ => heat) () a t
    (fun V U i => (heat i).real V U 0) [v] [u] rfl rfl
    (C93_propagates_rates 1 (fun _ _ _ => heat) () a t R (Or.inl fun i => by simp [heat, Expr.Overwrites]) [v] [u]
      (fun i _ => by simp [heat, Expr.Defined])) J
  refine ⟨J', e, ?_⟩
  have := h [1] rfl 0 (by omega)
  simpa [heat, Expr.real, axpy, rowTimes] using this

/-- The assembled system of four processes of C51, with the residual `F_i = exp(u_0) u_i`. -/
example : ∃ Ls : List (Lay.Layout Rat), Asm.Setup Part.exactGuess2 Part.exactGuess3 false 4 [2,2] [Lay.exAx0, Lay.exAx1] Asm.exAxs Ls ∧
    ∃ (f : (List Int → Nat → ℝ) → List Int → Nat → ℝ) (a : (List Int → Nat → ℝ) → List Int → Nat → List Int → Nat → ℝ),
      (∀ hist pw w vecU junk u, Asm.Represents Asm.exAxs Ls 1 vecU u →
        ∃ J, computeJacobian Ls hist 1 ⟨exElts, pw, w⟩ (jacobian (unknowns Asm.exAxs 1) (fun _ => Dual.const 0)
          (FunctionT.ofCode (unknowns Asm.exAxs 1) fun (_ : Unit) i => .mul (.app Real.exp Real.exp (.varU 0)) (.varU i))) vecU junk
            = .ok J ∧ Asm.RepresentsMat Asm.exAxs Ls 1 J (a u)) ∧
      ∀ u w, IsDerivative Asm.exAxs 1 (fun s => f (along u s w)) (a u) w := by
  obtain ⟨Ls, S⟩ := Asm.exSetup Part.exactGuess2 Part.exactGuess3
  obtain ⟨f, a, h⟩ := C93_assembled [Lay.exAx0, Lay.exAx1] Asm.exAxs 1 exElts exElts_elements (fun _ => Dual.const 0)
    (fun (_ : Unit) i => .mul (.app Real.exp Real.exp (.varU 0)) (.varU i)) (fun _ => Or.inr fun _ => rfl)
    (fun _ U i _ => by simp [Expr.Defined, Real.hasDerivAt_exp])
  exact ⟨Ls, S, f, a, fun hist pw w vecU junk u hu => ((h S).1 hist pw w vecU junk u hu).2, (h S).2⟩

example : ∃ U : List ℝ, (Expr.cond (.varU 0) (.div (.const 1) (.varU 0)) (.varU 1)).Defined [] U 0 :=
  ⟨[2, 0], by simp [Expr.Defined, Expr.real]⟩

end PetIGA.AD
