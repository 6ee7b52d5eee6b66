import Verif.Props.NitscheEnergy
/-
C124: up to degree 4 the matrix of demo/NitscheMethod.c is positive definite.
-/
set_option linter.unusedSectionVars false
namespace PetIGA.Demo
open PetIGA.Quad PetIGA.Drv PetIGA.Spec PetIGA.Ax PetIGA.Lay PetIGA.Asm PetIGA.Rule PetIGA.Grid PetIGA.Part PetIGA.Ker PetIGA.PCA PetIGA.Itg
open Polynomial

variable {g2 : Guess2} {g3 : Guess3} {size : Int} {procs : List Int} {axes axs : List (Axis ℝ)} {Ls : List (Layout ℝ)}

/-! ### Values at the ends of an interval -/

theorem cubic_integral (a b c d : ℝ) : ∫ x in (-1:ℝ)..1, (a + b * x + c * x^2 + d * x^3)^2 =
    2 * a^2 + 2/3 * b^2 + 4/3 * (a * c) + 2/5 * c^2 + 4/5 * (b * d) + 2/7 * d^2 := by
  have h : ∀ x : ℝ, HasDerivAt (fun x : ℝ => a^2 * x + a*b * x^2 + (b^2 + 2*a*c)/3 * x^3 + (2*a*d + 2*b*c)/4 * x^4 + (c^2 + 2*b*d)/5 * x^5 + 2*c*d/6 * x^6 +
      d^2/7 * x^7) ((a + b * x + c * x^2 + d * x^3)^2) x := by
    intro x
    have := (((((((hasDerivAt_id x).const_mul (a^2)).add ((hasDerivAt_pow 2 x).const_mul (a*b))).add ((hasDerivAt_pow 3 x).const_mul ((b^2 + 2*a*c)/3))).add
      ((hasDerivAt_pow 4 x).const_mul ((2*a*d + 2*b*c)/4))).add ((hasDerivAt_pow 5 x).const_mul ((c^2 + 2*b*d)/5))).add ((hasDerivAt_pow 6 x).const_mul (2*c*d/6))).add
      ((hasDerivAt_pow 7 x).const_mul (d^2/7))
    refine (this.congr_deriv ?_)
    push_cast
    norm_num
    ring
  rw [intervalIntegral.integral_eq_sub_of_hasDerivAt (fun x _ => h x) (by apply Continuous.intervalIntegrable; fun_prop)]
  ring

theorem cubic_eval {P : ℝ[X]} {n : Nat} (h : P.natDegree ≤ n) (hn : n < 4) (x : ℝ) : P.eval x = P.coeff 0 + P.coeff 1 * x + P.coeff 2 * x^2 + P.coeff 3 * x^3 := by
  rw [eval_eq_sum_range' (n := 4) (by omega)]
  simp [Finset.sum_range_succ]

/-- The squares of the values at the ends of an interval, bounded by the integral of the square: the sharp constant `p(p+1)` for degree `p-1`. -/
theorem ends_bound {p : Nat} (h1 : 1 ≤ p) (h4 : p ≤ 4) {Q : ℝ[X]} (hQ : Q.natDegree ≤ p - 1) {a b : ℝ} (hab : a < b) :
    (b - a) * (Q.eval a ^ 2 + Q.eval b ^ 2) ≤ p * (p + 1) * ∫ x in a..b, (Q ^ 2).eval x := by
  set P : ℝ[X] := Q.comp (C ((b-a)/2) * X + C ((a+b)/2)) with hP
  have hd : P.natDegree ≤ p - 1 := by
    refine natDegree_comp_le.trans (le_trans (Nat.mul_le_mul_left _ natDegree_linear_le) (by omega))
  have hev : ∀ t, P.eval t = Q.eval ((b-a)/2 * t + (a+b)/2) := fun t => by simp [hP]
  have hI : ∫ x in a..b, (Q ^ 2).eval x = (b-a)/2 * ∫ t in (-1:ℝ)..1, (P.eval t)^2 := by
    have := intervalIntegral.mul_integral_comp_mul_add (f := fun x => (Q^2).eval x) (a := -1) (b := 1) ((b-a)/2) ((a+b)/2)
    simp only [hev, eval_pow] at this ⊢
    rw [this]
    congr 1 <;> ring
  have ea : Q.eval a = P.eval (-1) := by rw [hev]; congr 1; ring
  have eb : Q.eval b = P.eval 1 := by rw [hev]; congr 1; ring
  have hz : ∀ k, p ≤ k → P.coeff k = 0 := fun k hk => coeff_eq_zero_of_natDegree_lt (by omega)
  have hc : ∀ t, P.eval t = P.coeff 0 + P.coeff 1 * t + P.coeff 2 * t^2 + P.coeff 3 * t^3 := cubic_eval hd (by omega)
  rw [hI, ea, eb]
  simp only [hc, cubic_integral]
  set x := P.coeff 0
  set y := P.coeff 1
  set z := P.coeff 2
  set w := P.coeff 3
  have key : (x + y * -1 + z * (-1)^2 + w * (-1)^3)^2 + (x + y * 1 + z * 1^2 + w * 1^3)^2 ≤
      p * (p+1) / 2 * (2 * x^2 + 2/3 * y^2 + 4/3 * (x * z) + 2/5 * z^2 + 4/5 * (y * w) + 2/7 * w^2) := by
    interval_cases p
    · rw [show y = 0 from hz 1 (by omega), show z = 0 from hz 2 (by omega), show w = 0 from hz 3 (by omega)]
      norm_num
      nlinarith
    · rw [show z = 0 from hz 2 (by omega), show w = 0 from hz 3 (by omega)]
      norm_num
      nlinarith [sq_nonneg x, sq_nonneg y]
    · rw [show w = 0 from hz 3 (by omega)]
      norm_num
      nlinarith [sq_nonneg (x + z/5), sq_nonneg y, sq_nonneg z, sq_nonneg (5 * x + z)]
    · norm_num
      nlinarith [sq_nonneg (x + 7/27 * z), sq_nonneg (y + 3/7 * w), sq_nonneg z]
  have := mul_le_mul_of_nonneg_left key (sub_pos.2 hab).le
  calc _ ≤ _ := this
    _ = _ := by ring

/-- A penalised boundary term. -/
theorem penalised {α V σ r : ℝ} (hα : 0 < α) (hσ : σ ^ 2 = 1) : -(r ^ 2 / α) ≤ α * V ^ 2 - 2 * V * (σ * r) := by
  have h : α * V ^ 2 - 2 * V * (σ * r) + r ^ 2 / α = (α * V - σ * r) ^ 2 / α := by
    field_simp
    linear_combination (- r^2) * hσ
  have : 0 ≤ (α * V - σ * r) ^ 2 / α := by positivity
  linarith

theorem list_range_sum (n : Nat) (f : Nat → ℝ) : ((List.range n).map f).sum = ∑ k ∈ Finset.range n, f k := by
  rw [Finset.sum_eq_multiset_sum]
  rfl

/-- The outward direction of a side. -/
noncomputable def outward (s : Bool) : ℝ := if s then 1 else -1

/-- The length of element `k` of a direction. -/
noncomputable def size1 (ax : Axis ℝ) (k : Int) : ℝ := (cell ax k).2 - (cell ax k).1

/-- One line of the mesh: the boundary terms at its two ends are outweighed by four fifths of the integral of the square of the derivative. -/
theorem line_bound {δ : Direction Line} (hw : WF δ.ax) (ho : OpenEnds δ.ax) {n : Nat} (hx : ExactRule n δ.X δ.W) (hn : 2 * (δ.ax.p.toNat - 1) ≤ n)
    {degree : Int} (hp : δ.ax.p ≤ degree) (h4 : degree ≤ 4) (R : Int → ℝ[X]) (hR : ∀ k, (R k).natDegree ≤ δ.ax.p.toNat - 1) (V : Bool → ℝ) :
    1/5 * ((List.range δ.ax.nel.toNat).map fun (k : Nat) => ((linePts δ k).map fun p => (R k).eval p.x ^ 2 * (p.J * p.w)).sum).sum ≤
      ((List.range δ.ax.nel.toNat).map fun (k : Nat) => ((linePts δ k).map fun p => (R k).eval p.x ^ 2 * (p.J * p.w)).sum).sum +
      ∑ s : Bool, (5 * ((degree:ℝ) + 1) / size1 δ.ax (sideElem δ.ax s) * V s ^ 2 -
        2 * V s * (outward s * (R (sideElem δ.ax s)).eval (sideEnd δ.ax s))) := by
  have hnel := face_nel_pos hw ho
  have hp1 := hw.legal.degree
  set I : Int → ℝ := fun k => ∫ x in (cell δ.ax k).1..(cell δ.ax k).2, (R k ^ 2).eval x with hI
  have hlen : ∀ k : Int, 0 ≤ k → k < δ.ax.nel → 0 < size1 δ.ax k := fun k h0 h1 => by
    have := (isElement_sp hw h0 h1).2.2
    unfold size1 cell; linarith
  have hI0 : ∀ k : Int, 0 ≤ k → k < δ.ax.nel → 0 ≤ I k := fun k h0 h1 => by
    have := hlen k h0 h1
    unfold size1 at this
    exact intervalIntegral.integral_nonneg (by linarith) fun x _ => by rw [eval_pow]; positivity
  have e2 : ∀ k : Nat, ((linePts δ k).map fun p => (R k).eval p.x ^ 2 * (p.J * p.w)).sum = I k := by
    intro k
    have := line_exact δ hx (sp δ.ax k) (R k ^ 2) (natDegree_pow_le.trans (by have := hR k; omega))
    simp only [eval_pow] at this
    unfold linePts
    rw [this, hI]
    simp [cell]
  simp only [e2, list_range_sum]
  -- the two values at the ends of an element
  have tr : ∀ k : Int, 0 ≤ k → k < δ.ax.nel → size1 δ.ax k * ((R k).eval (cell δ.ax k).1 ^ 2 + (R k).eval (cell δ.ax k).2 ^ 2) ≤ 4 * ((degree:ℝ) + 1) * I k := by
    intro k h0 h1
    have hl := hlen k h0 h1
    unfold size1 at hl
    have := ends_bound (p := δ.ax.p.toNat) (by omega) (by omega) (hR k) (sub_pos.1 hl)
    refine this.trans (mul_le_mul_of_nonneg_right ?_ (hI0 k h0 h1))
    have a : ((δ.ax.p.toNat : Nat) : ℝ) = ((δ.ax.p : Int) : ℝ) := by
      rw [← Int.cast_natCast (R := ℝ), Int.toNat_of_nonneg (by omega)]
    rw [a]
    have b : (δ.ax.p : ℝ) ≤ degree := by exact_mod_cast hp
    have c : (degree : ℝ) ≤ 4 := by exact_mod_cast h4
    have d : (1 : ℝ) ≤ δ.ax.p := by exact_mod_cast hp1
    nlinarith
  have hD : (0:ℝ) < (degree:ℝ) + 1 := by
    have : (1:ℝ) ≤ degree := by exact_mod_cast (by omega : (1:Int) ≤ degree)
    linarith
  have pen : ∀ s : Bool, -(size1 δ.ax (sideElem δ.ax s) * (R (sideElem δ.ax s)).eval (sideEnd δ.ax s) ^ 2 / (5 * ((degree:ℝ) + 1))) ≤
      5 * ((degree:ℝ) + 1) / size1 δ.ax (sideElem δ.ax s) * V s ^ 2 - 2 * V s * (outward s * (R (sideElem δ.ax s)).eval (sideEnd δ.ax s)) := by
    intro s
    obtain ⟨-, b0, b1⟩ := sideElem_sp hw ho s
    have hl := hlen _ b0 b1
    refine le_trans (le_of_eq ?_) (penalised (α := 5 * ((degree:ℝ) + 1) / size1 δ.ax (sideElem δ.ax s)) (by positivity) (by unfold outward; cases s <;> norm_num))
    field_simp
  have c0 : (cell δ.ax (sideElem δ.ax false)).1 = sideEnd δ.ax false := by
    simp [cell, sideEnd, domain, (sideElem_sp hw ho false).1]
  have c1 : (cell δ.ax (sideElem δ.ax true)).2 = sideEnd δ.ax true := by
    simp [cell, sideEnd, domain, (sideElem_sp hw ho true).1]
  have t0 := tr _ (sideElem_sp hw ho false).2.1 (sideElem_sp hw ho false).2.2
  have t1 := tr _ (sideElem_sp hw ho true).2.1 (sideElem_sp hw ho true).2.2
  have l0 := hlen _ (sideElem_sp hw ho false).2.1 (sideElem_sp hw ho false).2.2
  have l1 := hlen _ (sideElem_sp hw ho true).2.1 (sideElem_sp hw ho true).2.2
  have p0 := pen false
  have p1 := pen true
  rw [Fintype.sum_bool]
  suffices h : size1 δ.ax (sideElem δ.ax true) * (R (sideElem δ.ax true)).eval (sideEnd δ.ax true) ^ 2 +
      size1 δ.ax (sideElem δ.ax false) * (R (sideElem δ.ax false)).eval (sideEnd δ.ax false) ^ 2 ≤
      4 * ((degree:ℝ) + 1) * ∑ k ∈ Finset.range δ.ax.nel.toNat, I k by
    have h' := div_le_div_of_nonneg_right h (by positivity : (0:ℝ) ≤ 5 * ((degree:ℝ) + 1))
    rw [add_div, show 4 * ((degree:ℝ) + 1) * (∑ k ∈ Finset.range δ.ax.nel.toNat, I k) / (5 * ((degree:ℝ) + 1)) =
      4/5 * ∑ k ∈ Finset.range δ.ax.nel.toNat, I k by field_simp] at h'
    linarith
  by_cases h1 : δ.ax.nel = 1
  · have s1 : sideElem δ.ax true = 0 := by simp [sideElem, h1]
    have s0 : sideElem δ.ax false = 0 := by simp [sideElem]
    rw [h1]
    simp only [Int.toNat_one, Finset.sum_range_one, Nat.cast_zero]
    rw [s0] at c0 t0
    rw [s1] at c1
    rw [c0, c1] at t0
    rw [s0, s1]
    linarith
  · have s1 : sideElem δ.ax true = ((δ.ax.nel.toNat - 1 : Nat) : Int) := by simp [sideElem]; omega
    have s0 : sideElem δ.ax false = 0 := by simp [sideElem]
    obtain ⟨m, hm⟩ : ∃ m, δ.ax.nel.toNat = m + 2 := ⟨δ.ax.nel.toNat - 2, by omega⟩
    have hsum : I (sideElem δ.ax true) + I (sideElem δ.ax false) ≤ ∑ k ∈ Finset.range δ.ax.nel.toNat, I k := by
      rw [s1, s0, hm, Finset.sum_range_succ, Finset.sum_range_succ']
      have : 0 ≤ ∑ k ∈ Finset.range m, I ((k + 1 : Nat) : Int) := Finset.sum_nonneg fun k hk => by
        have := Finset.mem_range.1 hk
        exact hI0 _ (by omega) (by omega)
      simp only [show m + 2 - 1 = m + 1 from rfl, Nat.cast_zero]
      linarith
    rw [c0] at t0
    rw [c1] at t1
    have q0 : 0 ≤ size1 δ.ax (sideElem δ.ax false) * (R (sideElem δ.ax false)).eval (cell δ.ax (sideElem δ.ax false)).2 ^ 2 := by positivity
    have q1 : 0 ≤ size1 δ.ax (sideElem δ.ax true) * (R (sideElem δ.ax true)).eval (cell δ.ax (sideElem δ.ax true)).1 ^ 2 := by positivity
    have := mul_le_mul_of_nonneg_left hsum (by positivity : (0:ℝ) ≤ 4 * ((degree:ℝ) + 1))
    linarith

/-- The square of the derivative of direction `a`, integrated over the mesh. -/
noncomputable def slope (ds : List (Direction Line)) (v : List Int → ℝ) (a : Fin ds.length) : ℝ :=
  ((indices (ds.map fun δ => δ.ax.nel)).map fun e => ((tensorPoints (lines ds e)).map fun pts =>
    nodal (ds.map Direction.ax) v e (unitOrder a) (pts.map Pt.x) ^ 2 * ((pts.map Pt.J).prod * (pts.map Pt.w).prod)).sum).sum

/-- The boundary terms on the sides of direction `a`. -/
noncomputable def edges (ds : List (Direction Line)) (degree : Int) (v : List Int → ℝ) (a : Fin ds.length) : ℝ :=
  ∑ s : Bool, ((indices ((ds.eraseIdx a).map fun δ => δ.ax.nel)).map fun e => ((tensorPoints (lines (ds.eraseIdx a) e)).map fun r =>
    (5 * ((degree:ℝ) + 1) / size1 ds[a].ax (sideElem ds[a].ax s) *
        nodal (ds.map Direction.ax) v (onSide ds[a].ax a s e) (List.replicate ds.length 0) ((r.map Pt.x).insertIdx a (sideEnd ds[a].ax s)) ^ 2 -
      2 * nodal (ds.map Direction.ax) v (onSide ds[a].ax a s e) (List.replicate ds.length 0) ((r.map Pt.x).insertIdx a (sideEnd ds[a].ax s)) *
        (outward s * nodal (ds.map Direction.ax) v (onSide ds[a].ax a s e) (unitOrder a) ((r.map Pt.x).insertIdx a (sideEnd ds[a].ax s)))) *
      ((r.map Pt.J).prod * (r.map Pt.w).prod)).sum).sum

theorem along1_degree {axs : List (Axis ℝ)} (i : Fin axs.length) (u : List Int → ℝ) (e : List Int) (ys : List ℝ) (e0 : Int) :
    (alongPoly axs i u e ys e0 1).natDegree ≤ axs[i].p.toNat - 1 := by
  rw [← along_derivative]
  exact (natDegree_derivative_le _).trans (Nat.sub_le_sub_right (along_degree i u e ys e0) 1)

/-- The inequality in one direction of the mesh. -/
theorem direction_bound {ds : List (Direction Line)} (S : Setup g2 g3 false size procs axes (ds.map Direction.ax) Ls) (hT : ∀ δ ∈ ds, δ.Tabulated)
    (hx : ∀ δ ∈ ds, ExactRule (2 * δ.ax.p.toNat) δ.X δ.W) {degree : Int} (hp : ∀ δ ∈ ds, δ.ax.p ≤ degree) (h4 : degree ≤ 4) (v : List Int → ℝ)
    (i : Fin ds.length) : 1/5 * slope ds v i ≤ slope ds v i + edges ds degree v i := by
  obtain ⟨h1, h3, hw⟩ := setup_facts S
  unfold slope edges
  rw [sum_mesh_elem ds i, Fintype.sum_bool, ← List.sum_map_add, ← List.sum_map_add, ← List.sum_map_mul_left]
  have hi := i.isLt
  have hlen : (ds.eraseIdx i).length + 1 = ds.length := by rw [List.length_eraseIdx]; simp; omega
  have hmem : ∀ δ ∈ ds.eraseIdx i, δ ∈ ds := fun δ hd => List.mem_of_mem_eraseIdx hd
  refine List.sum_le_sum fun e he => ?_
  have he := (mem_indices _ e).1 he
  have hel : e.length + 1 = ds.length := by rw [PetIGA.Grid.inBox_length he]; simpa using hlen
  rw [← List.sum_map_add, ← List.sum_map_add, ← List.sum_map_mul_left]
  refine List.sum_le_sum fun r hr => ?_
  have hrl : r.length + 1 = ds.length := by
    have := (mem_tensorPoints hr).length_eq
    have hll : (lines (ds.eraseIdx i) e).length = e.length := by unfold lines; rw [List.length_zipWith]; omega
    omega
  have hJ := lines_J (fun δ hd => hw δ (hmem δ hd)) he (mem_tensorPoints hr)
  have hW := lines_w (fun δ hd => hT δ (hmem δ hd)) (mem_tensorPoints hr)
  let j : Fin (ds.map Direction.ax).length := ⟨i, by simp⟩
  have hj : (ds.map Direction.ax)[j] = ds[i].ax := by simp [j]
  have ho := setup_open S ds[i] (by simp)
  have n0 : ∀ (k : Int) (s : ℝ), nodal (ds.map Direction.ax) v (e.insertIdx i k) (List.replicate ds.length 0) ((r.map Pt.x).insertIdx i s) =
      (alongPoly (ds.map Direction.ax) j v e (r.map Pt.x) k 0).eval s := fun k s =>
    nodal_along j v (by simpa using hel) (by simpa using hrl) k (by simp) (by simp [j]) (by simp [j, List.eraseIdx_replicate]) s
  have n1 : ∀ (k : Int) (s : ℝ), nodal (ds.map Direction.ax) v (e.insertIdx i k) (unitOrder i) ((r.map Pt.x).insertIdx i s) =
      (alongPoly (ds.map Direction.ax) j v e (r.map Pt.x) k 1).eval s := fun k s =>
    nodal_along j v (by simpa using hel) (by simpa using hrl) k (by simp [unitOrder]) (unitOrder_get i) (by simpa using unitOrder_erase i) s
  have e1 : ∀ (k : Int) (p : Pt Line), nodal (ds.map Direction.ax) v (e.insertIdx i k) (unitOrder i) ((r.insertIdx i p).map Pt.x) ^ 2 *
        (((r.insertIdx i p).map Pt.J).prod * ((r.insertIdx i p).map Pt.w).prod) =
      ((alongPoly (ds.map Direction.ax) j v e (r.map Pt.x) k 1).eval p.x ^ 2 * (p.J * p.w)) * ((r.map Pt.J).prod * (r.map Pt.w).prod) := by
    intro k p
    rw [map_insertIdx, map_insertIdx, map_insertIdx, List.prod_insertIdx (by simp; omega) (fun a _ => Commute.all _ _),
      List.prod_insertIdx (by simp; omega) (fun a _ => Commute.all _ _), n1]
    ring
  simp only [e1, List.sum_map_mul_right]
  have hb := line_bound (hw ds[i] (by simp)) ho (hx ds[i] (by simp)) (by omega) (hp ds[i] (by simp)) h4
    (fun k => alongPoly (ds.map Direction.ax) j v e (r.map Pt.x) k 1) (fun k => by
      have := along1_degree j v e (r.map Pt.x) k
      rw [hj] at this
      exact this) fun s => (alongPoly (ds.map Direction.ax) j v e (r.map Pt.x) (sideElem ds[i].ax s) 0).eval (sideEnd ds[i].ax s)
  have := mul_le_mul_of_nonneg_right hb (mul_pos hJ hW).le
  rw [Fintype.sum_bool] at this
  unfold onSide
  rw [n0, n0, n1, n1]
  linarith

/-- The half lengths of the element `e`, as `IGAPointFormScale` gives them (src/petigapoint.c:209-223). -/
noncomputable def halfSizes (ds : List (Direction Line)) (e : List Int) (k : Nat) : ℝ := if h : k < ds.length then size1 ds[k].ax (e.getD k 0) / 2 else 0

/-- `G` is what `IGAPointFormInvGradGeomMap` gives at the points of the sides of the mesh. -/
def Scaled (ds : List (Direction Line)) (c : List Int → PtIn ds.length ds.length (Fin (nenOf (ds.map Direction.ax))))
    (elt : List Int → Elt ℝ (BPt ds.length (nenOf (ds.map Direction.ax))))
    (G : BPt ds.length (nenOf (ds.map Direction.ax)) → Fin ds.length → Fin ds.length → ℝ) : Prop :=
  ∀ e, InBox (ds.map fun δ => δ.ax.nel) e → ∀ (a : Fin ds.length) (s : Bool), e[(a:Nat)]? = some (sideElem ds[a].ax s) →
    ∀ q ∈ (elt e).points (some ((2 * (a:Nat) + (if s then 1 else 0) : Nat) : Int)), ∃ o mem, ∀ i j : Fin ds.length,
      G q.data i j = pointInvGradGeomMap (c e) o (halfSizes ds e) mem ((i:Nat) * ds.length + (j:Nat))

/-- Without a geometry: the reciprocals of the half lengths on the diagonal. -/
theorem inverse_flat (ds : List (Direction Line)) {c : PtIn ds.length ds.length (Fin (nenOf (ds.map Direction.ax)))} (hgeo : c.geometry = none)
    (e : List Int) (o) (mem : Nat → ℝ) (i j : Fin ds.length) :
    pointInvGradGeomMap c o (halfSizes ds e) mem ((i:Nat) * ds.length + (j:Nat)) = if i = j then 1 / (size1 ds[i].ax (e.getD i 0) / 2) else 0 := by
  have hi := i.isLt
  have hj := j.isLt
  have h1 : (i:Nat) * ds.length + (j:Nat) < ds.length * ds.length := by nlinarith
  have h2 : ((i:Nat) * ds.length + (j:Nat)) / ds.length = i := by
    rw [Nat.add_comm, Nat.add_mul_div_right _ _ (by omega), Nat.div_eq_of_lt hj, Nat.zero_add]
  have h3 : ((i:Nat) * ds.length + (j:Nat)) % ds.length = j := by
    rw [Nat.add_comm, Nat.add_mul_mod_self_right, Nat.mod_eq_of_lt hj]
  unfold pointInvGradGeomMap
  rw [hgeo]
  dsimp only
  rw [if_pos h1, h2, h3]
  by_cases h : i = j
  · subst h
    simp [halfSizes]
  · rw [if_neg (Fin.val_ne_of_ne h), if_neg h]

theorem normalMeshSize_flat {d : Nat} (G : Fin d → Fin d → ℝ) (L : Fin d → ℝ) (hG : ∀ i j, G i j = if i = j then 1 / (L i / 2) else 0) (a : Fin d) (s : Bool)
    (hL : 0 < L a) : normalMeshSize G (flatNormal a (if s then 1 else 0)) = L a := by
  have hn : ∀ j, (flatNormal a (if s then 1 else 0) : Fin d → ℝ) j = if j = a then outward s else 0 := by
    intro j
    by_cases h : j = a
    · subst h; cases s <;> simp [flatNormal, outward]
    · simp [flatNormal, Fin.val_ne_of_ne h, h]
  have hN : ∀ i, dot (G i) (flatNormal a (if s then 1 else 0)) = if i = a then outward s * (2 / L a) else 0 := by
    intro i
    rw [dot_eq]
    simp only [hn, hG]
    by_cases h : i = a
    · subst h; simp; ring
    · simp [h]
  have hs : outward s * outward s = 1 := by unfold outward; cases s <;> norm_num
  unfold normalMeshSize
  simp only [hN, dot_eq]
  have : ∑ i, ((if i = a then outward s * (2 / L a) else 0) * if i = a then outward s * (2 / L a) else 0) = (2 / L a) * (2 / L a) := by
    simp only [mul_ite, ite_mul, zero_mul, mul_zero]
    rw [Finset.sum_eq_single a (by intro b _ hb; simp [hb]) (by simp)]
    simp only [if_true]
    linear_combination (2 / L a) * (2 / L a) * hs
  rw [this, Real.sqrt_mul_self (by positivity)]
  field_simp

/-- The normal at the points of a side without geometry. -/
theorem face_normal {ds : List (Direction Line)} (h1 : 1 ≤ ds.length) (h3 : ds.length ≤ 3) (hT : ∀ δ ∈ ds, δ.Tabulated)
    (hs : ∀ δ ∈ ds, IsSpline δ) (hw : ∀ δ ∈ ds, WF δ.ax) (axis : Fin ds.length) (side : Bool) (ho : OpenEnds ds[axis].ax) {nsd : Nat}
    (c : PtIn ds.length nsd (Fin (nenOf (ds.map Direction.ax)))) (hgeo : c.geometry = none) {e : List Int}
    (he : InBox (ds.map fun δ => δ.ax.nel) e) (hse : e[(axis:Nat)]? = some (sideElem ds[axis].ax side)) {mem} {qs}
    (h : tabulateFace c (ds.map Direction.B) (ds.map fun d => endPoints d.ax) e axis side mem = .ok qs) :
    ∀ q ∈ qs, q.data.arrays.normal = flatNormal axis (if side then 1 else 0) := by
  have hδ : ds[(axis:Nat)]? = some ds[axis] := by simp
  have hF := face_tabulated rfl h1 h3 hT hs hw c he mem hδ ho hse h
  intro q hq
  obtain ⟨i, hi, rfl⟩ := List.getElem_of_mem hq
  obtain ⟨hl, hF⟩ := List.forall₂_iff_get.1 hF
  obtain ⟨N, m, o, hN, hto, hqe⟩ := hF i (by omega) hi
  simp only [List.get_eq_getElem] at hqe hto hN
  rw [hqe]
  unfold Ker.tabulate at hto
  rw [show (atSide c axis side).geometry = none from hgeo] at hto
  dsimp only [atSide] at hto
  simp only [Res.ok.injEq] at hto
  rw [← hto]

/-- The energy as the sum over the directions. -/
theorem energy_directions {ds : List (Direction Line)} (S : Setup g2 g3 false size procs axes (ds.map Direction.ax) Ls)
    (hT : ∀ δ ∈ ds, δ.Tabulated) (hs : ∀ δ ∈ ds, IsSpline δ) (hper : ∀ δ ∈ ds, δ.ax.periodic = false)
    {c : List Int → PtIn ds.length ds.length (Fin (nenOf (ds.map Direction.ax)))} (hc : ∀ e, FirstOrder (c e)) (hgeo : ∀ e, (c e).geometry = none)
    {elt : List Int → Elt ℝ (BPt ds.length (nenOf (ds.map Direction.ax)))} (hE : WithSides ds (nitscheConditions ds.length) c elt)
    (degree : Int) {G : BPt ds.length (nenOf (ds.map Direction.ax)) → Fin ds.length → Fin ds.length → ℝ} (hG : Scaled ds c elt G) (v : List Int → Nat → ℝ) :
    ((indices (ds.map fun δ => δ.ax.nel)).map fun e => integral (elt e) (density (ds.map Direction.ax) degree G v e)).sum =
        ∑ a, (slope ds (fun z => v z 0) a + edges ds degree (fun z => v z 0) a) ∧
      ((indices (ds.map fun δ => δ.ax.nel)).map fun e => pointSum ((elt e).points none) fun p =>
        ∑ i, combine (ds.map Direction.ax) e (p.2.shape.t1 i) v 0 ^ 2).sum = ∑ a, slope ds (fun z => v z 0) a := by
  obtain ⟨h1, h3, hw⟩ := setup_facts S
  have hw' : ∀ ax ∈ ds.map Direction.ax, WF ax ∧ ax.periodic = false := by
    intro ax hax
    obtain ⟨δ, hδ, rfl⟩ := List.mem_map.1 hax
    exact ⟨hw δ hδ, hper δ hδ⟩
  have hb : ∀ e, InBox (ds.map fun δ => δ.ax.nel) e → InBox ((ds.map Direction.ax).map Axis.nel) e := fun e he => by rw [List.map_map]; exact he
  have hins : ∀ (a : Fin ds.length) (s : Bool) (e : List Int), InBox ((ds.eraseIdx a).map fun δ => δ.ax.nel) e →
      InBox (ds.map fun δ => δ.ax.nel) (onSide ds[a].ax a s e) ∧ (onSide ds[a].ax a s e)[(a:Nat)]? = some (sideElem ds[a].ax s) := by
    intro a s e he
    have ho := setup_open S ds[a] (by simp)
    have ha := a.isLt
    obtain ⟨-, sn0, sn1⟩ := sideElem_sp (hw ds[a] (by simp)) ho s
    have hel : e.length + 1 = ds.length := by
      rw [PetIGA.Grid.inBox_length he, List.length_map, List.length_eraseIdx]; simp; omega
    have hns : (ds.map fun δ => δ.ax.nel)[(a:Nat)]? = some ds[a].ax.nel := by simp
    exact ⟨inBox_insert hns (by rw [List.eraseIdx_map]; exact he) sn0 sn1, insert_get _ _ _ (by omega)⟩
  -- the interior
  have grad : ((indices (ds.map fun δ => δ.ax.nel)).map fun e => pointSum ((elt e).points none) fun p =>
        ∑ i, combine (ds.map Direction.ax) e (p.2.shape.t1 i) v 0 ^ 2).sum = ∑ a, slope ds (fun z => v z 0) a := by
    unfold slope
    rw [← list_fin_sum]
    congr 1
    refine List.map_congr_left fun e he => ?_
    have he := (mem_indices _ e).1 he
    obtain ⟨mem, qs, q1, q2⟩ := hE.inner e he
    rw [q2, pointSum_tag, ← list_fin_sum]
    have : ∀ q ∈ qs, (∑ i, combine (ds.map Direction.ax) e (q.data.shape.t1 i) v 0 ^ 2) * (q.detJac * q.weight) =
        (∑ i : Fin ds.length, nodal (ds.map Direction.ax) (fun z => v z 0) e (unitOrder i) q.data.u ^ 2) * (q.detJac * q.weight) := by
      intro q hq
      obtain ⟨f1, f2⟩ := inner_facts S hT hs (hc e) (hgeo e) he q1 q hq
      congr 1
      refine Finset.sum_congr rfl fun i _ => ?_
      rw [(f2 v 0).2 i, nodal_eq S hw' (fun z => v z 0) (hb e he) (by simpa using f1) (by simp [unitOrder])]
    dsimp only at this ⊢
    rw [List.map_congr_left this, element_sum h1 h3 hT hs hw (c e) (hgeo e) he q1 fun x => ∑ i : Fin ds.length, nodal (ds.map Direction.ax) (fun z => v z 0) e (unitOrder i) x ^ 2]
    congr 1
    refine List.map_congr_left fun pts _ => ?_
    rw [Finset.sum_mul]
  refine ⟨?_, grad⟩
  unfold integral
  rw [List.sum_map_add, Finset.sum_add_distrib, ← grad]
  refine (add_comm _ _).trans ?_
  have hlen : ∀ e ∈ indices (ds.map fun δ => δ.ax.nel), (elt e).id.length = ds.length := by
    intro e he
    have he := (mem_indices _ e).1 he
    rw [(hE.id e he).1, PetIGA.Grid.inBox_length he]; simp
  congr 1
  · congr 1
    refine List.map_congr_left fun e he => ?_
    obtain ⟨mem, qs, q1, q2⟩ := hE.inner e ((mem_indices _ e).1 he)
    rw [q2, pointSum_tag, pointSum_tag]
    rfl
  rw [List.map_congr_left fun e he => by rw [hlen e he]]
  rw [sum_sides ds (fun δ hδ => by have := sideElem_sp (hw δ hδ) (setup_open S δ hδ) false; simp only [sideElem] at this; omega) _ (fun e b => OnSide (elt e) b) (fun e he a s => by
    obtain ⟨i1, i2⟩ := hE.id e he
    have hal := a.isLt
    have hel : e.length = ds.length := by rw [PetIGA.Grid.inBox_length he]; simp
    have hd : (2 * (a:Nat) + if s then 1 else 0) / 2 = a := by split <;> omega
    have hm : (2 * (a:Nat) + if s then 1 else 0) % 2 = if s then 1 else 0 := by split <;> omega
    unfold OnSide
    rw [hd, hm, i1, i2, hE.visit e he, nitsche_visit ds.length h3 a s]
    have g1 : e[(a:Nat)]? = some (e.getD a 0) := by simp [hel]
    rw [g1]
    have g2 : (ds.map fun δ => δ.ax.nel).getD a 0 = ds[a].ax.nel := by simp
    rw [g2]
    unfold sideElem
    cases s <;> simp)]
  refine Finset.sum_congr rfl fun a _ => ?_
  unfold edges
  refine Finset.sum_congr rfl fun s _ => ?_
  congr 1
  refine List.map_congr_left fun e he => ?_
  have he := (mem_indices _ e).1 he
  obtain ⟨hi, hse⟩ := hins a s e he
  obtain ⟨mem, qb, b1, b2⟩ := hE.sides _ hi a s hse
  have ho := setup_open S ds[a] (by simp)
  obtain ⟨-, sn0, sn1⟩ := sideElem_sp (hw ds[a] (by simp)) ho s
  have hsz : 0 < size1 ds[a].ax (sideElem ds[a].ax s) := by
    have := (isElement_sp (hw ds[a] (by simp)) sn0 sn1).2.2
    unfold size1 cell; linarith
  have hGq := hG _ hi a s hse
  rw [b2] at hGq ⊢
  rw [pointSum_tag]
  have hnorm : ∀ q ∈ qb, q.data.arrays.normal = flatNormal a (if s then 1 else 0) :=
    fun q hq => face_normal h1 h3 hT hs hw a s ho (c _) (hgeo _) hi hse b1 q hq
  have : ∀ q ∈ qb, density (ds.map Direction.ax) degree G v (onSide ds[a].ax a s e) (true, q.data) * (q.detJac * q.weight) =
      (5 * ((degree:ℝ) + 1) / size1 ds[a].ax (sideElem ds[a].ax s) *
        nodal (ds.map Direction.ax) (fun z => v z 0) (onSide ds[a].ax a s e) (List.replicate ds.length 0) q.data.u ^ 2 -
      2 * nodal (ds.map Direction.ax) (fun z => v z 0) (onSide ds[a].ax a s e) (List.replicate ds.length 0) q.data.u *
        (outward s * nodal (ds.map Direction.ax) (fun z => v z 0) (onSide ds[a].ax a s e) (unitOrder a) q.data.u)) * (q.detJac * q.weight) := by
    intro q hq
    obtain ⟨f1, f2⟩ := face_facts S hT hs (hc _) (hgeo _) hi a s hse b1 q hq
    have k0 := nodal_eq S hw' (fun z => v z 0) (hb _ hi) (xs := q.data.u) (os := List.replicate ds.length 0) (by simpa using f1) (by simp)
    have k1 := nodal_eq S hw' (fun z => v z 0) (hb _ hi) (xs := q.data.u) (os := unitOrder a) (by simpa using f1) (by simp [unitOrder])
    have hgd : (onSide ds[a].ax a s e).getD a 0 = sideElem ds[a].ax s := by rw [List.getD_eq_getElem?_getD, hse]; rfl
    have hg : ∀ i j, G (true, q.data) i j = if i = j then 1 / (size1 ds[i].ax ((onSide ds[a].ax a s e).getD i 0) / 2) else 0 := by
      obtain ⟨o, m, ho⟩ := hGq (tag true q) (List.mem_map.2 ⟨q, hq, rfl⟩)
      exact fun i j => (ho i j).trans (inverse_flat ds (hgeo _) _ o m i j)
    have hm := normalMeshSize_flat (G (true, q.data)) (fun i => size1 ds[i].ax ((onSide ds[a].ax a s e).getD i 0)) hg a s (by rw [hgd]; exact hsz)
    rw [hgd] at hm
    unfold density penalty
    simp only [if_true]
    rw [hnorm q hq, hm, (f2 v 0).1, k0]
    rw [Finset.sum_eq_single a]
    · rw [(f2 v 0).2 a, k1]
      have : (flatNormal a (if s then 1 else 0) : Fin ds.length → ℝ) a = outward s := by cases s <;> simp [flatNormal, outward]
      rw [this]
      ring
    · intro b _ hb
      simp [flatNormal, Fin.val_ne_of_ne hb]
    · simp
  rw [List.map_congr_left this, face_sum h1 h3 hT hs hw a s ho (c _) (hgeo _) he b1 fun x _ =>
      5 * ((degree:ℝ) + 1) / size1 ds[a].ax (sideElem ds[a].ax s) *
        nodal (ds.map Direction.ax) (fun z => v z 0) (onSide ds[a].ax a s e) (List.replicate ds.length 0) x ^ 2 -
      2 * nodal (ds.map Direction.ax) (fun z => v z 0) (onSide ds[a].ax a s e) (List.replicate ds.length 0) x *
        (outward s * nodal (ds.map Direction.ax) (fun z => v z 0) (onSide ds[a].ax a s e) (unitOrder a) x)]

theorem le_maxDegree {axs : List (Axis ℝ)} {ax : Axis ℝ} (h : ax ∈ axs) : ax.p ≤ maxDegree axs := by
  unfold maxDegree
  have key : ∀ (l : List (Axis ℝ)) (d : Int), d ≤ l.foldl (fun degree ax => max degree ax.p) d ∧
      ∀ ax ∈ l, ax.p ≤ l.foldl (fun degree ax => max degree ax.p) d := by
    intro l
    induction l with
    | nil => intro d; simp
    | cons a l ih =>
      intro d
      obtain ⟨i1, i2⟩ := ih (max d a.p)
      refine ⟨le_trans (le_max_left _ _) i1, fun ax hax => ?_⟩
      rcases List.mem_cons.1 hax with rfl | hax
      · exact le_trans (le_max_right _ _) i1
      · exact i2 ax hax
  exact (key axs 0).2 ax h

/-- **C124**, coercivity: without a geometry, with any number of processes, 1 to 3 dimensions, any knots and degrees up to 4, the energy of the
assembled matrix is at least a fifth of the integral of `|∇v|²`. -/
theorem C124_coercive {ds : List (Direction Line)} (S : Setup g2 g3 false size procs axes (ds.map Direction.ax) Ls)
    (hT : ∀ δ ∈ ds, δ.Tabulated) (hs : ∀ δ ∈ ds, IsSpline δ) (hper : ∀ δ ∈ ds, δ.ax.periodic = false)
    (hx : ∀ δ ∈ ds, ExactRule (2 * δ.ax.p.toNat) δ.X δ.W) (h4 : ∀ δ ∈ ds, δ.ax.p ≤ 4)
    {c : List Int → PtIn ds.length ds.length (Fin (nenOf (ds.map Direction.ax)))} (hc : ∀ e, FirstOrder (c e)) (hgeo : ∀ e, (c e).geometry = none)
    {elt : List Int → Elt ℝ (BPt ds.length (nenOf (ds.map Direction.ax)))} (hE : WithSides ds (nitscheConditions ds.length) c elt)
    {G : BPt ds.length (nenOf (ds.map Direction.ax)) → Fin ds.length → Fin ds.length → ℝ} (hG : Scaled ds c elt G) (hist) (pw) (w) :
    ∃ A b, computeSystem Ls hist 1 ⟨elt, pw, w⟩ (nitsche false (maxDegree (ds.map Direction.ax)) G) = .ok (A, b) ∧ ∀ x : Int → ℝ,
      1/5 * ((indices (ds.map fun δ => δ.ax.nel)).map fun e => pointSum ((elt e).points none) fun p =>
          ∑ i, combine (ds.map Direction.ax) e (p.2.shape.t1 i) (fun z i => x (Blk.unknown Ls (ds.map Direction.ax) 1 z i)) 0 ^ 2).sum ≤
        ∑ i ∈ Finset.range (total (ds.map Direction.ax) 1), ∑ j ∈ Finset.range (total (ds.map Direction.ax) 1), x i * A ((i:Int), (j:Int)) * x j := by
  obtain ⟨A, b, hA, hen⟩ := C124_energy S hE.built false (maxDegree (ds.map Direction.ax)) G hist pw w
  refine ⟨A, b, hA, fun x => ?_⟩
  obtain ⟨d1, d2⟩ := energy_directions S hT hs hper hc hgeo hE (maxDegree (ds.map Direction.ax)) hG fun z i => x (Blk.unknown Ls (ds.map Direction.ax) 1 z i)
  rw [hen, d2, List.map_map]
  refine le_of_le_of_eq ?_ d1.symm
  rw [Finset.mul_sum]
  refine Finset.sum_le_sum fun a _ => direction_bound S hT hx (fun δ hδ => le_maxDegree (List.mem_map.2 ⟨δ, hδ, rfl⟩)) ?_ _ a
  have key : ∀ (l : List (Axis ℝ)) (d : Int), d ≤ 4 → (∀ ax ∈ l, ax.p ≤ 4) → l.foldl (fun degree ax => max degree ax.p) d ≤ 4 := by
    intro l
    induction l with
    | nil => intro d h _; exact h
    | cons a l ih => intro d h h'; exact ih _ (max_le h (h' a (by simp))) fun ax hax => h' ax (by simp [hax])
  exact key _ 0 (by norm_num) fun ax hax => by
    obtain ⟨δ, hδ, rfl⟩ := List.mem_map.1 hax
    exact h4 δ hδ

theorem points_ne {α : Type} : ∀ {ls : List (List α)}, (∀ l ∈ ls, l ≠ []) → tensorPoints ls ≠ []
  | [], _ => by simp [tensorPoints]
  | l :: ls, h => by
    obtain ⟨a, as, ha⟩ := List.exists_cons_of_ne_nil (h l (by simp))
    obtain ⟨r, rs, hr⟩ := List.exists_cons_of_ne_nil (points_ne fun l hl => h l (List.mem_cons_of_mem _ hl))
    subst ha
    simp [tensorPoints, hr]

theorem indices_ne : ∀ {ns : List Int}, (∀ n ∈ ns, 1 ≤ n) → indices ns ≠ [] := by
  intro ns h hn
  have : List.replicate ns.length 0 ∈ indices ns := by
    refine (mem_indices _ _).2 ?_
    clear hn
    induction ns with
    | nil => exact .nil
    | cons n ns ih => exact .cons ⟨le_refl _, by have := h n (by simp); omega⟩ (ih fun m hm => h m (by simp [hm]))
  rw [hn] at this
  simp at this

/-- A constant field that is not zero has a positive energy on the sides. -/
theorem edges_constant {ds : List (Direction Line)} (S : Setup g2 g3 false size procs axes (ds.map Direction.ax) Ls) (hT : ∀ δ ∈ ds, δ.Tabulated)
    (hE : ∀ δ ∈ ds, Enough δ) (hper : ∀ δ ∈ ds, δ.ax.periodic = false) {degree : Int} (hd : 0 ≤ degree) {κ : ℝ} (hκ : κ ≠ 0)
    {v : List Int → ℝ} (hv : ∀ z, InBox ((ds.map Direction.ax).map Axis.nnp) z → v z = κ) (a : Fin ds.length) : 0 < edges ds degree v a := by
  obtain ⟨h1, h3, hw⟩ := setup_facts S
  have hw' : ∀ ax ∈ ds.map Direction.ax, WF ax ∧ ax.periodic = false := by
    intro ax hax
    obtain ⟨δ, hδ, rfl⟩ := List.mem_map.1 hax
    exact ⟨hw δ hδ, hper δ hδ⟩
  have hmem : ∀ δ ∈ ds.eraseIdx a, δ ∈ ds := fun δ hd => List.mem_of_mem_eraseIdx hd
  have ha := a.isLt
  have hlen : (ds.eraseIdx a).length + 1 = ds.length := by rw [List.length_eraseIdx]; simp; omega
  have hnel : ∀ δ ∈ ds, 1 ≤ δ.ax.nel := fun δ hδ => face_nel_pos (hw δ hδ) (setup_open S δ hδ)
  have cst : ∀ e, InBox (ds.map fun δ => δ.ax.nel) e → ∀ xs : List ℝ, xs.length = ds.length →
      nodal (ds.map Direction.ax) v e (List.replicate ds.length 0) xs = κ ∧ nodal (ds.map Direction.ax) v e (unitOrder a) xs = 0 := by
    intro e he xs hxs
    have heb : InBox ((ds.map Direction.ax).map Axis.nel) e := by rw [List.map_map]; exact he
    have hval : ∀ os : List Nat, os.length = ds.length → nodal (ds.map Direction.ax) v e os xs =
        κ * ((indices (nens (ds.map Direction.ax))).map fun t => evalProd (bpolys (ds.map Direction.ax) e os t) xs).sum := by
      intro os hos
      rw [← nodal_eq S hw' v heb (by simpa using hxs) (by simpa using hos), ← List.sum_map_mul_left]
      congr 1
      refine List.map_congr_left fun t ht => ?_
      rw [hv _ (nodeOf_inBox S heb ht)]
    refine ⟨?_, ?_⟩
    · have := tensor_one (ds.map Direction.ax) e xs (fun ax hax => (hw' ax hax).1) (by simpa using heb) (by simpa using hxs)
      rw [List.length_map] at this
      rw [hval _ (by simp), this, mul_one]
    · rw [hval _ (by simp [unitOrder]), tensor_unit' (ds.map Direction.ax) e xs a (by simp) (fun ax hax => (hw' ax hax).1) (by simpa using heb) (by simpa using hxs), mul_zero]
  unfold edges
  refine Finset.sum_pos (fun s _ => ?_) ⟨true, Finset.mem_univ _⟩
  have ho := setup_open S ds[a] (by simp)
  obtain ⟨-, sn0, sn1⟩ := sideElem_sp (hw ds[a] (by simp)) ho s
  have hsz : 0 < size1 ds[a].ax (sideElem ds[a].ax s) := by
    have := (isElement_sp (hw ds[a] (by simp)) sn0 sn1).2.2
    unfold size1 cell; linarith
  have hDg : (0:ℝ) ≤ degree := by exact_mod_cast hd
  refine List.sum_pos _ (fun y hy => ?_) (by
    simp only [ne_eq, List.map_eq_nil_iff]
    exact indices_ne fun n hn => by
      obtain ⟨δ, hδ, rfl⟩ := List.mem_map.1 hn
      exact hnel δ (hmem δ hδ))
  obtain ⟨e, he, rfl⟩ := List.mem_map.1 hy
  have he := (mem_indices _ e).1 he
  have hel : e.length + 1 = ds.length := by rw [PetIGA.Grid.inBox_length he]; simpa using hlen
  have hns : (ds.map fun δ => δ.ax.nel)[(a:Nat)]? = some ds[a].ax.nel := by simp
  have hi : InBox (ds.map fun δ => δ.ax.nel) (onSide ds[a].ax a s e) := inBox_insert hns (by rw [List.eraseIdx_map]; exact he) sn0 sn1
  refine List.sum_pos _ (fun y hy => ?_) (by
    simp only [ne_eq, List.map_eq_nil_iff]
    refine points_ne fun l hl => ?_
    unfold lines at hl
    obtain ⟨i, hi, rfl⟩ := List.getElem_of_mem hl
    rw [List.getElem_zipWith]
    have hδ : (ds.eraseIdx a)[i]'(by simp at hi; omega) ∈ ds := hmem _ (List.getElem_mem _)
    intro h
    have hl := (hE _ hδ).2
    have hp := (hw _ hδ).legal.degree
    obtain ⟨-, n, -, x1, x2, -⟩ := elems_of (hT _ hδ)
    have := congrArg List.length h
    simp only [List.length_map, List.length_zip, List.length_nil] at this
    omega)
  obtain ⟨r, hr, rfl⟩ := List.mem_map.1 hy
  have hrl : r.length + 1 = ds.length := by
    have := (mem_tensorPoints hr).length_eq
    have hll : (lines (ds.eraseIdx a) e).length = e.length := by unfold lines; rw [List.length_zipWith]; omega
    omega
  have hJ := lines_J (fun δ hd => hw δ (hmem δ hd)) he (mem_tensorPoints hr)
  have hW := lines_w (fun δ hd => hT δ (hmem δ hd)) (mem_tensorPoints hr)
  obtain ⟨c0, c1⟩ := cst _ hi ((r.map Pt.x).insertIdx a (sideEnd ds[a].ax s)) (by rw [List.length_insertIdx_of_le_length (by simp; omega)]; simpa using hrl)
  rw [c0, c1]
  have : 0 < κ ^ 2 := by positivity
  have : 0 < 5 * ((degree:ℝ) + 1) / size1 ds[a].ax (sideElem ds[a].ax s) * κ ^ 2 := by positivity
  simp only [mul_zero, sub_zero]
  positivity

/-- **C124**: up to degree 4 the matrix is symmetric positive definite, as `MatSetOption(A,MAT_SPD,PETSC_TRUE)` claims. -/
theorem C124_spd_partial {ds : List (Direction Line)} (S : Setup g2 g3 false size procs axes (ds.map Direction.ax) Ls)
    (hT : ∀ δ ∈ ds, δ.Tabulated) (hs : ∀ δ ∈ ds, IsSpline δ) (hper : ∀ δ ∈ ds, δ.ax.periodic = false) (hEn : ∀ δ ∈ ds, Enough δ)
    (hx : ∀ δ ∈ ds, ExactRule (2 * δ.ax.p.toNat) δ.X δ.W) (h4 : ∀ δ ∈ ds, δ.ax.p ≤ 4)
    {c : List Int → PtIn ds.length ds.length (Fin (nenOf (ds.map Direction.ax)))} (hc : ∀ e, FirstOrder (c e)) (hgeo : ∀ e, (c e).geometry = none)
    {elt : List Int → Elt ℝ (BPt ds.length (nenOf (ds.map Direction.ax)))} (hE : WithSides ds (nitscheConditions ds.length) c elt)
    {G : BPt ds.length (nenOf (ds.map Direction.ax)) → Fin ds.length → Fin ds.length → ℝ} (hG : Scaled ds c elt G) (hist) (pw) (w) :
    ∃ A b, computeSystem Ls hist 1 ⟨elt, pw, w⟩ (nitsche false (maxDegree (ds.map Direction.ax)) G) = .ok (A, b) ∧
      PosDef (total (ds.map Direction.ax) 1) fun i j => A (i, j) := by
  obtain ⟨h1, h3, hw⟩ := setup_facts S
  have hwf := Prb.setup_wf S
  obtain ⟨A, b, hA, hco⟩ := C124_coercive S hT hs hper hx h4 hc hgeo hE hG hist pw w
  obtain ⟨A', b', hA', hsym⟩ := C122_symmetric S (built_elements hwf hE.built) false (maxDegree (ds.map Direction.ax)) G hist pw w
  obtain ⟨A'', b'', hA'', hen⟩ := C124_energy S hE.built false (maxDegree (ds.map Direction.ax)) G hist pw w
  rw [hA] at hA' hA''
  cases hA'; cases hA''
  refine ⟨A, b, hA, fun i j i0 i1 j0 j1 => ?_, fun x hxne => ?_⟩
  · have := hsym i.toNat j.toNat (by omega) (by omega)
    rwa [Int.toNat_of_nonneg i0, Int.toNat_of_nonneg j0] at this
  set u : List Int → Nat → ℝ := fun z i => x (Blk.unknown Ls (ds.map Direction.ax) 1 z i) with hu
  have hnn : ∀ e ∈ indices (ds.map fun δ => δ.ax.nel), ∀ q ∈ (elt e).points none,
      0 ≤ (∑ i, combine (ds.map Direction.ax) e (q.data.2.shape.t1 i) u 0 ^ 2) ∧ 0 < q.detJac * q.weight := by
    intro e he q hq
    have he := (mem_indices _ e).1 he
    obtain ⟨mem, qs, q1, q2⟩ := hE.inner e he
    rw [q2] at hq
    obtain ⟨q', hq', rfl⟩ := List.mem_map.1 hq
    refine ⟨Finset.sum_nonneg fun i _ => sq_nonneg _, ?_⟩
    obtain ⟨pts, hp, hpt⟩ := (tabulated_points rfl h1 h3 hT hs hw (c e) he mem q1).2 q' hq'
    obtain ⟨f1, f2, -, -⟩ := point_facts (hc e) (hgeo e) hpt
    show 0 < q'.detJac * q'.weight
    rw [f1, f2]
    exact mul_pos (lines_J hw he (mem_tensorPoints hp)) (lines_w hT (mem_tensorPoints hp))
  have hps : ∀ e ∈ indices (ds.map fun δ => δ.ax.nel), 0 ≤ pointSum ((elt e).points none) fun p => ∑ i, combine (ds.map Direction.ax) e (p.2.shape.t1 i) u 0 ^ 2 := by
    intro e he
    unfold pointSum
    refine List.sum_nonneg fun y hy => ?_
    obtain ⟨q, hq, rfl⟩ := List.mem_map.1 hy
    exact mul_nonneg (hnn e he q hq).1 (hnn e he q hq).2.le
  have hsum : 0 ≤ ((indices (ds.map fun δ => δ.ax.nel)).map fun e => pointSum ((elt e).points none) fun p =>
      ∑ i, combine (ds.map Direction.ax) e (p.2.shape.t1 i) u 0 ^ 2).sum := by
    refine List.sum_nonneg fun y hy => ?_
    obtain ⟨e, he, rfl⟩ := List.mem_map.1 hy
    exact hps e he
  have hge := hco x
  by_contra hneg
  have hneg := not_lt.1 hneg
  have hz : ((indices (ds.map fun δ => δ.ax.nel)).map fun e => pointSum ((elt e).points none) fun p =>
      ∑ i, combine (ds.map Direction.ax) e (p.2.shape.t1 i) u 0 ^ 2).sum = 0 := by
    refine le_antisymm ?_ hsum
    have := hge.trans hneg
    linarith
  -- the field is constant
  have hcon : ∀ z z', InBox ((ds.map Direction.ax).map Axis.nnp) z → InBox ((ds.map Direction.ax).map Axis.nnp) z' → u z 0 = u z' 0 := by
    intro z z' hzb hzb'
    obtain ⟨e, t, he, ht, rfl⟩ := node_covered hwf S.cond hzb
    obtain ⟨e', t', he', ht', rfl⟩ := node_covered hwf S.cond hzb'
    refine connected (ds.map Direction.ax) hwf (fun z => u z 0) (fun e he => ?_) e e' he he' t t' ht ht'
    rw [List.map_map] at he
    have hei : e ∈ indices (ds.map fun δ => δ.ax.nel) := (mem_indices _ _).2 he
    obtain ⟨mem, qs, q1, q2⟩ := hE.inner e he
    have p0 := sum_zero_all hps hz e hei
    unfold pointSum at p0
    have p1 := sum_zero_all (fun q hq => mul_nonneg (hnn e hei q hq).1 (hnn e hei q hq).2.le) p0
    have hq : ∀ q ∈ qs, tag false q ∈ (elt e).points none := fun q hq => by rw [q2]; exact List.mem_map.2 ⟨q, hq, rfl⟩
    refine element_const h1 h3 hT hs hw hEn (c e) (hc e) he q1 (fun q hq' h0 => ?_) u 0 fun q hq' i => ?_
    · have := (hnn e hei _ (hq q hq')).2
      have h0' : (tag false q).detJac = 0 := h0
      rw [h0', zero_mul] at this
      exact lt_irrefl _ this
    · have := p1 _ (hq q hq')
      rcases mul_eq_zero.1 this with h | h
      · have := (Finset.sum_eq_zero_iff_of_nonneg fun i _ => sq_nonneg _).1 h i (Finset.mem_univ _)
        exact pow_eq_zero_iff (two_ne_zero) |>.1 this
      · exact absurd h (hnn e hei _ (hq q hq')).2.ne'
  obtain ⟨i, i0, i1, hi⟩ := hxne
  obtain ⟨z0, k, hz0, hk, rfl⟩ := unknown_onto S i0 i1
  have hk0 : k = 0 := by omega
  subst hk0
  have hcst : ∀ z, InBox ((ds.map Direction.ax).map Axis.nnp) z → u z 0 = u z0 0 := fun z hz => hcon z z0 hz hz0
  obtain ⟨d1, d2⟩ := energy_directions S hT hs hper hc hgeo hE (maxDegree (ds.map Direction.ax)) hG u
  have hE0 := hen x
  rw [List.map_map] at hE0
  rw [hE0.trans d1] at hneg
  rw [Finset.sum_add_distrib, ← d2, hz, zero_add] at hneg
  have hmd : 0 ≤ maxDegree (ds.map Direction.ax) := by
    have hm : ds[0]'(by omega) ∈ ds := List.getElem_mem _
    exact le_trans (by have := (hw _ hm).legal.degree; omega) (le_maxDegree (List.mem_map.2 ⟨_, hm, rfl⟩))
  have : 0 < ∑ a, edges ds (maxDegree (ds.map Direction.ax)) (fun z => u z 0) a :=
    Finset.sum_pos (fun a _ => edges_constant S hT hEn hper hmd hi hcst a) ⟨⟨0, by omega⟩, Finset.mem_univ _⟩
  linarith

/-- **C124**, the solution: for degrees 2 to 4 the system has exactly one solution, the coefficients of `Σ x_i²`: the program prints an error of
zero for exact arithmetic and an exact solver. -/
theorem C124_unique_partial {ds : List (Direction Line)} (S : Setup g2 g3 false size procs axes (ds.map Direction.ax) Ls)
    (hT : ∀ δ ∈ ds, δ.Tabulated) (hs : ∀ δ ∈ ds, IsSpline δ) (hper : ∀ δ ∈ ds, δ.ax.periodic = false) (hEn : ∀ δ ∈ ds, Enough δ)
    (hx : ∀ δ ∈ ds, ExactRule (2 * δ.ax.p.toNat) δ.X δ.W) (h2 : ∀ δ ∈ ds, 2 ≤ δ.ax.p) (h4 : ∀ δ ∈ ds, δ.ax.p ≤ 4)
    {c : List Int → PtIn ds.length ds.length (Fin (nenOf (ds.map Direction.ax)))} (hc : ∀ e, FirstOrder (c e)) (hgeo : ∀ e, (c e).geometry = none)
    {elt : List Int → Elt ℝ (BPt ds.length (nenOf (ds.map Direction.ax)))} (hE : WithSides ds (nitscheConditions ds.length) c elt)
    {G : BPt ds.length (nenOf (ds.map Direction.ax)) → Fin ds.length → Fin ds.length → ℝ} (hG : Scaled ds c elt G) (hist) (pw) (w) :
    ∃ A b, computeSystem Ls hist 1 ⟨elt, pw, w⟩ (nitsche false (maxDegree (ds.map Direction.ax)) G) = .ok (A, b) ∧
      (∃ x : Int → ℝ, ∀ i : Nat, i < total (ds.map Direction.ax) 1 → ∑ j ∈ Finset.range (total (ds.map Direction.ax) 1), A ((i:Int), (j:Int)) * x j = b i) ∧
      ∀ x : Int → ℝ, (∀ i : Nat, i < total (ds.map Direction.ax) 1 →
          ∑ j ∈ Finset.range (total (ds.map Direction.ax) 1), A ((i:Int), (j:Int)) * x j = b i) →
        ∀ e, InBox (ds.map fun δ => δ.ax.nel) e → ∀ q ∈ (elt e).points none,
          combine (ds.map Direction.ax) e q.data.2.shape.t0 (fun z i => x (Blk.unknown Ls (ds.map Direction.ax) 1 z i)) 0 =
            ((List.range ds.length).map fun i => q.data.2.u.getD i 0 ^ 2).sum := by
  have hb : ∀ e, InBox (ds.map fun δ => δ.ax.nel) e → InBox ((ds.map Direction.ax).map Axis.nel) e := fun e he => by rw [List.map_map]; exact he
  obtain ⟨A, b, hA, hpd⟩ := C124_spd_partial S hT hs hper hEn hx h4 hc hgeo hE hG hist pw w
  obtain ⟨A', b', hA', y, hy, hval⟩ := C122_nitsche S hT hs hper hx h2 hc hgeo hE (maxDegree (ds.map Direction.ax)) G hist pw w
  rw [hA] at hA'
  cases hA'
  obtain ⟨z, hz, huniq⟩ := posDef_solve hpd b
  refine ⟨A, b, hA, ⟨y, hy⟩, fun x hxs e he q hq => ?_⟩
  rw [← (hval e he).1 q hq]
  unfold combine
  congr 1
  refine List.map_congr_left fun t ht => ?_
  have hnode := nodeOf_inBox S (hb e he) ht
  have hxy : ∀ i : Int, 0 ≤ i → i < total (ds.map Direction.ax) 1 → x i = y i := by
    intro i i0 i1
    have a1 := huniq x hxs i.toNat (by omega)
    have a2 := huniq y hy i.toNat (by omega)
    rw [Int.toNat_of_nonneg i0] at a1 a2
    rw [a1, a2]
  obtain ⟨r0, r1⟩ := unknown_bounds S hnode (by omega : 0 < 1)
  beta_reduce
  rw [hxy _ r0 r1]

/-! ### Example -/

theorem exRealAx_size {k : Int} (h0 : 0 ≤ k) (h1 : k < 3) : size1 exRealAx k = 1 := by
  have hsp : exRealAx.span = [2, 3, 4] := exU_spans
  unfold size1 cell sp
  rw [hsp]
  interval_cases k
  · norm_num [exRealAx, knotAxis, Itg.exU]
  · norm_num [exRealAx, knotAxis, Itg.exU]
  · rw [show [(2:Int), 3, 4].getD (Int.toNat 2) 0 = 4 from rfl]
    norm_num [exRealAx, knotAxis, Itg.exU]

/-- `C124_coercive`, `C124_spd_partial` and `C124_unique_partial` apply: two processes, 3 × 3 elements of degree 2, Boole's rule. -/
example (g2 : Guess2) (g3 : Guess3) (J : Bsp.Junk ℝ) (o) (m : Nat → ℝ) (hist : Nat → Hist) (pw : Nat → List Int → PWork ℝ) (w : Nat → List Int → Work ℝ) :
    ∃ (Ls : List (Layout ℝ)) (elt : List Int → Elt ℝ (BPt (exBoole J).length (nenOf ((exBoole J).map Direction.ax)))) (A : Int × Int → ℝ) (b : Int → ℝ),
      computeSystem Ls hist 1 ⟨elt, pw, w⟩ (nitsche false (maxDegree ((exBoole J).map Direction.ax)) fun _ i j =>
        pointInvGradGeomMap (plainPt (exBoole J).length (nenOf ((exBoole J).map Direction.ax))) o (halfSizes (exBoole J) [0,0]) m
          ((i:Nat) * (exBoole J).length + (j:Nat))) = .ok (A, b) ∧
      PosDef (total ((exBoole J).map Direction.ax) 1) fun i j => A (i, j) := by
  obtain ⟨Ls, S⟩ := exRealSetup g2 g3
  have S' : Setup g2 g3 false 2 [2,1] [exRealAx, exRealAx] ((exBoole J).map Direction.ax) Ls := S
  have hok := exBoole_ok J
  have hax : ∀ δ ∈ exBoole J, δ.ax = exRealAx ∧ δ.X = [-1, -(1/2), 0, 1/2, 1] := by
    intro δ hδ
    simp only [exBoole, List.mem_cons, List.not_mem_nil, or_false, or_self] at hδ
    subst hδ
    exact ⟨rfl, rfl⟩
  obtain ⟨elt, hE⟩ := withSides_exists S' (fun δ h => (hok δ h).1) (fun δ h => (hok δ h).2.1) (nitscheConditions (exBoole J).length)
  obtain ⟨A, b, hA, hpd⟩ := C124_spd_partial S' (fun δ h => (hok δ h).1) (fun δ h => (hok δ h).2.1) (fun δ h => (hok δ h).2.2.1)
    (fun δ h => by
      obtain ⟨h1, h2⟩ := hax δ h
      unfold Enough
      rw [h1, h2]
      exact ⟨by norm_num, by show (2:Int) < 5; norm_num⟩) (fun δ h => (hok δ h).2.2.2)
    (fun δ h => by rw [(hax δ h).1]; show (2:Int) ≤ 4; norm_num) (c := fun _ => plainPt _ _) (fun _ => ⟨le_refl _, rfl, rfl, rfl⟩) (fun _ => rfl) hE
    (G := fun _ i j => pointInvGradGeomMap (plainPt (exBoole J).length (nenOf ((exBoole J).map Direction.ax))) o (halfSizes (exBoole J) [0,0]) m
          ((i:Nat) * (exBoole J).length + (j:Nat)))
    (fun e he a s _ q _ => ⟨o, m, fun i j => by
      refine (inverse_flat (exBoole J) rfl [0,0] o m i j).trans (Eq.trans ?_ (inverse_flat (exBoole J) rfl e o m i j).symm)
      have hsz : ∀ e : List Int, InBox ((exBoole J).map fun δ => δ.ax.nel) e → size1 (exBoole J)[i].ax (e.getD i 0) = 1 := by
        intro e he
        rw [(hax _ (by simp)).1]
        have hl : e.length = (exBoole J).length := by rw [PetIGA.Grid.inBox_length he]; simp
        have hil := i.isLt
        have hr : 0 ≤ e.getD i 0 ∧ e.getD i 0 < 3 := by
          have hb : e = [e.getD 0 0, e.getD 1 0] ∧ (0 ≤ e.getD 0 0 ∧ e.getD 0 0 < 3) ∧ (0 ≤ e.getD 1 0 ∧ e.getD 1 0 < 3) := by
            have he' : InBox [exRealAx.nel, exRealAx.nel] e := he
            rw [exRealAx_nel] at he'
            cases he' with
            | cons h0 h => cases h with
              | cons h1 h => cases h; exact ⟨rfl, h0, h1⟩
          have : (i:Nat) = 0 ∨ (i:Nat) = 1 := by have : (exBoole J).length = 2 := rfl; omega
          rcases this with h | h <;> rw [h]
          · exact hb.2.1
          · exact hb.2.2
        exact exRealAx_size hr.1 hr.2
      have h00 : InBox ((exBoole J).map fun δ => δ.ax.nel) [0, 0] := by
        show InBox [exRealAx.nel, exRealAx.nel] [0, 0]
        rw [exRealAx_nel]
        exact .cons ⟨le_refl _, by norm_num⟩ (.cons ⟨le_refl _, by norm_num⟩ .nil)
      rw [hsz e he, hsz [0,0] h00]⟩) hist pw w
  exact ⟨Ls, elt, A, b, hA, hpd⟩

end PetIGA.Demo
