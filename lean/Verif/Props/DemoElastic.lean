import Verif.Model.DemoElastic
import Verif.Props.DemoForms
import Verif.Props.Symmetric
import Verif.Props.NeumannRhs
/-
C129: demo/Elasticity3D.c.  What the form of its callback is, for every pair of Lame constants, and when that is Hooke's law.
-/
set_option linter.unusedSectionVars false
namespace PetIGA.Demo
open PetIGA.Quad PetIGA.Drv PetIGA.Spec PetIGA.Ax PetIGA.Lay PetIGA.Asm PetIGA.Grid PetIGA.Part PetIGA.Ker PetIGA.PCA PetIGA.Itg PetIGA.Frm

variable {n : Nat}

/-! ### Specification -/

/-- `∂_i u_c` at the point, of the displacement with the coefficients `U`. -/
def dispGrad (p : PtData 3 3 n) (U : Fin n → Fin 3 → ℝ) (c i : Fin 3) : ℝ := ∑ a, U a c * p.shape.t1 i a

/-- The strain of a displacement gradient. -/
noncomputable def strain (H : Fin 3 → Fin 3 → ℝ) (i j : Fin 3) : ℝ := (H i j + H j i) / 2

/-- The work of the stress of `G` along the strain of `H` in an isotropic solid: Hooke's law. -/
noncomputable def hooke (lambda mu : ℝ) (H G : Fin 3 → Fin 3 → ℝ) : ℝ :=
  lambda * (∑ i, strain H i i) * (∑ i, strain G i i) + 2 * mu * ∑ i, ∑ j, strain H i j * strain G i j

/-- The form of an array `K[nen][3][nen][3]`. -/
def arrayForm (K : Int → ℝ) (V U : Fin n → Fin 3 → ℝ) : ℝ := ∑ a, ∑ i, ∑ b, ∑ j, V a i * K (at2 3 a i b j) * U b j

/-! ### The callback -/

theorem put_zero : ∀ (l : List (Fin n)) (F : Int → ℝ) (i : Int), F i = 0 → l.foldl (fun F a => put F ((a : Nat) : Int) 0) F i = 0
  | [], _, _, h => h
  | a :: l, F, i, h => put_zero l _ i (by show (if i = ((a:Nat):Int) then (0:ℝ) else F i) = 0; rw [h, ite_self])

theorem entry_form (lambda mu : ℝ) (p : PtData 3 3 n) (V U : Fin n → Fin 3 → ℝ) :
    (∑ a, ∑ i, ∑ b, ∑ j, V a i * elasticEntry lambda mu (fun l => p.shape.t1 l a) (fun l => p.shape.t1 l b) i j * U b j) =
      hooke lambda mu (dispGrad p V) (dispGrad p U) + mu * (mu - 1) * dispGrad p V 1 0 * dispGrad p U 1 0 := by
  obtain ⟨H, hH⟩ : ∃ H, H = dispGrad p U := ⟨_, rfl⟩
  have inner : ∀ a, ∑ i, ∑ b, ∑ j, V a i * elasticEntry lambda mu (fun l => p.shape.t1 l a) (fun l => p.shape.t1 l b) i j * U b j =
      V a 0 * (p.shape.t1 0 a * (lambda + 2 * mu) * H 0 0 + mu * p.shape.t1 1 a * H 0 1 + mu * p.shape.t1 2 a * H 0 2 +
        p.shape.t1 0 a * lambda * H 1 1 + p.shape.t1 1 a * mu * H 1 0 + p.shape.t1 0 a * lambda * H 2 2 + p.shape.t1 2 a * mu * H 2 0) +
      V a 1 * (p.shape.t1 0 a * mu * H 0 1 + p.shape.t1 1 a * lambda * H 0 0 + p.shape.t1 1 a * (lambda + 2 * mu) * H 1 1 +
        mu * p.shape.t1 2 a * H 1 2 + mu * mu * p.shape.t1 0 a * H 1 0 + p.shape.t1 1 a * lambda * H 2 2 + p.shape.t1 2 a * mu * H 2 1) +
      V a 2 * (p.shape.t1 0 a * mu * H 0 2 + p.shape.t1 2 a * lambda * H 0 0 + p.shape.t1 1 a * mu * H 1 2 + p.shape.t1 2 a * lambda * H 1 1 +
        mu * p.shape.t1 0 a * H 2 0 + mu * p.shape.t1 1 a * H 2 1 + p.shape.t1 2 a * (lambda + 2 * mu) * H 2 2) := by
    intro a
    rw [hH]
    simp only [Fin.sum_univ_three, elasticEntry, dispGrad, Finset.mul_sum, ← Finset.sum_add_distrib]
    exact Finset.sum_congr rfl fun b _ => by ring
  rw [Finset.sum_congr rfl fun a _ => inner a, ← hH]
  have outer : hooke lambda mu (dispGrad p V) H + mu * (mu - 1) * dispGrad p V 1 0 * H 1 0 =
      dispGrad p V 0 0 * ((lambda + 2 * mu) * H 0 0 + lambda * H 1 1 + lambda * H 2 2) +
      dispGrad p V 0 1 * (mu * H 0 1 + mu * H 1 0) + dispGrad p V 0 2 * (mu * H 0 2 + mu * H 2 0) +
      dispGrad p V 1 0 * (mu * H 0 1 + mu * mu * H 1 0) +
      dispGrad p V 1 1 * (lambda * H 0 0 + (lambda + 2 * mu) * H 1 1 + lambda * H 2 2) +
      dispGrad p V 1 2 * (mu * H 1 2 + mu * H 2 1) + dispGrad p V 2 0 * (mu * H 0 2 + mu * H 2 0) +
      dispGrad p V 2 1 * (mu * H 1 2 + mu * H 2 1) +
      dispGrad p V 2 2 * (lambda * H 0 0 + lambda * H 1 1 + (lambda + 2 * mu) * H 2 2) := by
    simp only [hooke, strain, Fin.sum_univ_three]
    ring
  rw [outer]
  simp only [dispGrad, Finset.sum_mul, ← Finset.sum_add_distrib]
  exact Finset.sum_congr rfl fun a _ => by ring

/-- **C129**, the form of the callback of demo/Elasticity3D.c, for all constants, any tables of shape functions and any number of nodes: it is the one
of Hooke's law plus `μ (μ - 1) ∂_x v_y ∂_x u_y`.  The vector is zero in all its components: the callback clears a third of it, the library all. -/
theorem C129_form (lambda mu : ℝ) (p : PtData 3 3 n) (K F : Int → ℝ) (hF : ∀ i : Int, 0 ≤ i → i < (n * 3 : Nat) → F i = 0) :
    ∃ K' F', elasticSystem lambda mu p K F = .ok (K', F') ∧ (∀ i : Int, 0 ≤ i → i < (n * 3 : Nat) → F' i = 0) ∧
      ∀ V U : Fin n → Fin 3 → ℝ, arrayForm K' V U =
        hooke lambda mu (dispGrad p V) (dispGrad p U) + mu * (mu - 1) * dispGrad p V 1 0 * dispGrad p U 1 0 := by
  refine ⟨_, _, rfl, fun i h0 h1 => put_zero _ _ _ (hF i h0 h1), fun V U => ?_⟩
  rw [← entry_form]
  unfold arrayForm
  simp only [fillMat_at]

/-- **C129**, Hooke's law: with `mu = 1`, as `main` sets it, the form is the one of linear elasticity.  Missing, because false: every other `mu`. -/
theorem C129_hooke_partial (lambda : ℝ) (p : PtData 3 3 n) (K F : Int → ℝ) (hF : ∀ i : Int, 0 ≤ i → i < (n * 3 : Nat) → F i = 0) :
    ∃ K' F', elasticSystem lambda 1 p K F = .ok (K', F') ∧ (∀ i : Int, 0 ≤ i → i < (n * 3 : Nat) → F' i = 0) ∧
      ∀ V U : Fin n → Fin 3 → ℝ, arrayForm K' V U = hooke lambda 1 (dispGrad p V) (dispGrad p U) := by
  obtain ⟨K', F', h1, h2, h3⟩ := C129_form lambda 1 p K F hF
  exact ⟨K', F', h1, h2, fun V U => by rw [h3]; ring⟩

/-- **C129**, every other constant: for any `mu` but 0 and 1, at every point whose shape functions can represent the rotation about the third axis, the
rotation, which has no strain, has the energy `μ (μ - 1)`: the form is not the one of Hooke's law, and for `0 < mu < 1` it is not even positive. -/
theorem C129_hooke_refuted (lambda mu : ℝ) (h0 : mu ≠ 0) (h1 : mu ≠ 1) (p : PtData 3 3 n) (U : Fin n → Fin 3 → ℝ)
    (hU : dispGrad p U = fun c i => if c = 0 ∧ i = 1 then -1 else if c = 1 ∧ i = 0 then 1 else 0) (K F : Int → ℝ) :
    ∃ K' F', elasticSystem lambda mu p K F = .ok (K', F') ∧ hooke lambda mu (dispGrad p U) (dispGrad p U) = 0 ∧
      arrayForm K' U U = mu * (mu - 1) ∧ arrayForm K' U U ≠ hooke lambda mu (dispGrad p U) (dispGrad p U) ∧ (0 < mu → mu < 1 → arrayForm K' U U < 0) := by
  have hz : hooke lambda mu (dispGrad p U) (dispGrad p U) = 0 := by
    rw [hU]
    simp [hooke, strain, Fin.sum_univ_three]
  have hf : arrayForm (fillMat (dof := 3) (fun a i b j => elasticEntry lambda mu (fun l => p.shape.t1 l a) (fun l => p.shape.t1 l b) i j) K) U U =
      mu * (mu - 1) := by
    unfold arrayForm
    simp only [fillMat_at]
    rw [entry_form, hz, hU]
    simp
  refine ⟨_, _, rfl, hz, hf, ?_, fun a b => ?_⟩
  · rw [hf, hz]
    exact mul_ne_zero h0 (sub_ne_zero.2 h1)
  · rw [hf]
    nlinarith

/-- `C129_hooke_refuted` applies: the linear functions `x`, `y`, with `mu = 1/2`. -/
example (K F : Int → ℝ) (p : PtData 3 3 2) (hp : p.shape.t1 = fun i a => if i.val = a.val then 1 else 0) :
    ∃ K' F', elasticSystem 1 (1/2) p K F = .ok (K', F') ∧ ∃ U : Fin 2 → Fin 3 → ℝ, arrayForm K' U U < 0 := by
  let U : Fin 2 → Fin 3 → ℝ := fun a c => if c = 0 ∧ a = 1 then -1 else if c = 1 ∧ a = 0 then 1 else 0
  obtain ⟨K', F', h, -, -, -, hn⟩ := C129_hooke_refuted 1 (1/2) (by norm_num) (by norm_num) p U (by
    funext c i
    fin_cases c <;> fin_cases i <;> simp [dispGrad, hp, U, Fin.sum_univ_two]) K F
  exact ⟨K', F', h, U, hn (by norm_num) (by norm_num)⟩

/-! ### The assembled matrix -/

theorem at1_onto {i : Nat} (hi : i < n * 3) : ∃ (a : Fin n) (c : Fin 3), at1 3 a c = i :=
  ⟨⟨i / 3, by omega⟩, ⟨i % 3, by omega⟩, by unfold at1; show i / 3 * 3 + i % 3 = i; omega⟩

theorem sum_at1 (f : Nat → ℝ) : ((List.range (n * 3)).map f).sum = ∑ a : Fin n, ∑ c : Fin 3, f (at1 3 a c) := by
  rw [← Finset.sum_product', show ((List.range (n * 3)).map f).sum = ∑ i ∈ Finset.range (n * 3), f i from by rw [Finset.sum_eq_multiset_sum]; rfl,
    Finset.sum_range]
  refine (Fintype.sum_equiv finProdFinEquiv (fun x : Fin n × Fin 3 => f (at1 3 x.1 x.2)) _ fun x => ?_).symm
  congr 1
  unfold at1
  simp [finProdFinEquiv]
  ring

/-- The array the callback leaves. -/
def elasticArray (lambda mu : ℝ) (p : PtData 3 3 n) : Int → ℝ :=
  fillMat (dof := 3) (fun a i b j => elasticEntry lambda mu (fun l => p.shape.t1 l a) (fun l => p.shape.t1 l b) i j) fun _ => 0

theorem elastic_fills (lambda mu : ℝ) {m : Nat} (hm : m = n * 3) :
    FillsSys m m (elasticSystem (n := n) lambda mu) (elasticArray lambda mu) (fun _ _ => 0) := by
  intro p A B hA hB
  refine ⟨_, _, rfl, fun i i0 i1 => ?_, fun i i0 i1 => put_zero _ _ _ (hB i i0 i1)⟩
  obtain ⟨a, c, b, j, h⟩ := at2_onto (n := n) (dof := 3) i.toNat (by rw [← hm]; omega)
  obtain rfl : i = ((at2 3 a c b j : Nat) : Int) := by omega
  unfold elasticArray
  rw [fillMat_at, fillMat_at]

theorem elastic_sym (lambda mu : ℝ) (p : PtData 3 3 n) : Sym.SymArray (n * 3) (elasticArray lambda mu p) := by
  intro i j hi hj
  obtain ⟨a, c, rfl⟩ := at1_onto hi
  obtain ⟨b, k, rfl⟩ := at1_onto hj
  have e1 : elasticArray lambda mu p (at2 3 a c b k) = _ := fillMat_at _ _ a c b k
  have e2 : elasticArray lambda mu p (at2 3 b k a c) = _ := fillMat_at _ _ b k a c
  rw [at2_eq] at e1 e2
  push_cast at e1 e2 ⊢
  rw [e1, e2]
  fin_cases c <;> fin_cases k <;> simp [elasticEntry] <;> ring

theorem elastic_nonneg {lambda mu : ℝ} (hl : 0 ≤ lambda) (hm : 1 ≤ mu) (p : PtData 3 3 n) : Sym.NonnegArray (n * 3) (elasticArray lambda mu p) := by
  intro x
  rw [sum_at1]
  have : (∑ a : Fin n, ∑ c : Fin 3, x (at1 3 a c) *
      ((List.range (n * 3)).map fun (j : Nat) => elasticArray lambda mu p (((at1 3 a c : Nat) : Int) * ((n * 3 : Nat) : Int) + j) * x j).sum) =
      hooke lambda mu (dispGrad p fun a c => x (at1 3 a c)) (dispGrad p fun a c => x (at1 3 a c)) +
        mu * (mu - 1) * dispGrad p (fun a c => x (at1 3 a c)) 1 0 * dispGrad p (fun a c => x (at1 3 a c)) 1 0 := by
    rw [← entry_form]
    refine Finset.sum_congr rfl fun a _ => Finset.sum_congr rfl fun c _ => ?_
    rw [sum_at1, Finset.mul_sum]
    refine Finset.sum_congr rfl fun b _ => ?_
    rw [Finset.mul_sum]
    refine Finset.sum_congr rfl fun j _ => ?_
    have e1 : elasticArray lambda mu p (at2 3 a c b j) = _ := fillMat_at _ _ a c b j
    rw [at2_eq] at e1
    push_cast at e1 ⊢
    rw [e1]
    ring
  rw [this]
  have h1 : 0 ≤ hooke lambda mu (dispGrad p fun a c => x (at1 3 a c)) (dispGrad p fun a c => x (at1 3 a c)) := by
    unfold hooke
    refine add_nonneg ?_ (mul_nonneg (by linarith) (Finset.sum_nonneg fun i _ => Finset.sum_nonneg fun j _ => mul_self_nonneg _))
    rw [mul_assoc]
    exact mul_nonneg hl (mul_self_nonneg _)
  have h2 : 0 ≤ mu * (mu - 1) * dispGrad p (fun a c => x (at1 3 a c)) 1 0 * dispGrad p (fun a c => x (at1 3 a c)) 1 0 := by
    rw [mul_assoc]
    exact mul_nonneg (mul_nonneg (by linarith) (by linarith)) (mul_self_nonneg _)
  linarith

variable {g2 : Guess2} {g3 : Guess3} {size : Int} {procs : List Int} {axes : List (Axis ℝ)} {Ls : List (Layout ℝ)}

/-- **C129**, the assembled matrix, on any number of processes and with any boundary values: it is symmetric for all constants, and its quadratic form
is nonnegative if `0 ≤ lambda` and `1 ≤ mu`, which the constants of `main` satisfy. -/
theorem C129_assembled {axs : List (Axis ℝ)} (S : Setup g2 g3 false size procs axes axs Ls) {elt : List Int → Elt ℝ (PtData 3 3 (nenOf axs))}
    (hE : Elements axs 3 elt) (lambda mu : ℝ) (hist) (pw) (w) :
    ∃ A b, computeSystem Ls hist 3 ⟨elt, pw, w⟩ (elasticSystem lambda mu) = .ok (A, b) ∧ Sym.SymMat (total axs 3) A ∧
      (0 ≤ lambda → 1 ≤ mu → Sym.Measures axs elt → Sym.NonnegMat (total axs 3) A) := by
  have hu : unknowns axs 3 = nenOf axs * 3 := by unfold unknowns; rfl
  obtain ⟨A, b, h, k1, k2⟩ := Sym.C123_system S hE (elasticSystem lambda mu) _ _ (elastic_fills lambda mu hu) hist pw w
  exact ⟨A, b, h, k1 fun p => by rw [hu]; exact elastic_sym lambda mu p, fun hl hm hM => k2 (fun p => by rw [hu]; exact elastic_nonneg hl hm p) hM⟩

/-- **C129**, where `C129_hooke_refuted` applies: at every point of every element of every three-dimensional mesh that is not periodic and has no
geometry.  So on none of them `mu` may be chosen freely. -/
theorem C129_everywhere_refuted {δ₀ δ₁ δ₂ : Direction Line} (S : Setup g2 g3 false size procs axes ([δ₀, δ₁, δ₂].map Direction.ax) Ls)
    (hT : ∀ δ ∈ [δ₀, δ₁, δ₂], δ.Tabulated) (hs : ∀ δ ∈ [δ₀, δ₁, δ₂], IsSpline δ) (hper : ∀ δ ∈ [δ₀, δ₁, δ₂], δ.ax.periodic = false)
    {c : PtIn 3 3 (Fin (nenOf ([δ₀, δ₁, δ₂].map Direction.ax)))} (hc : FirstOrder c) (hgeo : c.geometry = none) {e : List Int}
    (he : InBox ([δ₀, δ₁, δ₂].map fun δ => δ.ax.nel) e) {mem} {qs} (h : tabulateElement c ([δ₀, δ₁, δ₂].map Direction.B) e mem = .ok qs)
    (lambda mu : ℝ) (h0 : mu ≠ 0) (h1 : mu ≠ 1) (K F : Int → ℝ) :
    ∀ q ∈ qs, ∃ K' F', elasticSystem lambda mu q.data K F = .ok (K', F') ∧
      ∃ U, hooke lambda mu (dispGrad q.data U) (dispGrad q.data U) = 0 ∧ arrayForm K' U U = mu * (mu - 1) ∧ arrayForm K' U U ≠ 0 := by
  intro q hq
  obtain ⟨-, -, hw⟩ := setup_facts S
  have hw' : ∀ ax ∈ [δ₀, δ₁, δ₂].map Direction.ax, WF ax ∧ ax.periodic = false := by
    intro ax hax
    obtain ⟨δ, hδ, rfl⟩ := List.mem_map.1 hax
    exact ⟨hw δ hδ, hper δ hδ⟩
  obtain ⟨f1, f2⟩ := inner_facts S hT hs (c := c) hc hgeo he h q hq
  have hdeg : ∀ k : Fin 3, ∀ P ∈ [rampTerm 3 k (ramp δ₀.ax true)], List.Forall₂ (fun p d => p.natDegree ≤ d) P (([δ₀, δ₁, δ₂].map Direction.ax).map fun ax => ax.p.toNat) := by
    intro k P hP
    rw [List.mem_singleton] at hP
    subst hP
    have := rampTerm_degree (deg := ([δ₀, δ₁, δ₂].map Direction.ax).map fun ax => ax.p.toNat) (fun d hd => by
      simp only [List.map_map, List.mem_map, Function.comp_apply] at hd
      obtain ⟨δ, hδ, rfl⟩ := hd
      have := (hw δ hδ).legal.degree
      omega) k (ramp_degree δ₀.ax true)
    exact this
  have hrep := fun k : Fin 3 => (reproduces_of (ds := [δ₀, δ₁, δ₂]) hw' (by rw [List.map_map]; exact he) f1 f2 _ (hdeg k)).deriv
  let X : Fin 3 → Fin (nenOf ([δ₀, δ₁, δ₂].map Direction.ax)) → ℝ := fun k a =>
    loc ([δ₀, δ₁, δ₂].map Direction.ax) (fun z _ => polyField ([δ₀, δ₁, δ₂].map Direction.ax) [rampTerm 3 k (ramp δ₀.ax true)] z) e a
  have hX : ∀ k i : Fin 3, ∑ a, X k a * q.data.shape.t1 i a = if i = k then 1 else 0 := by
    intro k i
    rw [← comb_local]
    refine (hrep k i).trans ?_
    simp only [List.map_cons, List.map_nil, List.sum_cons, List.sum_nil, add_zero]
    exact (ramp_slope 3 k i _ f1 δ₀.ax true)
  let U : Fin (nenOf ([δ₀, δ₁, δ₂].map Direction.ax)) → Fin 3 → ℝ := fun a c => if c = 0 then -X 1 a else if c = 1 then X 0 a else 0
  obtain ⟨K', F', k1, k2, k3, k4, -⟩ := C129_hooke_refuted lambda mu h0 h1 q.data U (by
    funext c i
    unfold dispGrad
    fin_cases c
    · simp only [U, Fin.zero_eta, if_true, neg_mul, Finset.sum_neg_distrib, hX]
      fin_cases i <;> simp
    · simp only [U, Fin.mk_one, one_ne_zero, if_false, if_true, hX]
      fin_cases i <;> simp
    · simp [U]) K F
  exact ⟨K', F', k1, U, k2, k3, by rw [k3]; exact mul_ne_zero h0 (sub_ne_zero.2 h1)⟩

/-- `C129_everywhere_refuted` and `C129_assembled` apply: two processes, three directions of degree 2 with Simpson's rule; there are points. -/
example (g2 : Guess2) (g3 : Guess3) (J : Bsp.Junk ℝ) (K F : Int → ℝ) (hist : Nat → Hist) (pw : Nat → List Int → PWork ℝ) (w : Nat → List Int → Work ℝ) :
    ∃ (Ls : List (Layout ℝ)) (elt : List Int → Elt ℝ (PtData 3 3 (nenOf [exRealAx, exRealAx, exRealAx]))) (A : Int × Int → ℝ) (b : Int → ℝ),
      computeSystem Ls hist 3 ⟨elt, pw, w⟩ (elasticSystem 1 1) = .ok (A, b) ∧ Sym.SymMat (total [exRealAx, exRealAx, exRealAx] 3) A ∧
      Sym.NonnegMat (total [exRealAx, exRealAx, exRealAx] 3) A ∧ ∃ q ∈ (elt [0, 0, 0]).points none,
      ∃ K' F', elasticSystem 1 (1/2) q.data K F = .ok (K', F') ∧ ∃ U : Fin (nenOf [exRealAx, exRealAx, exRealAx]) → Fin 3 → ℝ, arrayForm K' U U < 0 := by
  let δ := exLine J [-1, 0, 1] [1/3, 4/3, 1/3]
  obtain ⟨Ls, S⟩ : ∃ Ls, Setup g2 g3 false 2 [2,1,1] [exRealAx, exRealAx, exRealAx] [exRealAx, exRealAx, exRealAx] Ls := by
    refine knot_setup g2 g3 2 [2,1,1] [exRealAx, exRealAx, exRealAx] ?_ (by simp) ?_ rfl (by omega)
    · intro ax hax
      simp only [List.mem_cons, List.not_mem_nil, or_false, or_self] at hax
      subst hax
      exact ⟨false, 2, 7, Itg.exU, rfl, Itg.exU_legal, by norm_num [Itg.exU], by norm_num [Itg.exU]⟩
    · have : gridSize false exRealAx = 3 := by simp [gridSize, exRealAx_nel]
      simp only [List.map_cons, List.map_nil, this]
      exact .cons (by omega) (.cons (by omega) (.cons (by omega) .nil))
  have S' : Setup g2 g3 false 2 [2,1,1] [exRealAx, exRealAx, exRealAx] ([δ, δ, δ].map Direction.ax) Ls := S
  have hok := exLines_ok J
  have one : ∀ x ∈ [δ, δ, δ], x ∈ exLines J := by
    intro x hx
    simp only [List.mem_cons, List.not_mem_nil, or_false, or_self] at hx
    subst hx
    simp [exLines, δ]
  have hT : ∀ x ∈ [δ, δ, δ], x.Tabulated := fun x h => (hok x (one x h)).1
  have hs : ∀ x ∈ [δ, δ, δ], IsSpline x := fun x h => (hok x (one x h)).2.1
  have hper : ∀ x ∈ [δ, δ, δ], x.ax.periodic = false := by
    intro x hx
    simp only [List.mem_cons, List.not_mem_nil, or_false, or_self] at hx
    subst hx
    rfl
  obtain ⟨h1, h3, hw⟩ := setup_facts S'
  let m0 : Nat → Tab ℝ 3 Nat × PtOut 3 3 (Fin (nenOf ([δ, δ, δ].map Direction.ax))) := fun _ =>
    (⟨fun _ => 0, fun _ _ => 0, fun _ _ _ => 0, fun _ _ _ _ => 0, fun _ _ _ _ _ => 0⟩,
     ⟨⟨fun _ => 0, fun _ _ => 0, fun _ _ _ => 0, fun _ _ _ _ => 0, fun _ _ _ _ _ => 0⟩,
      ⟨fun _ => 0, fun _ _ => 0, fun _ _ _ => 0, fun _ _ _ _ => 0, fun _ _ _ _ _ => 0⟩, 0,
      ⟨fun _ => 0, fun _ _ => 0, fun _ _ _ => 0, fun _ _ _ _ => 0, fun _ _ _ _ _ => 0⟩,
      ⟨fun _ => 0, fun _ _ => 0, fun _ _ _ => 0, fun _ _ _ _ => 0, fun _ _ _ _ _ => 0⟩, 0, fun _ => 0, 0⟩)
  let c : PtIn 3 3 (Fin (nenOf ([δ, δ, δ].map Direction.ax))) := plainPt 3 (nenOf ([δ, δ, δ].map Direction.ax))
  have htab : ∀ e, InBox ([δ, δ, δ].map fun δ => δ.ax.nel) e → ∃ qs, tabulateElement c ([δ, δ, δ].map Direction.B) e m0 = .ok qs := fun e he =>
    tabulateElement_ok rfl h1 h3 hT hs hw c (.inl rfl) he m0
  choose! qs hqs using htab
  let elt : List Int → Elt ℝ (PtData 3 3 (nenOf [exRealAx, exRealAx, exRealAx])) := fun e =>
    ⟨0, nenOf [exRealAx, exRealAx, exRealAx], nenOf [exRealAx, exRealAx, exRealAx], 3, ⟨[], []⟩, e, [3, 3, 3], fun _ _ => false, fun _ => qs e⟩
  have hE : Elements [exRealAx, exRealAx, exRealAx] 3 elt := fun e he => ⟨⟨le_refl _, rfl, ⟨by simp [elt], by simp [elt]⟩, ⟨by simp [elt], by simp [elt]⟩⟩, rfl, rfl⟩
  have hM : Sym.Measures [exRealAx, exRealAx, exRealAx] elt := by
    intro e he side q hq
    have he' : InBox ([δ, δ, δ].map fun δ => δ.ax.nel) e := he
    obtain ⟨pts, hp, N, m, o, -, ho, rfl⟩ := (tabulated_points rfl h1 h3 hT hs hw c he' m0 (hqs e he')).2 q hq
    exact (mul_pos (detJac_pos ho (lines_J hw he' (mem_tensorPoints hp)) rfl (.inl rfl)) (lines_w hT (mem_tensorPoints hp))).le
  have he0 : InBox ([δ, δ, δ].map fun δ => δ.ax.nel) [0, 0, 0] := by
    have : (0:Int) ≤ 0 ∧ (0:Int) < exRealAx.nel := by rw [exRealAx_nel]; norm_num
    exact .cons this (.cons this (.cons this .nil))
  obtain ⟨A, b, hA, k1, k2⟩ := C129_assembled S hE 1 1 hist pw w
  have hne : ∃ q, q ∈ qs [0, 0, 0] := by
    obtain ⟨pts, l, hl⟩ := List.exists_cons_of_ne_nil (tensorPoints_ne (ls := lines [δ, δ, δ] [0, 0, 0]) fun l hl => by
      simp only [lines, List.zipWith_cons_cons, List.zipWith_nil_left, List.mem_cons, List.not_mem_nil, or_false] at hl
      rcases hl with rfl | rfl | rfl <;> simp [δ, exLine])
    obtain ⟨q, hq, -⟩ := (tabulated_points rfl h1 h3 hT hs hw c he0 m0 (hqs _ he0)).1 pts (by rw [hl]; simp)
    exact ⟨q, hq⟩
  obtain ⟨q, hq⟩ := hne
  obtain ⟨K', F', e1, U, -, e3, -⟩ := C129_everywhere_refuted S' hT hs hper (c := c) ⟨le_refl _, rfl, rfl, rfl⟩ rfl he0 (hqs _ he0) 1 (1/2) (by norm_num) (by norm_num) K F q hq
  exact ⟨Ls, elt, A, b, hA, k1, k2 (by norm_num) (by norm_num) hM, q, hq, K', F', e1, U, lt_of_eq_of_lt e3 (by norm_num)⟩

end PetIGA.Demo
