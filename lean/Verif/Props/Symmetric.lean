import Verif.Props.Laplace
/-
Symmetric and nonnegative callbacks give symmetric and nonnegative assembled matrices, whatever the boundary conditions, boundary integrals
and processes.
-/
set_option linter.unusedSectionVars false
namespace PetIGA.Sym
open PetIGA.Ax PetIGA.Lay PetIGA.Asm PetIGA.Fix PetIGA.Grid PetIGA.Spec PetIGA.Part PetIGA.Drv PetIGA.PCA PetIGA.Itg

variable {K : Type} [Field K] [LinearOrder K] [IsStrictOrderedRing K] {P : Type}
variable {g2 : Guess2} {g3 : Guess3} {size : Int} {procs : List Int} {axes axs : List (Axis K)} {Ls : List (Layout K)}

/-! ### Specification -/

/-- The `n × n` array `k`, row after row as the callbacks fill it, is symmetric. -/
def SymArray (n : Nat) (k : Int → ℝ) : Prop := ∀ i j : Nat, i < n → j < n → k (i * n + j) = k (j * n + i)

/-- Its quadratic form is nonnegative. -/
def NonnegArray (n : Nat) (k : Int → ℝ) : Prop :=
  ∀ x : Nat → ℝ, 0 ≤ ((List.range n).map fun (i : Nat) => x i * ((List.range n).map fun (j : Nat) => k (i * n + j) * x j).sum).sum

/-- The assembled matrix of `N` unknowns is symmetric. -/
def SymMat (N : Nat) (A : Int × Int → ℝ) : Prop := ∀ i j : Nat, i < N → j < N → A (i, j) = A (j, i)

/-- Its quadratic form is nonnegative. -/
def NonnegMat (N : Nat) (A : Int × Int → ℝ) : Prop :=
  ∀ x : Int → ℝ, 0 ≤ ∑ i ∈ Finset.range N, ∑ j ∈ Finset.range N, x i * A ((i:Int), (j:Int)) * x j

/-- The Jacobian times the weight is nonnegative at all the points, inside and on the sides, of all the elements. -/
def Measures (axs : List (Axis K)) (elt : List Int → Elt ℝ P) : Prop :=
  ∀ e, InBox (axs.map Axis.nel) e → ∀ side, ∀ q ∈ (elt e).points side, 0 ≤ q.detJac * q.weight

/-- What the assembly of matrix callbacks keeps. -/
def Keeps (axs : List (Axis K)) (dof : Nat) (elt : List Int → Elt ℝ P) (sym nonneg : Prop) (A : Int × Int → ℝ) : Prop :=
  (sym → SymMat (total axs dof) A) ∧ (nonneg → Measures axs elt → NonnegMat (total axs dof) A)

/-! ### Proof -/

theorem sym_of (S : Setup g2 g3 false size procs axes axs Ls) (dof : Nat) (κ : List Int → Nat → Nat → ℝ) (A : Int × Int → ℝ)
    (hA : RepresentsMat axs Ls dof A (sumMat axs dof κ))
    (hs : ∀ e, InBox (axs.map Axis.nel) e → ∀ i j : Nat, i < unknowns axs dof → j < unknowns axs dof → κ e i j = κ e j i) :
    SymMat (total axs dof) A := by
  intro i j hi hj
  obtain ⟨z, c, hz, hc, ei⟩ := unknown_onto S (dof := dof) (i := (i:Int)) (by omega) (by omega)
  obtain ⟨y, d, hy, hd, ej⟩ := unknown_onto S (dof := dof) (i := (j:Int)) (by omega) (by omega)
  rw [ei, ej]
  have e1 := hA z c y d hz hy hc hd
  have e2 := hA y d z c hy hz hd hc
  exact e1.trans ((sumMat_symm axs dof κ hs z c y d hc hd).trans e2.symm)

theorem nonneg_of (S : Setup g2 g3 false size procs axes axs Ls) (dof : Nat) (κ : List Int → Nat → Nat → ℝ) (A : Int × Int → ℝ)
    (hA : RepresentsMat axs Ls dof A (sumMat axs dof κ))
    (h0 : ∀ e, InBox (axs.map Axis.nel) e → ∀ u : List Int → Nat → ℝ,
      0 ≤ elemForm (unknowns axs dof) (κ e) (valuesOf false axs dof u e) (valuesOf false axs dof u e)) :
    NonnegMat (total axs dof) A := by
  intro x
  rw [global_form S dof κ A hA x x]
  refine List.sum_nonneg fun v hv => ?_
  obtain ⟨e, he, rfl⟩ := List.mem_map.1 hv
  exact h0 e ((mem_indices _ _).1 he) _

theorem integral_congr (E : Elt ℝ P) {f g : P → ℝ} (h : ∀ p, f p = g p) : integral E f = integral E g := by
  rw [show f = g from funext h]

theorem pointSum_nonneg {qs : List (QP ℝ P)} {R : P → ℝ} (h : ∀ p, 0 ≤ R p) (hm : ∀ q ∈ qs, 0 ≤ q.detJac * q.weight) : 0 ≤ pointSum qs R := by
  unfold pointSum
  refine List.sum_nonneg fun v hv => ?_
  obtain ⟨q, hq, rfl⟩ := List.mem_map.1 hv
  exact mul_nonneg (h _) (hm q hq)

theorem integral_nonneg (E : Elt ℝ P) {R : P → ℝ} (h : ∀ p, 0 ≤ R p) (hm : ∀ side, ∀ q ∈ E.points side, 0 ≤ q.detJac * q.weight) : 0 ≤ integral E R := by
  unfold integral
  refine add_nonneg (List.sum_nonneg fun v hv => ?_) (pointSum_nonneg h (hm none))
  obtain ⟨b, -, rfl⟩ := List.mem_map.1 hv
  split_ifs
  · exact pointSum_nonneg h (hm _)
  · exact le_refl _

theorem pointSum_lin {α : Type} (qs : List (QP ℝ P)) (l : List α) (c : α → ℝ) (F : α → P → ℝ) :
    pointSum qs (fun p => (l.map fun a => c a * F a p).sum) = (l.map fun a => c a * pointSum qs (F a)).sum := by
  induction l with
  | nil => simp [pointSum]
  | cons a l ih =>
    simp only [List.map_cons, List.sum_cons, ← ih]
    unfold pointSum
    rw [← List.sum_map_mul_left, ← List.sum_map_add]
    congr 1; refine List.map_congr_left fun q _ => ?_
    ring

theorem integral_lin {α : Type} (E : Elt ℝ P) (l : List α) (c : α → ℝ) (F : α → P → ℝ) :
    integral E (fun p => (l.map fun a => c a * F a p).sum) = (l.map fun a => c a * integral E (F a)).sum := by
  unfold integral
  simp only [pointSum_lin, mul_add, List.sum_map_add]
  congr 1
  have : ∀ m : List Nat, (m.map fun b => if OnSide E b then (l.map fun a => c a * pointSum (E.points (some (b:Int))) (F a)).sum else 0).sum =
      (l.map fun a => c a * (m.map fun b => if OnSide E b then pointSum (E.points (some (b:Int))) (F a) else 0).sum).sum := by
    intro m
    induction m with
    | nil => simp
    | cons b m ih =>
      simp only [List.map_cons, List.sum_cons, ih, mul_add, List.sum_map_add]
      congr 1
      split_ifs <;> simp
  exact this _

theorem elemForm_integral (E : Elt ℝ P) (n : Nat) (k : P → Int → ℝ) (U : List ℝ) :
    elemForm n (fun i j => integral E fun p => k p (i * n + j)) U U =
      integral E fun p => ((List.range n).map fun (i : Nat) => U.getD i 0 * ((List.range n).map fun (j : Nat) => k p (i * n + j) * U.getD j 0).sum).sum := by
  unfold elemForm
  rw [integral_lin]
  congr 1; refine List.map_congr_left fun i _ => ?_
  congr 1
  simp only [mul_comm _ (U.getD _ 0)]
  rw [integral_lin]

variable {dof : Nat} {elt : List Int → Elt ℝ P}

theorem keeps_integral (S : Setup g2 g3 false size procs axes axs Ls) (k : List Int → P → Int → ℝ) (A : Int × Int → ℝ)
    (hA : RepresentsMat axs Ls dof A (sumMat axs dof fun e i j => integral (elt e) fun p => k e p (i * unknowns axs dof + j))) :
    Keeps axs dof elt (∀ e p, SymArray (unknowns axs dof) (k e p)) (∀ e p, NonnegArray (unknowns axs dof) (k e p)) A := by
  refine ⟨fun hs => sym_of S dof _ A hA fun e _ i j hi hj => integral_congr _ fun p => hs e p i j hi hj, fun hn hm => nonneg_of S dof _ A hA fun e he u => ?_⟩
  rw [elemForm_integral]
  exact integral_nonneg _ (fun p => hn e p _) (hm e he)

theorem keeps_jacobian (S : Setup g2 g3 false size procs axes axs Ls) (hE : Elements axs dof elt) (k : List Int → P → Int → ℝ) (A : Int × Int → ℝ)
    (hA : RepresentsMat axs Ls dof A (sumMat axs dof fun e => jacobianAt (elt e) (k e))) :
    Keeps axs dof elt (∀ e p, SymArray (unknowns axs dof) (k e p)) (∀ e p, NonnegArray (unknowns axs dof) (k e p)) A := by
  refine ⟨fun hs => sym_of S dof _ A hA fun e he i j hi hj => ?_, fun hn hm => nonneg_of S dof _ A hA fun e he u => ?_⟩
  · unfold jacobianAt
    rw [hE.n_eq he]
    simp only [or_comm (a := (tableGet (elt e).fixes.fix j).isSome = true), eq_comm (a := j)]
    split_ifs
    · rfl
    · rfl
    · exact integral_congr _ fun p => hs e p i j hi hj
  · have := elemForm_fixed (elt e) (k e) (valuesOf false axs dof u e)
    rw [hE.n_eq he] at this
    rw [this, elemForm_integral]
    refine add_nonneg (List.sum_nonneg fun v hv => ?_) (integral_nonneg _ (fun p => hn e p _) (hm e he))
    obtain ⟨i, -, rfl⟩ := List.mem_map.1 hv
    split_ifs
    · exact mul_self_nonneg _
    · exact le_refl _

/-- Every vector represents some nodal field. -/
theorem represents_any {W : Type} (x : Int → W) : Represents axs Ls dof x fun z c => x (Blk.unknown Ls axs dof z c) := fun _ _ _ _ => rfl

/-! ### C123 -/

/-- **C123**, `IGAComputeMatrix`. -/
theorem C123_matrix (S : Setup g2 g3 false size procs axes axs Ls) (hE : Elements axs dof elt) (cb : P → (Int → ℝ) → Res (Int → ℝ)) (k : P → Int → ℝ)
    (hK : Fills (unknowns axs dof * unknowns axs dof) cb k) (hist) (pw) (w) :
    ∃ A, computeMatrix Ls hist dof ⟨elt, pw, w⟩ cb = .ok A ∧
      Keeps axs dof elt (∀ p, SymArray (unknowns axs dof) (k p)) (∀ p, NonnegArray (unknowns axs dof) (k p)) A := by
  have hu : Represents axs Ls dof (fun _ : Int => ()) (fun _ _ => ()) := fun _ _ _ _ => rfl
  obtain ⟨A, h1, h2⟩ := mat_global S hist dof (fun _ => ()) (fun _ => ()) _ hu (fun r e _ => entries (matrix (elt e) cb (pw r e) (w r e)))
    (fun e i j => integral (elt e) fun p => k p (i * unknowns axs dof + j)) fun r' e he => by
      obtain ⟨A, h1, h2⟩ := C77_matrix (elt e) (hE e he).1 cb k (by rw [hE.m_eq he, hE.n_eq he]; exact hK) (pw r' e) (w r' e)
      rw [h1]
      refine ⟨_, rfl, fun i j hi hj => ?_⟩
      have := h2 i j (by rw [hE.n_eq he]; exact hi) (by rw [hE.n_eq he]; exact hj)
      rw [hE.n_eq he] at this
      push_cast
      exact this
  have hk := keeps_integral (elt := elt) S (fun _ => k) A h2
  exact ⟨A, h1, fun hs => hk.1 fun _ => hs, fun hn => hk.2 fun _ => hn⟩

/-- **C123**, `IGAComputeSystem`, with any boundary conditions. -/
theorem C123_system (S : Setup g2 g3 false size procs axes axs Ls) (hE : Elements axs dof elt)
    (cb : P → (Int → ℝ) → (Int → ℝ) → Res ((Int → ℝ) × (Int → ℝ))) (k r : P → Int → ℝ)
    (hK : FillsSys (unknowns axs dof) (unknowns axs dof) cb k r) (hist) (pw) (w) :
    ∃ A b, computeSystem Ls hist dof ⟨elt, pw, w⟩ cb = .ok (A, b) ∧
      Keeps axs dof elt (∀ p, SymArray (unknowns axs dof) (k p)) (∀ p, NonnegArray (unknowns axs dof) (k p)) A := by
  have hu : Represents axs Ls dof (fun _ : Int => ()) (fun _ _ => ()) := fun _ _ _ _ => rfl
  obtain ⟨A, a1, a2⟩ := mat_global S hist dof (fun _ => ()) (fun _ => ()) _ hu
    (fun r e _ => entries ((system (elt e) cb (pw r e) (w r e)).bind fun s => .ok s.1)) (fun e => jacobianAt (elt e) k) fun r' e he => by
      obtain ⟨A, B, h1, h2, _⟩ := C77_system (elt e) (hE e he).1 cb k r (by rw [hE.m_eq he, hE.n_eq he]; exact hK) (pw r' e) (w r' e)
      exact element_mat hE he ⟨A, by rw [h1]; rfl, h2⟩
  obtain ⟨b, b1, b2⟩ := vec_global S hist dof (fun _ => ()) (fun _ => ()) _ hu
    (fun r e _ => entries ((system (elt e) cb (pw r e) (w r e)).bind fun s => .ok s.2)) (fun e => rhsAt (elt e) k r) fun r' e he => by
      obtain ⟨A, B, h1, _, h3⟩ := C77_system (elt e) (hE e he).1 cb k r (by rw [hE.m_eq he, hE.n_eq he]; exact hK) (pw r' e) (w r' e)
      rw [h1]
      exact ⟨_, rfl, fun i hi => h3 i (by rw [hE.n_eq he]; exact hi)⟩
  have hk := keeps_jacobian S hE (fun _ => k) A a2
  exact ⟨A, b, by unfold computeSystem; rw [a1]; show Res.bind _ _ = _; rw [b1]; rfl, fun hs => hk.1 fun _ => hs, fun hn => hk.2 fun _ => hn⟩

/-- **C123**, `IGAComputeJacobian`, at every vector. -/
theorem C123_jacobian (S : Setup g2 g3 false size procs axes axs Ls) (hE : Elements axs dof elt)
    (cb : P → List ℝ → (Int → ℝ) → Res (Int → ℝ)) (k : P → List ℝ → Int → ℝ)
    (hK : ∀ U, Fills (unknowns axs dof * unknowns axs dof) (fun p => cb p U) (fun p => k p U)) (hist) (pw) (w) (vecU : Int → ℝ) (junk) :
    ∃ A, computeJacobian Ls hist dof ⟨elt, pw, w⟩ cb vecU junk = .ok A ∧
      Keeps axs dof elt (∀ p U, SymArray (unknowns axs dof) (k p U)) (∀ p U, NonnegArray (unknowns axs dof) (k p U)) A := by
  obtain ⟨A, h1, h2⟩ := mat_global S hist dof vecU junk _ (represents_any vecU) (fun r e U => entries (jacobian (elt e) cb U (pw r e) (w r e))) _
    fun r e he => element_mat hE he (C77_jacobian (elt e) (hE e he).1 cb k (by rw [hE.m_eq he, hE.n_eq he]; exact hK) _ _ _)
  have hk := keeps_jacobian S hE _ A h2
  exact ⟨A, h1, fun hs => hk.1 fun _ p => hs p _, fun hn => hk.2 fun _ p => hn p _⟩

/-- **C123**, `IGAComputeRHSJacobian`. -/
theorem C123_rhsjacobian (S : Setup g2 g3 false size procs axes axs Ls) (hE : Elements axs dof elt)
    (cb : P → ℝ → List ℝ → (Int → ℝ) → Res (Int → ℝ)) (k : P → ℝ → List ℝ → Int → ℝ)
    (hK : ∀ t U, Fills (unknowns axs dof * unknowns axs dof) (fun p => cb p t U) (fun p => k p t U)) (hist) (pw) (w) (t : ℝ) (vecU : Int → ℝ) (junk) :
    ∃ A, computeRHSJacobian Ls hist dof ⟨elt, pw, w⟩ cb t vecU junk = .ok A ∧
      Keeps axs dof elt (∀ p U, SymArray (unknowns axs dof) (k p t U)) (∀ p U, NonnegArray (unknowns axs dof) (k p t U)) A := by
  obtain ⟨A, h1, h2⟩ := mat_global S hist dof vecU junk _ (represents_any vecU) (fun r e U => entries (rhsjacobian (elt e) cb t U (pw r e) (w r e))) _
    fun r e he => element_mat hE he (C77_rhsjacobian (elt e) (hE e he).1 cb k (by rw [hE.m_eq he, hE.n_eq he]; exact hK) _ _ _ _)
  have hk := keeps_jacobian S hE _ A h2
  exact ⟨A, h1, fun hs => hk.1 fun _ p => hs p _, fun hn => hk.2 fun _ p => hn p _⟩

/-- **C123**, `IGAComputeIJacobian`. -/
theorem C123_ijacobian (S : Setup g2 g3 false size procs axes axs Ls) (hE : Elements axs dof elt)
    (cb : P → ℝ → List ℝ → ℝ → List ℝ → (Int → ℝ) → Res (Int → ℝ)) (k : P → ℝ → List ℝ → ℝ → List ℝ → Int → ℝ)
    (hK : ∀ a X t U, Fills (unknowns axs dof * unknowns axs dof) (fun p => cb p a X t U) (fun p => k p a X t U)) (hist) (pw) (w) (a t : ℝ)
    (vecV vecU : Int → ℝ) (junkV junkU) :
    ∃ A, computeIJacobian Ls hist dof ⟨elt, pw, w⟩ cb a vecV t vecU junkV junkU = .ok A ∧
      Keeps axs dof elt (∀ p X U, SymArray (unknowns axs dof) (k p a X t U)) (∀ p X U, NonnegArray (unknowns axs dof) (k p a X t U)) A := by
  obtain ⟨A, h1, h2⟩ := mat_global S hist dof (pair vecV vecU) (pair junkV junkU) _ (represents_pair (represents_any vecV) (represents_any vecU))
    (fun r e X => entries (ijacobian (elt e) cb a (X.map Prod.fst) t (X.map Prod.snd) (pw r e) (w r e)))
    (fun e => jacobianAt (elt e) fun p => k p a (withoutRates (elt e) (valuesOf false axs dof (fun z c => vecV (Blk.unknown Ls axs dof z c)) e)) t
      (withValues (elt e) (valuesOf false axs dof (fun z c => vecU (Blk.unknown Ls axs dof z c)) e)))
    fun r e he => by
      simp only [valuesOf_map]
      exact element_mat hE he (C77_ijacobian (elt e) (hE e he).1 cb k (by rw [hE.m_eq he, hE.n_eq he]; exact hK) _ _ _ _ _ _)
  have hk := keeps_jacobian S hE _ A h2
  exact ⟨A, h1, fun hs => hk.1 fun _ p => hs p _ _, fun hn => hk.2 fun _ p => hn p _ _⟩

/-- **C123**, `IGAComputeIEJacobian`. -/
theorem C123_iejacobian (S : Setup g2 g3 false size procs axes axs Ls) (hE : Elements axs dof elt)
    (cb : P → ℝ → List ℝ → ℝ → List ℝ → ℝ → List ℝ → (Int → ℝ) → Res (Int → ℝ)) (k : P → ℝ → List ℝ → ℝ → List ℝ → ℝ → List ℝ → Int → ℝ)
    (hK : ∀ a X t U t0 U0, Fills (unknowns axs dof * unknowns axs dof) (fun p => cb p a X t U t0 U0) (fun p => k p a X t U t0 U0)) (hist) (pw) (w)
    (a t t0 : ℝ) (vecV vecU vecU0 : Int → ℝ) (junkV junkU junkU0) :
    ∃ A, computeIEJacobian Ls hist dof ⟨elt, pw, w⟩ cb a vecV t vecU t0 vecU0 junkV junkU junkU0 = .ok A ∧
      Keeps axs dof elt (∀ p X U U0, SymArray (unknowns axs dof) (k p a X t U t0 U0)) (∀ p X U U0, NonnegArray (unknowns axs dof) (k p a X t U t0 U0)) A := by
  obtain ⟨A, h1, h2⟩ := mat_global S hist dof (triple vecV vecU vecU0) (triple junkV junkU junkU0) _
    (represents_pair (represents_any vecV) (represents_pair (represents_any vecU) (represents_any vecU0)))
    (fun r e X => entries (iejacobian (elt e) cb a (X.map Prod.fst) t (X.map fun x => x.2.1) t0 (X.map fun x => x.2.2) (pw r e) (w r e)))
    (fun e => jacobianAt (elt e) fun p => k p a (withoutRates (elt e) (valuesOf false axs dof (fun z c => vecV (Blk.unknown Ls axs dof z c)) e)) t
      (withValues (elt e) (valuesOf false axs dof (fun z c => vecU (Blk.unknown Ls axs dof z c)) e)) t0
      (withValues (elt e) (valuesOf false axs dof (fun z c => vecU0 (Blk.unknown Ls axs dof z c)) e)))
    fun r e he => by
      simp only [valuesOf_map]
      exact element_mat hE he (C77_iejacobian (elt e) (hE e he).1 cb k (by rw [hE.m_eq he, hE.n_eq he]; exact hK) _ _ _ _ _ _ _ _)
  have hk := keeps_jacobian S hE _ A h2
  exact ⟨A, h1, fun hs => hk.1 fun _ p => hs p _ _ _, fun hn => hk.2 fun _ p => hn p _ _ _⟩

/-- **C123**, `IGAComputeI2Jacobian`. -/
theorem C123_i2jacobian (S : Setup g2 g3 false size procs axes axs Ls) (hE : Elements axs dof elt)
    (cb : P → ℝ → List ℝ → ℝ → List ℝ → ℝ → List ℝ → (Int → ℝ) → Res (Int → ℝ)) (k : P → ℝ → List ℝ → ℝ → List ℝ → ℝ → List ℝ → Int → ℝ)
    (hK : ∀ a X b Y t U, Fills (unknowns axs dof * unknowns axs dof) (fun p => cb p a X b Y t U) (fun p => k p a X b Y t U)) (hist) (pw) (w)
    (a b t : ℝ) (vecA vecV vecU : Int → ℝ) (junkA junkV junkU) :
    ∃ A, computeI2Jacobian Ls hist dof ⟨elt, pw, w⟩ cb a vecA b vecV t vecU junkA junkV junkU = .ok A ∧
      Keeps axs dof elt (∀ p X Y U, SymArray (unknowns axs dof) (k p a X b Y t U)) (∀ p X Y U, NonnegArray (unknowns axs dof) (k p a X b Y t U)) A := by
  obtain ⟨A, h1, h2⟩ := mat_global S hist dof (triple vecA vecV vecU) (triple junkA junkV junkU) _
    (represents_pair (represents_any vecA) (represents_pair (represents_any vecV) (represents_any vecU)))
    (fun r e X => entries (i2jacobian (elt e) cb a (X.map Prod.fst) b (X.map fun x => x.2.1) t (X.map fun x => x.2.2) (pw r e) (w r e)))
    (fun e => jacobianAt (elt e) fun p => k p a (withoutRates (elt e) (valuesOf false axs dof (fun z c => vecA (Blk.unknown Ls axs dof z c)) e)) b
      (withoutRates (elt e) (valuesOf false axs dof (fun z c => vecV (Blk.unknown Ls axs dof z c)) e)) t
      (withValues (elt e) (valuesOf false axs dof (fun z c => vecU (Blk.unknown Ls axs dof z c)) e)))
    fun r e he => by
      simp only [valuesOf_map]
      exact element_mat hE he (C77_i2jacobian (elt e) (hE e he).1 cb k (by rw [hE.m_eq he, hE.n_eq he]; exact hK) _ _ _ _ _ _ _ _)
  have hk := keeps_jacobian S hE _ A h2
  exact ⟨A, h1, fun hs => hk.1 fun _ p => hs p _ _ _, fun hn => hk.2 fun _ p => hn p _ _ _⟩

/-- Elements with a constrained unknown and integrals over sides, four processes: the hypotheses hold for the full matrix of ones. -/
example (hist : Nat → Hist) (pw : Nat → List Int → PWork ℝ) (w : Nat → List Int → Work ℝ) : ∃ (Ls : List (Layout Rat)) (A : Int × Int → ℝ) (b : Int → ℝ),
    computeSystem Ls hist 1 ⟨exElts, pw, w⟩ (fun _ K F => .ok (fun i => K i + 1, fun i => F i + 1)) = .ok (A, b) ∧
    SymMat (total exAxs 1) A ∧ NonnegMat (total exAxs 1) A := by
  obtain ⟨Ls, S⟩ := exSetup exactGuess2 exactGuess3
  obtain ⟨A, b, h, h1, h2⟩ := C123_system S exElts_elements (fun _ K F => .ok (fun i => K i + 1, fun i => F i + 1)) (fun _ _ => 1) (fun _ _ => 1)
    (fun p A B hA hB => ⟨_, _, rfl, fun i h0 h1 => by rw [hA i h0 h1, zero_add], fun i h0 h1 => by rw [hB i h0 h1, zero_add]⟩) hist pw w
  refine ⟨Ls, A, b, h, h1 fun _ i j _ _ => rfl, h2 (fun _ x => ?_) fun e _ side q hq => ?_⟩
  · simp only [one_mul]
    rw [List.sum_map_mul_right]
    exact mul_self_nonneg _
  · simp only [exElts, List.mem_singleton] at hq
    subst hq
    norm_num

end PetIGA.Sym
