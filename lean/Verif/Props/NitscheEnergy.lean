import Verif.Props.DemoNitsche
/-
C124: the quadratic form of the matrix of demo/NitscheMethod.c, and a degree for which the matrix is not positive definite.
-/
set_option linter.unusedSectionVars false
namespace PetIGA.Demo
open PetIGA.Quad PetIGA.Drv PetIGA.Spec PetIGA.Ax PetIGA.Lay PetIGA.Asm PetIGA.Rule PetIGA.Grid PetIGA.Part PetIGA.Ker PetIGA.PCA PetIGA.Itg
open Polynomial

variable {g2 : Guess2} {g3 : Guess3} {size : Int} {procs : List Int} {axes axs : List (Axis ℝ)} {Ls : List (Layout ℝ)}

/-- The energy density of the program's form at a point of the element `e`, for the field with the values `v` at the nodes: `|∇v|²` inside,
`α v² - 2 v ∂v/∂n` on a side. -/
noncomputable def density (axs : List (Axis ℝ)) {d : Nat} (degree : Int) (G : BPt d (nenOf axs) → Fin d → Fin d → ℝ) (v : List Int → Nat → ℝ)
    (e : List Int) (p : BPt d (nenOf axs)) : ℝ :=
  if p.1 then
    penalty degree G p * combine axs e p.2.shape.t0 v 0 ^ 2 -
      2 * combine axs e p.2.shape.t0 v 0 * ∑ i, combine axs e (p.2.shape.t1 i) v 0 * p.2.arrays.normal i
  else ∑ i, combine axs e (p.2.shape.t1 i) v 0 ^ 2

theorem density_eq (axs : List (Axis ℝ)) {d : Nat} (degree : Int) (G : BPt d (nenOf axs) → Fin d → Fin d → ℝ) (v : List Int → Nat → ℝ)
    (e : List Int) (p : BPt d (nenOf axs)) :
    ∑ a : Fin (nenOf axs), ∑ b : Fin (nenOf axs), loc axs v e a *
        (if p.1 then sideMat (penalty degree G p) p.2 else fun a b => ∑ i, p.2.shape.t1 i a * p.2.shape.t1 i b) a b * loc axs v e b =
      density axs degree G v e p := by
  unfold density
  split
  · have h := side_integrand axs e p.2 v v (penalty degree G p) 0
    simp only [sideVec, mul_zero, add_zero, Finset.sum_const_zero, sub_zero] at h
    rw [h]; ring
  · have h := inner_integrand axs e p.2 v v 0
    simp only [mul_zero, Finset.sum_const_zero, sub_zero] at h
    rw [h]
    exact Finset.sum_congr rfl fun i _ => by ring

theorem range_sum {n : Nat} (f : Nat → ℝ) : ((List.range n).map f).sum = ∑ a : Fin n, f a := by
  rw [← Finset.sum_range (f := f), Finset.sum_eq_multiset_sum]
  rfl

/-- The form of an element without fixed unknowns. -/
theorem element_energy {P : Type} (E : Elt ℝ P) (κ : P → Fin (nenOf axs) → Fin (nenOf axs) → ℝ) (hn : E.n = unknowns axs 1)
    (hfree : ∀ i : Nat, i < unknowns axs 1 → tableGet E.fixes.fix i = none) (v : List Int → Nat → ℝ) (e : List Int) :
    elemForm (unknowns axs 1) (jacobianAt E fun p => rowMajor (κ p)) (valuesOf false axs 1 v e) (valuesOf false axs 1 v e) =
      integral E fun p => ∑ a : Fin (nenOf axs), ∑ b : Fin (nenOf axs), loc axs v e a * κ p a b * loc axs v e b := by
  have h1 : elemForm (unknowns axs 1) (jacobianAt E fun p => rowMajor (κ p)) (valuesOf false axs 1 v e) (valuesOf false axs 1 v e) =
      elemForm (unknowns axs 1) (fun i j => integral E fun p => rowMajor (κ p) (i * unknowns axs 1 + j)) (valuesOf false axs 1 v e) (valuesOf false axs 1 v e) := by
    unfold elemForm
    congr 1
    refine List.map_congr_left fun i hi => ?_
    congr 2
    refine List.map_congr_left fun j hj => ?_
    congr 1
    unfold jacobianAt
    rw [hfree i (List.mem_range.1 hi), hfree j (List.mem_range.1 hj), hn]
    simp
  rw [h1, Sym.elemForm_integral]
  refine Sym.integral_congr _ fun p => ?_
  rw [unknowns_one, range_sum]
  refine Finset.sum_congr rfl fun a _ => ?_
  rw [range_sum, Finset.mul_sum]
  refine Finset.sum_congr rfl fun b _ => ?_
  have := rowMajor_at (κ p) a b
  push_cast at this
  rw [this]
  unfold loc
  ring

/-- **C124**, the energy: with any number of processes, with or without a geometry, any knots and degrees, the quadratic form of the assembled
matrix is `Σ ∫ |∇v|² + Σ ∫_side (α v² - 2 v ∂v/∂n)` – the sums over the points of the elements and of their visited sides – of the field `v` with
the given coefficients. -/
theorem C124_energy (S : Setup g2 g3 false size procs axes axs Ls) {d dim : Nat} {elt : List Int → Elt ℝ (BPt d (nenOf axs))}
    (hB : ∀ e, InBox (axs.map Axis.nel) e → Built axs (nitscheConditions dim) 1 none e (elt e))
    (geometry : Bool) (degree : Int) (G : BPt d (nenOf axs) → Fin d → Fin d → ℝ) (hist) (pw) (w) :
    ∃ A b, computeSystem Ls hist 1 ⟨elt, pw, w⟩ (nitsche geometry degree G) = .ok (A, b) ∧ ∀ x : Int → ℝ,
      ∑ i ∈ Finset.range (total axs 1), ∑ j ∈ Finset.range (total axs 1), x i * A ((i:Int), (j:Int)) * x j =
        ((indices (axs.map Axis.nel)).map fun e =>
          integral (elt e) (density axs degree G (fun z i => x (Blk.unknown Ls axs 1 z i)) e)).sum := by
  have hwf := Prb.setup_wf S
  have hE := built_elements hwf hB
  have hK := nitsche_fills (unknowns_one axs) geometry degree G
  have hu : Represents axs Ls 1 (fun _ : Int => ()) (fun _ _ => ()) := fun _ _ _ _ => rfl
  obtain ⟨A, a1, a2⟩ := mat_global S hist 1 (fun _ => ()) (fun _ => ()) _ hu
    (fun r e _ => entries ((system (elt e) (nitsche geometry degree G) (pw r e) (w r e)).bind fun s => .ok s.1)) (fun e => jacobianAt (elt e) _) fun r' e he => by
      obtain ⟨A, B, h1, h2, _⟩ := C77_system (elt e) (hE e he).1 (nitsche geometry degree G) _ _ (by rw [hE.m_eq he, hE.n_eq he]; exact hK) (pw r' e) (w r' e)
      exact element_mat hE he ⟨A, by rw [h1]; rfl, h2⟩
  obtain ⟨b, b1, b2⟩ := vec_global S hist 1 (fun _ => ()) (fun _ => ()) _ hu
    (fun r e _ => entries ((system (elt e) (nitsche geometry degree G) (pw r e) (w r e)).bind fun s => .ok s.2)) (fun e => rhsAt (elt e) _ _) fun r' e he => by
      obtain ⟨A, B, h1, _, h3⟩ := C77_system (elt e) (hE e he).1 (nitsche geometry degree G) _ _ (by rw [hE.m_eq he, hE.n_eq he]; exact hK) (pw r' e) (w r' e)
      rw [h1]
      exact ⟨_, rfl, fun i hi => h3 i (by rw [hE.n_eq he]; exact hi)⟩
  refine ⟨A, b, by unfold computeSystem; rw [a1]; show Res.bind _ _ = _; rw [b1]; rfl, fun x => ?_⟩
  rw [global_form S 1 _ A a2 x x]
  congr 1
  refine List.map_congr_left fun e he => ?_
  have he := (mem_indices _ e).1 he
  rw [element_energy (elt e) _ (hE.n_eq he) (fun i hi => by
    obtain ⟨t, c, ht, hc, rfl⟩ := exists_slot axs hwf hi
    rw [((hB e he).spec hwf he).2 t c ht hc, nitsche_free])]
  exact Sym.integral_congr _ fun p => density_eq axs degree G _ e p

/-! ### Degree 6 -/

/-- Legendre's polynomial of degree 6 on `[0,1]`. -/
noncomputable def legendre6 : ℝ[X] := 924 * X^6 - 2772 * X^5 + 3150 * X^4 - 1680 * X^3 + 420 * X^2 - 42 * X + 1

/-- Its derivative. -/
noncomputable def legendre6' : ℝ[X] := 5544 * X^5 - 13860 * X^4 + 12600 * X^3 - 5040 * X^2 + 840 * X - 42

theorem legendre6_derivative : derivative legendre6 = legendre6' := by
  unfold legendre6 legendre6'
  simp only [derivative_add, derivative_sub, derivative_mul, derivative_X_pow, derivative_X, derivative_one, derivative_ofNat, map_natCast]
  push_cast
  ring

theorem legendre6_degree : legendre6.natDegree ≤ 6 := by
  unfold legendre6
  compute_degree

theorem legendre6'_degree : (legendre6' ^ 2).natDegree ≤ 12 := by
  refine le_trans natDegree_pow_le ?_
  have : legendre6'.natDegree ≤ 5 := by
    unfold legendre6'
    compute_degree
  omega

/-- An antiderivative of its square. -/
noncomputable def legendre6i : ℝ[X] := 2794176 * X^11 - 15367968 * X^10 + 36867600 * X^9 - 50644440 * X^8 + 43968960 * X^7 - 25126416 * X^6 +
  9546768 * X^5 - 2381400 * X^4 + 376320 * X^3 - 35280 * X^2 + 1764 * X

theorem legendre6i_derivative : derivative legendre6i = legendre6' ^ 2 := by
  unfold legendre6i legendre6'
  simp only [derivative_add, derivative_sub, derivative_mul, derivative_X_pow, derivative_X, derivative_ofNat, map_natCast]
  push_cast
  ring

theorem legendre6_integral : ∫ x in (0:ℝ)..1, (legendre6' ^ 2).eval x = 84 := by
  rw [← legendre6i_derivative, intervalIntegral.integral_eq_sub_of_hasDerivAt (fun x _ => legendre6i.hasDerivAt x)
    ((derivative legendre6i).continuous.intervalIntegrable _ _)]
  simp [legendre6i]
  norm_num

theorem two_sum (f : Nat → ℝ) : ((List.range 2).map f).sum = f 0 + f 1 := by simp [List.range_succ]

theorem sum_one {n : Nat} (h : n = 1) (f : Fin n → ℝ) : ∑ i, f i = f ⟨0, by omega⟩ := by subst h; simp

section
variable {δ : Direction Line}

/-- The integral over the only element of the density of Legendre's polynomial. -/
theorem legendre_energy (S : Setup g2 g3 false size procs axes ([δ].map Direction.ax) Ls) (hT : δ.Tabulated) (hs : IsSpline δ)
    (hper : δ.ax.periodic = false) (hp : δ.ax.p = 6) (hn : δ.ax.nel = 1) (hdom : domain δ.ax = (0, 1)) (hcell : cell δ.ax 0 = (0, 1))
    (hx : ExactRule 12 δ.X δ.W)
    {c : List Int → PtIn [δ].length [δ].length (Fin (nenOf ([δ].map Direction.ax)))} (hc : ∀ e, FirstOrder (c e)) (hgeo : ∀ e, (c e).geometry = none)
    {elt : List Int → Elt ℝ (BPt [δ].length (nenOf ([δ].map Direction.ax)))} (hE : WithSides [δ] (nitscheConditions 1) c elt)
    (G : BPt [δ].length (nenOf ([δ].map Direction.ax)) → Fin [δ].length → Fin [δ].length → ℝ) (hG : ∀ p i j, G p i j = 2) :
    integral (elt [0]) (density ([δ].map Direction.ax) 6 G (fun z _ => polyField ([δ].map Direction.ax) [[legendre6]] z) [0]) = -14 := by
  obtain ⟨h1, h3, hw⟩ := setup_facts S
  have hw' : ∀ ax ∈ [δ].map Direction.ax, WF ax ∧ ax.periodic = false := by
    intro ax hax
    obtain rfl : ax = δ.ax := by simpa using hax
    exact ⟨hw δ (by simp), hper⟩
  have hdeg : ∀ P ∈ [[legendre6]], List.Forall₂ (fun p d => p.natDegree ≤ d) P (([δ].map Direction.ax).map fun ax => ax.p.toNat) := by
    intro P hP
    obtain rfl : P = [legendre6] := by simpa using hP
    refine .cons ?_ .nil
    show legendre6.natDegree ≤ δ.ax.p.toNat
    rw [hp]
    exact legendre6_degree
  have he : InBox ([δ].map fun δ => δ.ax.nel) [0] := .cons ⟨le_refl _, by show 0 < δ.ax.nel; omega⟩ .nil
  have hb : InBox (([δ].map Direction.ax).map Axis.nel) [0] := he
  have hT' : ∀ δ' ∈ [δ], δ'.Tabulated := by
    intro δ' h
    obtain rfl : δ' = δ := by simpa using h
    exact hT
  have hs' : ∀ δ' ∈ [δ], IsSpline δ' := by
    intro δ' h
    obtain rfl : δ' = δ := by simpa using h
    exact hs
  obtain ⟨i1, i2⟩ := hE.id _ he
  obtain ⟨mem, qs, q1, q2⟩ := hE.inner _ he
  -- the values
  have der : ∀ (x : ℝ) (i : Fin [δ].length), (([[legendre6]] : List (List ℝ[X])).map fun P => evalProd (derivs P (unitOrder i)) [x]).sum = legendre6'.eval x := by
    intro x i
    obtain rfl : i = ⟨0, by simp⟩ := Fin.ext (Nat.lt_one_iff.1 i.isLt)
    rw [← legendre6_derivative]
    simp [derivs, unitOrder, evalProd, List.finRange_succ]
  have inside : pointSum ((elt [0]).points none) (density ([δ].map Direction.ax) 6 G (fun z _ => polyField ([δ].map Direction.ax) [[legendre6]] z) [0]) = 84 := by
    rw [q2, pointSum_tag]
    have : ∀ q ∈ qs, density ([δ].map Direction.ax) 6 G (fun z _ => polyField ([δ].map Direction.ax) [[legendre6]] z) [0] (false, q.data) * (q.detJac * q.weight) =
        evalProd [legendre6' ^ 2] q.data.u * (q.detJac * q.weight) := by
      intro q hq
      obtain ⟨f1, f2⟩ := inner_facts S hT' hs' (hc _) (hgeo _) he q1 q hq
      have r := reproduces_of hw' hb f1 f2 _ hdeg
      obtain ⟨x, hx⟩ : ∃ x, q.data.u = [x] := List.length_eq_one_iff.1 f1
      unfold density
      simp only [Bool.false_eq_true, if_false]
      rw [sum_one (n := [δ].length) rfl, r.deriv, hx, der]
      simp [evalProd]
    rw [List.map_congr_left this, element_sum h1 h3 hT' hs' hw (c _) (hgeo _) he q1 (evalProd [legendre6' ^ 2]),
      element_exact (degs := [12]) (.cons hx .nil) (.cons legendre6'_degree .nil) rfl]
    simp only [intProd, cellBox, List.map_cons, List.map_nil, List.zipWith_cons_cons, List.zipWith_nil_right, List.prod_cons, List.prod_nil, mul_one, hcell]
    exact legendre6_integral
  have side : ∀ s : Bool, OnSide (elt [0]) (if s then 1 else 0) ∧
      pointSum ((elt [0]).points (some (((if s then 1 else 0 : Nat)) : Int))) (density ([δ].map Direction.ax) 6 G (fun z _ => polyField ([δ].map Direction.ax) [[legendre6]] z) [0]) = -49 := by
    intro s
    have hse : ([0] : List Int)[((⟨0, by simp⟩ : Fin [δ].length) : Nat)]? = some (sideElem ([δ][(⟨0, by simp⟩ : Fin [δ].length)]).ax s) := by
      unfold sideElem
      cases s <;> simp [hn]
    refine ⟨?_, ?_⟩
    · unfold OnSide
      rw [i1, i2, hE.visit _ he]
      have hv := nitsche_visit 1 (by omega) 0 s
      cases s <;> simp_all
    · obtain ⟨m, qb, b1, b2⟩ := hE.sides _ he ⟨0, by simp⟩ s hse
      have ho : onSide δ.ax 0 s [] = [0] := by unfold onSide sideElem; cases s <;> simp [hn]
      have b2' : (elt [0]).points (some (((if s then 1 else 0 : Nat)) : Int)) = qb.map (tag true) := by
        rw [← b2]; congr 2; cases s <;> simp
      rw [b2', pointSum_tag]
      have b1' : tabulateFace (c [0]) ([δ].map Direction.B) ([δ].map fun d => endPoints d.ax)
          (onSide ([δ][(⟨0, by simp⟩ : Fin [δ].length)]).ax ((⟨0, by simp⟩ : Fin [δ].length) : Nat) s []) ⟨0, by simp⟩ s m = .ok qb := by
        show tabulateFace (c [0]) _ _ (onSide δ.ax 0 s []) _ s m = .ok qb
        rw [ho]; exact b1
      have fs := face_sum h1 h3 hT' hs' hw ⟨0, by simp⟩ s (setup_open S δ (by simp)) (c [0]) (hgeo _) (e := []) .nil b1'
        fun u n => 5 * ((6:Int) + 1) / normalMeshSize (fun _ _ => 2) n * evalProd [legendre6] u ^ 2 -
          2 * evalProd [legendre6] u * (evalProd [legendre6'] u * n ⟨0, by simp⟩)
      have : ∀ q ∈ qb, density ([δ].map Direction.ax) 6 G (fun z _ => polyField ([δ].map Direction.ax) [[legendre6]] z) [0] (true, q.data) * (q.detJac * q.weight) =
          (5 * ((6:Int) + 1) / normalMeshSize (fun _ _ => 2) q.data.arrays.normal * evalProd [legendre6] q.data.u ^ 2 -
          2 * evalProd [legendre6] q.data.u * (evalProd [legendre6'] q.data.u * q.data.arrays.normal ⟨0, by simp⟩)) * (q.detJac * q.weight) := by
        intro q hq
        obtain ⟨f1, f2⟩ := face_facts S hT' hs' (hc _) (hgeo _) he ⟨0, by simp⟩ s hse b1 q hq
        have r := reproduces_of hw' hb f1 f2 _ hdeg
        obtain ⟨x, hx⟩ : ∃ x, q.data.u = [x] := List.length_eq_one_iff.1 f1
        have hG' : G (true, q.data) = fun _ _ => 2 := by funext i j; exact hG _ _ _
        unfold density penalty
        simp only [if_true]
        rw [sum_one (n := [δ].length) rfl, r.deriv, r.value, hx, der, hG']
        simp [evalProd]
      rw [List.map_congr_left this, fs]
      have hend : sideEnd δ.ax s = if s then 1 else 0 := by unfold sideEnd; rw [hdom]
      have hmesh : normalMeshSize (d := [δ].length) (fun _ _ => 2) (flatNormal ⟨0, Nat.one_pos⟩ (if s then 1 else 0)) = 1 := by
        have h4 : Real.sqrt 4 = 2 := by rw [show (4:ℝ) = 2 ^ 2 by norm_num]; exact Real.sqrt_sq (by norm_num)
        have hd : ∀ a b : Fin [δ].length → ℝ, dot a b = a ⟨0, by simp⟩ * b ⟨0, by simp⟩ := by
          intro a b
          show (List.finRange 1).foldl (fun s (i : Fin 1) => s + a i * b i) 0 = _
          simp [List.finRange_succ]
        unfold normalMeshSize
        simp only [hd]
        cases s <;> norm_num [flatNormal, h4]
      rw [show tensorPoints (lines ([δ].eraseIdx ((⟨0, by simp⟩ : Fin [δ].length) : Nat)) []) = [[]] from rfl]
      simp only [List.map_cons, List.map_nil, List.insertIdx_zero, List.prod_nil, List.sum_cons, List.sum_nil]
      rw [hmesh]
      show (5 * (((6:Int):ℝ) + 1) / 1 * evalProd [legendre6] [sideEnd δ.ax s] ^ 2 - 2 * evalProd [legendre6] [sideEnd δ.ax s] *
        (evalProd [legendre6'] [sideEnd δ.ax s] * (if (0:Nat) = 0 then (if (if s then (1:Int) else 0) ≠ 0 then (1:ℝ) else -1) else 0))) * (1 * 1) + 0 = -49
      rw [hend]
      cases s <;> simp [evalProd, legendre6, legendre6'] <;> norm_num
  unfold integral
  rw [inside, i1]
  have s0 := side false
  have s1 := side true
  simp only [Bool.false_eq_true, if_false, if_true] at s0 s1
  rw [show 2 * ([0] : List Int).length = 2 from rfl, two_sum, if_pos s0.1, if_pos s1.1, s0.2, s1.2]
  norm_num

/-- **C124**, the matrix is not positive definite although `main` declares it to be (`MatSetOption(A,MAT_SPD,PETSC_TRUE)`): one element of degree 6 on
`[0,1]`, no geometry, a rule exact for twice the degree.  The coefficients of Legendre's polynomial give the quadratic form the value `-14`. -/
theorem C124_indefinite (S : Setup g2 g3 false size procs axes ([δ].map Direction.ax) Ls) (hT : δ.Tabulated) (hs : IsSpline δ)
    (hper : δ.ax.periodic = false) (hp : δ.ax.p = 6) (hn : δ.ax.nel = 1) (hdom : domain δ.ax = (0, 1)) (hx : ExactRule 12 δ.X δ.W)
    {c : List Int → PtIn [δ].length [δ].length (Fin (nenOf ([δ].map Direction.ax)))} (hc : ∀ e, FirstOrder (c e)) (hgeo : ∀ e, (c e).geometry = none)
    {elt : List Int → Elt ℝ (BPt [δ].length (nenOf ([δ].map Direction.ax)))} (hE : WithSides [δ] (nitscheConditions 1) c elt)
    (o : PtOut [δ].length [δ].length (Fin (nenOf ([δ].map Direction.ax)))) (m : Nat → ℝ) (hist) (pw) (w) :
    ∃ A b, computeSystem Ls hist 1 ⟨elt, pw, w⟩ (nitsche false (maxDegree ([δ].map Direction.ax)) fun _ i j =>
        pointInvGradGeomMap (c [0]) o (fun _ => ((cell δ.ax 0).2 - (cell δ.ax 0).1) / 2) m ((i:Nat) * 1 + (j:Nat))) = .ok (A, b) ∧
      ∃ x : Int → ℝ, ∑ i ∈ Finset.range (total ([δ].map Direction.ax) 1), ∑ j ∈ Finset.range (total ([δ].map Direction.ax) 1),
        x i * A ((i:Int), (j:Int)) * x j = -14 := by
  have hwδ := (setup_facts S).2.2 δ (by simp)
  have hop := setup_open S δ (by simp)
  have hcell : cell δ.ax 0 = (0, 1) := by
    obtain ⟨a1, -⟩ := sideElem_sp hwδ hop false
    obtain ⟨a2, -⟩ := sideElem_sp hwδ hop true
    simp only [sideElem, Bool.false_eq_true, if_false, if_true, hn, sub_self] at a1 a2
    have e : δ.ax.p + 1 = δ.ax.m - δ.ax.p := by omega
    rw [← hdom]
    unfold cell domain
    rw [a1, e]
  have hdegree : maxDegree ([δ].map Direction.ax) = 6 := by simp [maxDegree, hp]
  rw [hdegree]
  have hG : ∀ (p : BPt [δ].length (nenOf ([δ].map Direction.ax))) (i j : Fin [δ].length),
      (fun (_ : BPt [δ].length (nenOf ([δ].map Direction.ax))) (i j : Fin [δ].length) =>
        pointInvGradGeomMap (c [0]) o (fun _ => ((cell δ.ax 0).2 - (cell δ.ax 0).1) / 2) m ((i:Nat) * 1 + (j:Nat))) p i j = 2 := by
    intro p i j
    have hi : (i:Nat) = 0 := Nat.lt_one_iff.1 i.isLt
    have hj : (j:Nat) = 0 := Nat.lt_one_iff.1 j.isLt
    beta_reduce
    rw [hi, hj, hcell]
    unfold pointInvGradGeomMap
    rw [hgeo]
    norm_num
  obtain ⟨A, b, hA, hform⟩ := C124_energy S (dim := 1) hE.built false 6 (fun _ i j =>
    pointInvGradGeomMap (c [0]) o (fun _ => ((cell δ.ax 0).2 - (cell δ.ax 0).1) / 2) m ((i:Nat) * 1 + (j:Nat))) hist pw w
  obtain ⟨x, hx'⟩ := represents_exists S 1 fun z _ => polyField ([δ].map Direction.ax) [[legendre6]] z
  refine ⟨A, b, hA, x, ?_⟩
  have he : InBox (([δ].map Direction.ax).map Axis.nel) [0] := .cons ⟨le_refl _, by show 0 < δ.ax.nel; omega⟩ .nil
  have comb : ∀ g : Fin (nenOf ([δ].map Direction.ax)) → ℝ,
      combine ([δ].map Direction.ax) [0] g (fun z i => x (Blk.unknown Ls ([δ].map Direction.ax) 1 z i)) 0 =
        combine ([δ].map Direction.ax) [0] g (fun z _ => polyField ([δ].map Direction.ax) [[legendre6]] z) 0 := by
    intro g
    unfold combine
    congr 1; refine List.map_congr_left fun t ht => ?_
    beta_reduce
    exact congrArg (· * _) (hx' _ 0 (nodeOf_inBox S he ht) (by omega))
  rw [hform x, show indices (([δ].map Direction.ax).map Axis.nel) = [[0]] by simp [indices, hn]]
  rw [List.map_cons, List.map_nil, List.sum_cons, List.sum_nil, add_zero]
  refine Eq.trans ?_ (legendre_energy S hT hs hper hp hn hdom hcell hx hc hgeo hE _ hG)
  refine Sym.integral_congr _ fun p => ?_
  unfold density
  simp only [comb]

end

/-! ### A concrete case -/

/-- Knots 0 and 1, seven times each. -/
noncomputable def sixU : Int → ℝ := fun i => if i ≤ 6 then 0 else 1

theorem sixU_legal : LegalKnots 6 13 sixU := by
  refine ⟨by omega, by omega, ?_, ?_⟩
  · intro i h0 h1
    interval_cases i <;> norm_num [sixU]
  · intro i h0 h1
    have : i < 7 := by omega
    interval_cases i <;> norm_num [sixU]

theorem sixU_spans : computeSpans 6 13 sixU = [6] := by
  obtain ⟨h1, h2⟩ := computeSpans_spec sixU_legal.sorted (by omega : (1:Int) ≤ 6) (by omega)
  refine pairwise_ext h2 (by decide) fun i => ?_
  rw [h1]
  unfold IsElement
  constructor
  · rintro ⟨a, b, _⟩
    simp; omega
  · intro h
    simp at h
    subst h; norm_num [sixU]

/-- One element of degree 6. -/
noncomputable def sixAx : Axis ℝ := knotAxis false 6 13 sixU

theorem sixAx_nel : sixAx.nel = 1 := by
  show ((computeSpans 6 13 sixU).length : Int) = 1
  rw [sixU_spans]; rfl

theorem sixSetup (g2 : Guess2) (g3 : Guess3) : ∃ Ls, Setup g2 g3 false 1 [1] [sixAx] [sixAx] Ls := by
  refine knot_setup g2 g3 1 [1] [sixAx] ?_ (by simp) ?_ rfl (by omega)
  · intro ax hax
    simp only [List.mem_cons, List.not_mem_nil, or_false] at hax
    subst hax
    exact ⟨false, 6, 13, sixU, rfl, sixU_legal, by norm_num [sixU], by norm_num [sixU]⟩
  · have : gridSize false sixAx = 1 := by simp [gridSize, sixAx_nel]
    simp only [List.map_cons, List.map_nil, this]
    exact .cons (by omega) .nil

/-- A rule with 13 points and positive weights, exact for degree 12. -/
noncomputable def sixX : List ℝ := [-1, -(19/20), -(17/20), -(7/10), -(1/2), -(1/4), 0, 1/4, 1/2, 7/10, 17/20, 19/20, 1]
noncomputable def sixW : List ℝ := [271988257/17900982099, 15839203000000/206473655715327, 189060530000000/1508685132313359, 6134160437500/35445172689927, 13768970276/59994669735, 12445083584/48041708715, 6200397948/25586165605, 12445083584/48041708715, 13768970276/59994669735, 6134160437500/35445172689927, 189060530000000/1508685132313359, 15839203000000/206473655715327, 271988257/17900982099]

theorem six_exact : ExactRule 12 sixX sixW := by
  refine exactRule_of_moments 12 _ _ fun k hk => ?_
  interval_cases k <;> norm_num [quadSum, moment, sixX, sixW]

/-- The tables of the direction. -/
noncomputable def sixDir (J : Bsp.Junk ℝ) : Direction Line :=
  let cb := fun (k : Int) (u : ℝ) => fun t r : Nat => Bsp.basis J k u 6 4 sixU t r
  ⟨sixAx, sixX, sixW, cb, ⟨sixX.length, 7, sixAx.span.map (mkElem cb 6 sixU sixX.length 0 sixX sixW), (cb 6 (sixU 6), cb 6 (sixU 7))⟩⟩

theorem sixDir_tabulated (J) : (sixDir J).Tabulated := by
  have hr : Ready (exRule sixX sixW) sixX sixW := ⟨by simp [exRule, sixX], rfl, rfl, rfl, by simp [exRule, sixX, sixW]⟩
  refine ⟨0, .bspline, exRule sixX sixW, exRule sixX sixW, initQuadrature_std _ _ _ _ sixX sixW hr (by simp [exRule]), hr, by simp [exRule], ?_⟩
  intro w hw
  have hw : w ∈ sixW := hw
  simp only [sixW, List.mem_cons, List.not_mem_nil, or_false] at hw
  rcases hw with rfl | rfl | rfl | rfl | rfl | rfl | rfl | rfl | rfl | rfl | rfl | rfl | rfl <;> norm_num

/-- What the program passes on for a point without geometry: first derivatives, no weights. -/
def plainPt (d n : Nat) : PtIn d d (Fin n) := ⟨1, none, none, none, false, true⟩

open PetIGA.Fix in
/-- The elements of a program without geometry exist. -/
theorem withSides_exists {ds : List (Direction Line)} (S : Setup g2 g3 false size procs axes (ds.map Direction.ax) Ls)
    (hT : ∀ δ ∈ ds, δ.Tabulated) (hs : ∀ δ ∈ ds, IsSpline δ) (ops : List (Form.Op ℝ)) :
    ∃ elt, WithSides ds ops (fun _ => plainPt ds.length (nenOf (ds.map Direction.ax))) elt := by
  obtain ⟨h1, h3, hw⟩ := setup_facts S
  have hwf := Prb.setup_wf S
  let c : PtIn ds.length ds.length (Fin (nenOf (ds.map Direction.ax))) := plainPt ds.length (nenOf (ds.map Direction.ax))
  let m0 : Nat → Tab ℝ ds.length Nat × PtOut ds.length ds.length (Fin (nenOf (ds.map Direction.ax))) := fun _ =>
    (⟨fun _ => 0, fun _ _ => 0, fun _ _ _ => 0, fun _ _ _ _ => 0, fun _ _ _ _ _ => 0⟩,
     ⟨⟨fun _ => 0, fun _ _ => 0, fun _ _ _ => 0, fun _ _ _ _ => 0, fun _ _ _ _ _ => 0⟩,
      ⟨fun _ => 0, fun _ _ => 0, fun _ _ _ => 0, fun _ _ _ _ => 0, fun _ _ _ _ _ => 0⟩, 0,
      ⟨fun _ => 0, fun _ _ => 0, fun _ _ _ => 0, fun _ _ _ _ => 0, fun _ _ _ _ _ => 0⟩,
      ⟨fun _ => 0, fun _ _ => 0, fun _ _ _ => 0, fun _ _ _ _ => 0, fun _ _ _ _ _ => 0⟩, 0, fun _ => 0, 0⟩)
  have htab : ∀ e, InBox (ds.map fun δ => δ.ax.nel) e → ∃ qs, tabulateElement c (ds.map Direction.B) e m0 = .ok qs := fun e he =>
    tabulateElement_ok rfl h1 h3 (fun δ h => hT δ h) (fun δ h => hs δ h) hw c (.inl rfl) he m0
  have hface : ∀ (k : Int) e, ∃ qs, InBox (ds.map fun δ => δ.ax.nel) e → ∀ (a : Fin ds.length) (s : Bool),
      k = ((2 * (a:Nat) + (if s then 1 else 0) : Nat) : Int) → e[(a:Nat)]? = some (sideElem ds[a].ax s) →
      tabulateFace c (ds.map Direction.B) (ds.map fun d => endPoints d.ax) e a s m0 = .ok qs := by
    intro k e
    by_cases h : InBox (ds.map fun δ => δ.ax.nel) e ∧ ∃ (a : Fin ds.length) (s : Bool),
      k = ((2 * (a:Nat) + (if s then 1 else 0) : Nat) : Int) ∧ e[(a:Nat)]? = some (sideElem ds[a].ax s)
    · obtain ⟨he, a, s, hk, hse⟩ := h
      obtain ⟨qs, h, -⟩ := tabulateFace_ok rfl h1 h3 (fun δ h => hT δ h) (fun δ h => hs δ h) hw c (.inl rfl) he m0
        (show ds[(a:Nat)]? = some ds[a] by simp) (setup_open S ds[a] (by simp)) hse
      refine ⟨qs, fun _ a' s' hk' _ => ?_⟩
      have ha : a' = a := Fin.ext (by rw [hk] at hk'; cases s <;> cases s' <;> simp at hk' <;> omega)
      subst ha
      have hs : s' = s := by rw [hk] at hk'; cases s <;> cases s' <;> simp at hk' ⊢
      subst hs
      exact h
    · exact ⟨[], fun he a s hk hse => absurd ⟨he, a, s, hk, hse⟩ h⟩
  choose! qs hqs using htab
  choose qb hqb using hface
  let ctx : List Int → Ctx ℝ := fun e =>
    ⟨elemDirs (ds.map Direction.ax) e, 1, Form.run Form.create ops, none, fun a => a, fun _ _ => 2⟩
  let elt : List Int → Elt ℝ (BPt ds.length (nenOf (ds.map Direction.ax))) := fun e =>
    ⟨0, nenOf (ds.map Direction.ax), nenOf (ds.map Direction.ax), 1, (match build (ctx e) with | .ok s => s | _ => ⟨[], []⟩), e,
      ds.map fun δ => δ.ax.nel, (Form.run Form.create ops).visit,
      fun k => match k with | none => (qs e).map (tag false) | some k => (qb k e).map (tag true)⟩
  have hE : WithSides ds ops (fun _ => c) elt := by
    refine ⟨fun e he => ?_, fun e _ => ⟨rfl, rfl⟩, fun e _ => rfl, fun e he => ⟨m0, qs e, hqs e he, rfl⟩, fun e he a s hse => ⟨m0, qb _ e, hqb _ e he a s rfl hse, rfl⟩⟩
    refine ⟨le_refl _, rfl, rfl, rfl, ctx e, rfl, rfl, rfl, trivial, ?_⟩
    obtain ⟨s, h, -⟩ := C36_constrained_in_every_element (ds.map Direction.ax) (fun ax h => (hwf ax h).toPreWF) e (elemRange hwf he) (ctx e) rfl _ rfl none trivial
    show build (ctx e) = .ok (match build (ctx e) with | .ok s => s | _ => ⟨[], []⟩)
    rw [h]
  exact ⟨elt, hE⟩

/-- **C124**, `MAT_SPD` refuted: there is a run of the program, with one element of degree 6, that assembles a matrix which is not positive
semidefinite, for every sequence of messages and every work array. -/
theorem C124_spd_refuted (g2 : Guess2) (g3 : Guess3) (J : Bsp.Junk ℝ) (o : PtOut 1 1 (Fin (nenOf [sixAx]))) (m : Nat → ℝ)
    (hist : Nat → Hist) (pw : Nat → List Int → PWork ℝ) (w : Nat → List Int → Work ℝ) :
    ∃ (Ls : List (Layout ℝ)) (elt : List Int → Elt ℝ (BPt 1 (nenOf [sixAx]))) (A : Int × Int → ℝ) (b : Int → ℝ),
      Setup g2 g3 false 1 [1] [sixAx] [sixAx] Ls ∧
      WithSides [sixDir J] (nitscheConditions 1) (fun _ => plainPt 1 (nenOf [sixAx])) elt ∧
      computeSystem Ls hist 1 ⟨elt, pw, w⟩ (nitsche false (maxDegree [sixAx]) fun _ i j =>
        pointInvGradGeomMap (plainPt 1 (nenOf [sixAx])) o (fun _ => ((cell sixAx 0).2 - (cell sixAx 0).1) / 2) m ((i:Nat) * 1 + (j:Nat))) = .ok (A, b) ∧
      ¬ Sym.NonnegMat (total [sixAx] 1) A := by
  obtain ⟨Ls, S⟩ := sixSetup g2 g3
  have S' : Setup g2 g3 false 1 [1] [sixAx] ([sixDir J].map Direction.ax) Ls := S
  have hT : ∀ δ ∈ [sixDir J], δ.Tabulated := by
    intro δ h
    obtain rfl : δ = sixDir J := by simpa using h
    exact sixDir_tabulated J
  have hs : ∀ δ ∈ [sixDir J], IsSpline δ := by
    intro δ h
    obtain rfl : δ = sixDir J := by simpa using h
    exact fun k u => ⟨J, rfl⟩
  obtain ⟨elt, hE⟩ := withSides_exists S' hT hs (nitscheConditions 1)
  obtain ⟨A, b, hA, x, hx⟩ := C124_indefinite S' (sixDir_tabulated J) (fun k u => ⟨J, rfl⟩) rfl rfl sixAx_nel
    (by unfold domain; norm_num [sixDir, sixAx, knotAxis, sixU]) six_exact (c := fun _ => plainPt _ _) (fun _ => ⟨le_refl _, rfl, rfl, rfl⟩) (fun _ => rfl) hE o m hist pw w
  refine ⟨Ls, elt, A, b, S, hE, hA, fun h => ?_⟩
  have := (h x).trans_eq hx
  norm_num at this

end PetIGA.Demo
