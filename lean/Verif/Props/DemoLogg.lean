import Verif.Model.DemoLogg
import Verif.Props.DemoEx
import Mathlib.Analysis.SpecialFunctions.Trigonometric.Deriv
/-
C130: demo/LoggChallenge.c.  Its data belong together, its system has one solution, the best one in the energy; the coordinates are those of the
parameter domain.
-/
set_option linter.unusedSectionVars false
namespace PetIGA.Demo
open PetIGA.Quad PetIGA.Drv PetIGA.Spec PetIGA.Ax PetIGA.Lay PetIGA.Asm PetIGA.Rule PetIGA.Grid PetIGA.Part PetIGA.Ker PetIGA.SetUp PetIGA.PCA PetIGA.Fix PetIGA.Itg

/-! ### The data -/

theorem half_wave (t : ℝ) : HasDerivAt (fun t => Real.sin (Real.pi * t)) (Real.pi * Real.cos (Real.pi * t)) t := by
  have h := (Real.hasDerivAt_sin (Real.pi * t)).comp t ((hasDerivAt_id t).const_mul Real.pi)
  refine h.congr_deriv ?_
  ring

theorem half_wave2 (t : ℝ) : HasDerivAt (fun t => Real.pi * Real.cos (Real.pi * t)) (-(Real.pi * Real.pi * Real.sin (Real.pi * t))) t := by
  have h := ((Real.hasDerivAt_cos (Real.pi * t)).comp t ((hasDerivAt_id t).const_mul Real.pi)).const_mul Real.pi
  refine h.congr_deriv ?_
  ring

/-- **C130**, the data: `Forcing` is minus the Laplacian of `Solution` at every point of the plane, and `Solution` is zero, the value `main` prescribes,
on the four sides of the unit square. -/
theorem C130_data : (∀ x y : ℝ, ∃ gx gy : ℝ → ℝ, ∃ hx hy : ℝ, (∀ s, HasDerivAt (fun s => loggSolution s y) (gx s) s) ∧ HasDerivAt gx hx x ∧
      (∀ s, HasDerivAt (fun s => loggSolution x s) (gy s) s) ∧ HasDerivAt gy hy y ∧ -(hx + hy) = loggForcing x y) ∧
    ∀ t, loggSolution 0 t = 0 ∧ loggSolution 1 t = 0 ∧ loggSolution t 0 = 0 ∧ loggSolution t 1 = 0 := by
  refine ⟨fun x y => ⟨_, _, _, _, fun s => (half_wave s).mul_const _, (half_wave2 x).mul_const _, fun s => (half_wave s).const_mul _,
    (half_wave2 y).const_mul _, ?_⟩, fun t => ?_⟩
  · unfold loggForcing
    ring
  · simp [loggSolution]

/-! ### The boundary conditions -/

theorem logg_value {dim : Nat} {a s k : Int} {v : ℝ} (h : Form.Op.setValue a s k v ∈ loggConditions dim) : v = 0 := by
  unfold loggConditions at h
  obtain ⟨d, -, h⟩ := List.mem_flatMap.1 h
  obtain ⟨s', -, h⟩ := List.mem_map.1 h
  cases h
  rfl

theorem logg_noLoads (dim : Nat) : NoLoads (loggConditions dim) := by
  intro a s k v h
  have h := mem_loadEvents (inForce_mem h)
  unfold loggConditions at h
  obtain ⟨d, -, h⟩ := List.mem_flatMap.1 h
  obtain ⟨s', -, h⟩ := List.mem_map.1 h
  cases h

theorem logg_noClear (dim : Nat) (a s : Int) : Form.Op.clear a s ∉ loggConditions dim := by
  intro h
  unfold loggConditions at h
  obtain ⟨d, -, h⟩ := List.mem_flatMap.1 h
  obtain ⟨s', -, h⟩ := List.mem_map.1 h
  cases h

theorem logg_set {dim j : Nat} {s : Nat} (h : j < dim) (hs : s < 2) : Form.Op.setValue j s 0 0 ∈ loggConditions dim := by
  unfold loggConditions
  exact List.mem_flatMap.2 ⟨j, List.mem_range.2 h, List.mem_map.2 ⟨s, List.mem_range.2 hs, rfl⟩⟩

/-! ### The system -/

/-- `½ ∫ |∇v|² - ∫ f v`, by the rule, with the forcing `f` at the coordinates of the parameter domain. -/
noncomputable def loggEnergy {d nsd : Nat} (axs : List (Axis ℝ)) (elt : List Int → Elt ℝ (PtData d nsd (nenOf axs))) (v : List Int → Nat → ℝ) : ℝ :=
  ((indices (axs.map Axis.nel)).map fun e => (((elt e).points none).map fun q =>
    ((∑ l, combine axs e (q.data.shape.t1 l) v 0 ^ 2) / 2 - loggForcing (q.data.u.getD 0 0) (q.data.u.getD 1 0) * combine axs e q.data.shape.t0 v 0) *
      (q.detJac * q.weight)).sum).sum

/-- **C130**, the system: the matrix is symmetric positive definite and the system has exactly one solution; the solution is 0 at every node where a value
is prescribed, and it minimises the energy `½ ∫ |∇v|² - ∫ f v` among the fields that are 0 there. -/
theorem C130_system {g2 : Guess2} {g3 : Guess3} {size procs axes} {ds : List (Direction Line)} {Ls}
    (S : Setup g2 g3 false size procs axes (ds.map Direction.ax) Ls)
    (hT : ∀ δ ∈ ds, δ.Tabulated) (hs : ∀ δ ∈ ds, IsSpline δ) (hE : ∀ δ ∈ ds, Enough δ) (hper : ∃ δ ∈ ds, δ.ax.periodic = false) {nsd : Nat}
    {c : List Int → PtIn ds.length nsd (Fin (nenOf (ds.map Direction.ax)))} (hc : ∀ e, FirstOrder (c e))
    {elt : List Int → Elt ℝ (PtData ds.length nsd (nenOf (ds.map Direction.ax)))} (hI : Assembled ds (loggConditions ds.length) 1 none c elt)
    (hJ : ∀ e, InBox (ds.map fun δ => δ.ax.nel) e → ∀ q ∈ (elt e).points none, 0 < q.detJac) (hist) (pw) (w) :
    ∃ A b, computeSystem Ls hist 1 ⟨elt, pw, w⟩ loggSystem = .ok (A, b) ∧ PosDef (total (ds.map Direction.ax) 1) (fun i j => A (i, j)) ∧
      ∃ x : Int → ℝ,
        (∀ y : Int → ℝ,
          (∀ i : Nat, i < total (ds.map Direction.ax) 1 → ∑ j ∈ Finset.range (total (ds.map Direction.ax) 1), A ((i:Int), (j:Int)) * y j = b i) ↔
          ∀ i : Nat, i < total (ds.map Direction.ax) 1 → y i = x i) ∧
        (∀ z, InBox ((ds.map Direction.ax).map Axis.nnp) z → (Fix.prescribedAt (ds.map Direction.ax) (loggConditions ds.length) none (z, 0)).isSome →
          x (Blk.unknown Ls (ds.map Direction.ax) 1 z 0) = 0) ∧
        ∀ v : List Int → Nat → ℝ,
          (∀ z, InBox ((ds.map Direction.ax).map Axis.nnp) z → (Fix.prescribedAt (ds.map Direction.ax) (loggConditions ds.length) none (z, 0)).isSome → v z 0 = 0) →
          loggEnergy (ds.map Direction.ax) elt (fun z i => x (Blk.unknown Ls (ds.map Direction.ax) 1 z i)) ≤ loggEnergy (ds.map Direction.ax) elt v := by
  obtain ⟨l1, l3, hw⟩ := setup_facts S
  have hw' := Prb.setup_wf S
  have hK := fills (P := PtData ds.length nsd (nenOf (ds.map Direction.ax))) (unknowns_one (ds.map Direction.ax)) loggSystem
    (fun p a b => dot (fun i => p.shape.t1 i a) (fun i => p.shape.t1 i b)) (fun p a => p.shape.t0 a * loggForcing (p.u.getD 0 0) (p.u.getD 1 0)) (fun _ _ _ => rfl)
  have hk := gramForm (P := PtData ds.length nsd (nenOf (ds.map Direction.ax))) (List.ofFn fun l p a => p.shape.t1 l a)
    (fun p a b => dot (fun i => p.shape.t1 i a) (fun i => p.shape.t1 i b)) (fun p a b => by
      rw [dot_eq, List.map_ofFn, List.sum_ofFn]; rfl)
  obtain ⟨A, b, h1, h2⟩ := C88_dirichlet S hT hs hE hc hI hJ (fun i hi => by
    obtain rfl : i = 0 := by omega
    exact first_constrained hw' (setup_nel S) (by simpa using l3) (logg_noClear _) (v0 := 0)
      (fun j hj => logg_set (s := 0) (by simpa using hj) (by omega)) (by
      obtain ⟨δ, hδ, hp⟩ := hper
      exact ⟨δ.ax, List.mem_map_of_mem hδ, hp⟩)) loggSystem _ _ _ _ hK hk (fun i => List.mem_ofFn.2 ⟨i, rfl⟩)
    (fun _ _ _ _ => one_pos) hist pw w
  obtain ⟨A', b', a, f, h1', hA, hb, hsol⟩ := C80_system S hI.built loggSystem _ _ hK hist pw w
  rw [h1] at h1'
  cases h1'
  obtain ⟨x, hx, hu⟩ := posDef_solve h2 b
  have hr := loadForm (P := PtData ds.length nsd (nenOf (ds.map Direction.ax)))
    (List.ofFn fun _ : Fin 1 => (fun p a => p.shape.t0 a, fun p _ => loggForcing (p.u.getD 0 0) (p.u.getD 1 0))) (fun p a => p.shape.t0 a * loggForcing (p.u.getD 0 0) (p.u.getD 1 0)) (fun p a => by simp)
  obtain ⟨A', b', h1', h3⟩ := C98_ritz S hI loggSystem _ _ _ _ (fun l p a => p.shape.t1 l a)
    (fun _ : Fin 1 => (fun p a => p.shape.t0 a, fun p _ => loggForcing (p.u.getD 0 0) (p.u.getD 1 0))) hK hk hr hist pw w
  rw [h1] at h1'
  cases h1'
  have hpot : ∀ v, potential (ds.map Direction.ax) 1 elt (fun l p a => p.shape.t1 l a) (fun _ => 1)
      (fun _ : Fin 1 => (fun p a => p.shape.t0 a, fun p _ => loggForcing (p.u.getD 0 0) (p.u.getD 1 0))) (fun _ => 1) v = 2 * loggEnergy (ds.map Direction.ax) elt v := by
    intro v
    have hl0 : work (ds.map Direction.ax) 1 (loads (ds.map Direction.ax) 1 elt) v = 0 := by
      refine List.sum_eq_zero fun x hx => ?_
      obtain ⟨z, hz, rfl⟩ := List.mem_map.1 hx
      refine List.sum_eq_zero fun x hx => ?_
      obtain ⟨i, hi, rfl⟩ := List.mem_map.1 hx
      rw [no_loads hw' hI.built (logg_noLoads _) z i (List.mem_range.1 hi), zero_mul]
    unfold potential
    rw [hl0, mul_zero, sub_zero]
    unfold energy squares dataWork loggEnergy
    rw [← List.sum_map_mul_left, ← List.sum_map_mul_left, ← list_sum_sub]
    congr 1; refine List.map_congr_left fun e _ => ?_
    rw [← List.sum_map_mul_left, ← List.sum_map_mul_left, ← list_sum_sub]
    congr 1; refine List.map_congr_left fun q _ => ?_
    simp
    ring
  refine ⟨A, b, h1, h2, x, fun y => ⟨hu y, fun h i hi => ?_⟩, fun z hz hp => ?_, fun v hv => ?_⟩
  · rw [← hx i hi]
    exact Finset.sum_congr rfl fun j hj => by rw [h j (Finset.mem_range.1 hj)]
  · obtain ⟨v, hv⟩ := Option.isSome_iff_exists.1 hp
    have := ((hsol fun z i => x (Blk.unknown Ls (ds.map Direction.ax) 1 z i)).1 ((nodal_equations S hA hb x).1 hx)).1 z 0 hz (by omega) v hv
    exact this.trans (prescribed_value (fun a s k v h => logg_value h) hv)
  · have h4 := (h3 x hx).2 v (fun z i hz hi v0 h => by
      obtain rfl : i = 0 := by omega
      rw [hv z hz (by rw [show ((0:Nat):Int) = 0 from rfl] at h; rw [h]; rfl)]
      exact (prescribed_value (fun a s k v h => logg_value h) h).symm)
    rw [hpot, hpot] at h4
    have := energy_nonneg S hT hs hI (ρ := fun _ => (1:ℝ)) ⟨hJ, fun _ _ _ _ => one_pos⟩ (fun l : Fin ds.length => (fun p a => p.shape.t1 l a, fun _ _ => (0:ℝ)))
      (fun z i => v z i - x (Blk.unknown Ls (ds.map Direction.ax) 1 z i))
    linarith

/-- `C130_system` applies: two processes, two directions of degree 2. -/
example (g2 : Guess2) (g3 : Guess3) (J : Bsp.Junk ℝ) (hist : Nat → Hist) (pw : Nat → List Int → PWork ℝ) (w : Nat → List Int → Work ℝ) :
    ∃ (Ls : List (Layout ℝ)) (elt : List Int → Elt ℝ (PtData (exLines J).length 2 (nenOf ((exLines J).map Direction.ax)))) (A : Int × Int → ℝ) (b : Int → ℝ),
    computeSystem Ls hist 1 ⟨elt, pw, w⟩ loggSystem = .ok (A, b) ∧ PosDef (total ((exLines J).map Direction.ax) 1) (fun i j => A (i, j)) := by
  obtain ⟨Ls, elt, S, hI, hJ⟩ := exAssembled g2 g3 J (loggConditions (exLines J).length)
  have hok := exLines_ok J
  obtain ⟨A, b, h1, h2, -⟩ := C130_system S (fun δ h => (hok δ h).1) (fun δ h => (hok δ h).2.1) (fun δ h => (hok δ h).2.2.1) (exPer1 J)
    (fun _ => ⟨le_refl _, rfl, rfl, rfl⟩) hI hJ hist pw w
  exact ⟨Ls, elt, A, b, h1, h2⟩

/-! ### With a geometry -/

/-- **C130**, refuted for programs with a geometry: at a point with the parameters (1/2, 1/2) that the map takes to (1, 1), a point of a square of side 2 where
the forcing of the challenge is 0, the entry for a basis function that is not zero there is not 0; and the value `Exact` is compared with is 1, not the 0 of the
exact solution at that position. -/
theorem C130_geometry_refuted {n : Nat} (p : PtData 2 2 n) (hu : p.u = [1/2, 1/2]) (hX : ∀ i, p.arrays.mapX.t0 i = 1) (a : Fin n) (ha : p.shape.t0 a ≠ 0) (K F : Int → ℝ) :
    ∃ K' F', loggSystem p K F = .ok (K', F') ∧ p.shape.t0 a * loggForcing (position true p 0) (position true p 1) = 0 ∧ F' ((a : Nat) : Int) ≠ 0 ∧
      loggExact p = 1 ∧ loggSolution (position true p 0) (position true p 1) = 0 := by
  have hs : Real.sin (Real.pi * 2⁻¹) = 1 := by rw [← div_eq_mul_inv]; exact Real.sin_pi_div_two
  refine ⟨_, _, rfl, ?_, ?_, ?_, ?_⟩
  · simp [position, hX, loggForcing]
  · refine ne_of_eq_of_ne ((loops_fill n (fun a b => dot (fun i => p.shape.t1 i a) (fun i => p.shape.t1 i b)) (fun a => p.shape.t0 a * loggForcing (p.u.getD 0 0) (p.u.getD 1 0)) (K, F)).2 a) ?_
    simp [hu, loggForcing, hs, ha, Real.pi_ne_zero]
  · simp [loggExact, loggSolution, hu, hs]
  · simp [position, hX, loggSolution]

/-- There are such points: one basis function with the value 1. -/
example (p : PtData 2 2 1) (K F : Int → ℝ) : ∃ q : PtData 2 2 1, ∃ K' F', loggSystem q K F = .ok (K', F') ∧ F' 0 ≠ 0 ∧
    loggForcing (position true q 0) (position true q 1) = 0 := by
  let one : Tab ℝ 2 (Fin 2) := ⟨fun _ => 1, fun _ _ => 0, fun _ _ _ => 0, fun _ _ _ _ => 0, fun _ _ _ _ _ => 0⟩
  let q : PtData 2 2 1 := { p with u := [1/2, 1/2], shape := ⟨fun _ => 1, fun _ _ => 0, fun _ _ _ => 0, fun _ _ _ _ => 0, fun _ _ _ _ _ => 0⟩,
                                   arrays := { p.arrays with mapX := one } }
  obtain ⟨K', F', h, h0, h1, -⟩ := C130_geometry_refuted q rfl (fun _ => rfl) 0 one_ne_zero K F
  exact ⟨q, K', F', h, h1, by simpa [q] using h0⟩

/-- Without a geometry the coordinates are those of the position. -/
theorem C130_position {d nsd n : Nat} (hd : 2 ≤ d) (p : PtData d nsd n) (a : Fin n) (K F : Int → ℝ) :
    ∃ K' F', loggSystem p K F = .ok (K', F') ∧ F' ((a : Nat) : Int) = p.shape.t0 a * loggForcing (position false p 0) (position false p 1) ∧
      loggExact p = loggSolution (position false p 0) (position false p 1) := by
  refine ⟨_, _, rfl, ?_, ?_⟩
  · refine ((loops_fill n (fun a b => dot (fun i => p.shape.t1 i a) (fun i => p.shape.t1 i b)) (fun a => p.shape.t0 a * loggForcing (p.u.getD 0 0) (p.u.getD 1 0)) (K, F)).2 a).trans ?_
    simp [position, show 0 < d by omega, show 1 < d by omega]
  · simp [loggExact, position, show 0 < d by omega, show 1 < d by omega]

end PetIGA.Demo
