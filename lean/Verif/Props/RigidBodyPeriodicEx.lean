import Verif.Props.RigidBodyPeriodic
/-
Cases to which the theorems of Props/RigidBodyPeriodic apply.
-/
set_option linter.unusedSectionVars false
namespace PetIGA.Itg
open PetIGA.Quad PetIGA.Drv PetIGA.Spec PetIGA.Ax PetIGA.Lay PetIGA.Asm PetIGA.Rule PetIGA.Grid PetIGA.Part PetIGA.Ker PetIGA.PCA PetIGA.Crd PetIGA.SetUp

/-- Elements without boundary conditions, B-splines without a geometry. -/
theorem interior_exists {g2 : Guess2} {g3 : Guess3} {size : Int} {procs : List Int} {axes : List (Axis ℝ)} {Ls : List (Layout ℝ)}
    {ds : List (Direction Line)} (S : Setup g2 g3 false size procs axes (ds.map Direction.ax) Ls)
    (hT : ∀ δ ∈ ds, δ.Tabulated) (hs : ∀ δ ∈ ds, IsSpline δ) (dof nsd : Nat) (hd : 1 ≤ dof) :
    ∃ (c : PtIn ds.length nsd (Fin (nenOf (ds.map Direction.ax)))) (elt : List Int → Elt ℝ (PtData ds.length nsd (nenOf (ds.map Direction.ax)))),
      FirstOrder c ∧ c.geometry = none ∧ Interior ds dof (fun _ => c) elt := by
  obtain ⟨h1, h3, hw⟩ := setup_facts S
  obtain ⟨c, hc⟩ : ∃ c : PtIn ds.length nsd (Fin (nenOf (ds.map Direction.ax))), c = ⟨1, none, none, none, false, true⟩ := ⟨_, rfl⟩
  obtain ⟨mem⟩ : Nonempty (Nat → Tab ℝ ds.length Nat × PtOut ds.length nsd (Fin (nenOf (ds.map Direction.ax)))) :=
    ⟨fun _ => (⟨fun _ => 0, fun _ _ => 0, fun _ _ _ => 0, fun _ _ _ _ => 0, fun _ _ _ _ _ => 0⟩,
     ⟨⟨fun _ => 0, fun _ _ => 0, fun _ _ _ => 0, fun _ _ _ _ => 0, fun _ _ _ _ _ => 0⟩,
      ⟨fun _ => 0, fun _ _ => 0, fun _ _ _ => 0, fun _ _ _ _ => 0, fun _ _ _ _ _ => 0⟩, 0,
      ⟨fun _ => 0, fun _ _ => 0, fun _ _ _ => 0, fun _ _ _ _ => 0, fun _ _ _ _ _ => 0⟩,
      ⟨fun _ => 0, fun _ _ => 0, fun _ _ _ => 0, fun _ _ _ _ => 0, fun _ _ _ _ _ => 0⟩, 0, fun _ => 0, 0⟩)⟩
  have htab : ∀ e, InBox (ds.map fun δ => δ.ax.nel) e → ∃ qs, tabulateElement c (ds.map Direction.B) e mem = .ok qs := fun e he =>
    tabulateElement_ok rfl h1 h3 hT hs hw c (.inl (by rw [hc])) he mem
  choose! qs hqs using htab
  refine ⟨c, fun e => ⟨0, nenOf (ds.map Direction.ax), nenOf (ds.map Direction.ax), dof, ⟨[], []⟩, e, ds.map fun δ => δ.ax.nel, fun _ _ => false, fun _ => qs e⟩,
    by rw [hc]; exact ⟨le_refl _, rfl, rfl, rfl⟩, by rw [hc], ⟨fun e he => ?_, fun e he => ⟨mem, hqs e he⟩, fun _ _ _ _ => rfl⟩⟩
  exact ⟨⟨le_refl _, rfl, ⟨by simp, by simp⟩, ⟨by simp, by simp⟩⟩, rfl, rfl⟩

/-- The knots of `exRealAx`, closed. -/
noncomputable def exPerAx : Axis ℝ := knotAxis true 2 7 exU

noncomputable def exLinePer (J : Bsp.Junk ℝ) (X W : List ℝ) : Direction Line :=
  let cb := fun (k : Int) (u : ℝ) => fun t r : Nat => Bsp.basis J k u 2 2 exU t r
  ⟨exPerAx, X, W, cb, ⟨X.length, 3, exPerAx.span.map (mkElem cb 2 exU X.length 0 X W), (cb 2 (exU 2), cb 4 (exU 5))⟩⟩

/-- The first direction periodic, Simpson's rule in both. -/
noncomputable def exLinesPer (J : Bsp.Junk ℝ) : List (Direction Line) :=
  [exLinePer J [-1, 0, 1] [1/3, 4/3, 1/3], exLine J [-1, 0, 1] [1/3, 4/3, 1/3]]

theorem exLinesPer_ok (J) : ∀ δ ∈ exLinesPer J, δ.Tabulated ∧ IsSpline δ ∧ Enough δ := by
  intro δ hδ
  simp only [exLinesPer, List.mem_cons, List.not_mem_nil, or_false] at hδ
  rcases hδ with rfl | rfl
  · refine ⟨?_, fun k u => ⟨J, rfl⟩, ⟨by simp [exLinePer]; norm_num, ?_⟩⟩
    · have hr : Ready (exRule [-1, 0, 1] [1/3, 4/3, 1/3]) [-1, 0, 1] [1/3, 4/3, 1/3] := ⟨by simp [exRule], rfl, rfl, rfl, by simp [exRule]⟩
      exact ⟨0, .bspline, _, _, initQuadrature_std _ _ _ _ _ _ hr (by simp [exRule]), hr, by simp [exRule], by
        intro w hw; simp [exLinePer] at hw; rcases hw with rfl | rfl | rfl <;> norm_num⟩
    · show (2:Int) < _
      simp [exLinePer]
  · obtain ⟨h1, h2, h3, -⟩ := exLines_ok J (exLine J [-1, 0, 1] [1/3, 4/3, 1/3]) (by simp [exLines])
    exact ⟨h1, h2, h3⟩

theorem exPerSetup (g2 : Guess2) (g3 : Guess3) : ∃ Ls, Setup g2 g3 false 2 [2,1] [exPerAx, exRealAx] [exPerAx, exRealAx] Ls := by
  refine knot_setup g2 g3 2 [2,1] [exPerAx, exRealAx] ?_ (by simp) ?_ rfl (by omega)
  · intro ax hax
    simp only [List.mem_cons, List.not_mem_nil, or_false] at hax
    rcases hax with rfl | rfl
    · exact ⟨true, 2, 7, exU, rfl, exU_legal, by norm_num [exU], by norm_num [exU]⟩
    · exact ⟨false, 2, 7, exU, rfl, exU_legal, by norm_num [exU], by norm_num [exU]⟩
  · have h1 : gridSize false exRealAx = 3 := by simp [gridSize, exRealAx_nel]
    have h2 : gridSize false exPerAx = 3 := by
      have : exPerAx.nel = 3 := by
        show ((computeSpans 2 7 exU).length : Int) = 3
        rw [exU_spans]; rfl
      simp [gridSize, this]
    simp only [List.map_cons, List.map_nil, h1, h2]
    exact .cons (by omega) (.cons (by omega) .nil)

/-- `C89_translations` and `C89_periodic_refuted` apply: two processes, degree 2, the first direction periodic. -/
example (g2 : Guess2) (g3 : Guess3) (J : Bsp.Junk ℝ) (hist : Nat → Hist) (pw : Nat → List Int → PWork ℝ) (w : Nat → List Int → Work ℝ) (huge : ℝ) :
    ∃ (Ls : List (Layout ℝ)) (elt : List Int → Elt ℝ (PtData (exLinesPer J).length 2 (nenOf ((exLinesPer J).map Direction.ax)))),
    ∃ ms A, createRigidBody huge [.bspline, .bspline] 0 2 Ls (fun _ => none) = .ok ms ∧
      computeMatrix Ls hist 2 ⟨elt, pw, w⟩ (fun p A => .ok fun i => A i + elastic p i) = .ok A ∧
      (∀ i : Nat, i < total ((exLinesPer J).map Direction.ax) 2 →
        ∑ j ∈ Finset.range (total ((exLinesPer J).map Direction.ax) 2), A ((i:Int), (j:Int)) * 1 = 0) ∧
      ∃ m ∈ ms, ∃ i : Nat, i < total ((exLinesPer J).map Direction.ax) 2 ∧
        ∑ j ∈ Finset.range (total ((exLinesPer J).map Direction.ax) 2), A ((i:Int), (j:Int)) * m j ≠ 0 := by
  obtain ⟨Ls, S⟩ := exPerSetup g2 g3
  have S' : Setup g2 g3 false 2 [2,1] [exPerAx, exRealAx] ((exLinesPer J).map Direction.ax) Ls := S
  have hok := exLinesPer_ok J
  obtain ⟨c, elt, hc, hg, hI⟩ := interior_exists S' (fun δ h => (hok δ h).1) (fun δ h => (hok δ h).2.1) 2 2 (by omega)
  obtain ⟨h1, h3, hw⟩ := setup_facts S'
  refine ⟨Ls, elt, ?_⟩
  obtain ⟨ms, A, a1, a2, a3⟩ := C89_periodic_refuted S' (fun δ h => (hok δ h).1) (fun δ h => (hok δ h).2.1) (fun δ h => (hok δ h).2.2)
    (0 : Fin 2) (1 : Fin 2) rfl rfl (fun _ => hc) (fun _ => hg) hI (fun p A => .ok fun i => A i + elastic p i) (fills_self _ _) hist pw w huge (fun _ => none)
  obtain ⟨A', b1, b2⟩ := C89_translations S' (fun δ h => (hok δ h).1) (fun δ h => (hok δ h).2.1) (fun _ => hc) hI (by
      intro e he q hq
      obtain ⟨mem, hm⟩ := hI.points e he
      obtain ⟨pts, hp, N, m, o, -, ho, rfl⟩ := (tabulated_points rfl h1 h3 (fun δ h => (hok δ h).1) (fun δ h => (hok δ h).2.1) hw c he mem hm).2 q hq
      exact (detJac_pos ho (lines_J hw he (mem_tensorPoints hp)) hc.interior (.inl hg)).ne')
    (fun p A => .ok fun i => A i + elastic p i) elastic (fills_self _ _) elastic_strain hist pw w
  obtain rfl : A' = A := Res.ok.inj (b1.symm.trans a2)
  exact ⟨ms, A', a1, a2, b2 (fun _ => 1) (fun _ => 1) fun _ _ _ _ => rfl, a3⟩

end PetIGA.Itg
