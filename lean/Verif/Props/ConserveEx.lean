import Verif.Props.Conserve
import Verif.Props.DemoEx
import Verif.Props.RigidBodyPeriodicEx
/-
Cases to which the theorems of Props/Conserve apply.
-/
set_option linter.unusedSectionVars false
namespace PetIGA.Frm
open PetIGA.Itg PetIGA.Ker PetIGA.Demo PetIGA.Drv PetIGA.Spec PetIGA.Ax PetIGA.Lay PetIGA.Asm PetIGA.Rule PetIGA.Grid PetIGA.Part PetIGA.Fix PetIGA.Quad

/-- Elements without boundary conditions, second derivatives, no geometry. -/
theorem assembled_exists {g2 : Guess2} {g3 : Guess3} {size : Int} {procs : List Int} {axes : List (Axis ℝ)} {Ls : List (Layout ℝ)}
    {ds : List (Direction Line)} (S : Setup g2 g3 false size procs axes (ds.map Direction.ax) Ls)
    (hT : ∀ δ ∈ ds, δ.Tabulated) (hs : ∀ δ ∈ ds, IsSpline δ) (dof nsd : Nat) :
    ∃ (c : PtIn ds.length nsd (Fin (nenOf (ds.map Direction.ax)))) (elt : List Int → Elt ℝ (PtData ds.length nsd (nenOf (ds.map Direction.ax)))),
      2 ≤ c.order ∧ Weights ds c ∧ Assembled ds [] dof none (fun _ => c) elt := by
  obtain ⟨h1, h3, hw⟩ := setup_facts S
  have hw2 := Prb.setup_wf S
  obtain ⟨c, hc⟩ : ∃ c : PtIn ds.length nsd (Fin (nenOf (ds.map Direction.ax))), c = ⟨2, none, none, none, false, true⟩ := ⟨_, rfl⟩
  obtain ⟨mem⟩ : Nonempty (Nat → Tab ℝ ds.length Nat × PtOut ds.length nsd (Fin (nenOf (ds.map Direction.ax)))) :=
    ⟨fun _ => (⟨fun _ => 0, fun _ _ => 0, fun _ _ _ => 0, fun _ _ _ _ => 0, fun _ _ _ _ _ => 0⟩,
     ⟨⟨fun _ => 0, fun _ _ => 0, fun _ _ _ => 0, fun _ _ _ _ => 0, fun _ _ _ _ _ => 0⟩,
      ⟨fun _ => 0, fun _ _ => 0, fun _ _ _ => 0, fun _ _ _ _ => 0, fun _ _ _ _ _ => 0⟩, 0,
      ⟨fun _ => 0, fun _ _ => 0, fun _ _ _ => 0, fun _ _ _ _ => 0, fun _ _ _ _ _ => 0⟩,
      ⟨fun _ => 0, fun _ _ => 0, fun _ _ _ => 0, fun _ _ _ _ => 0, fun _ _ _ _ _ => 0⟩, 0, fun _ => 0, 0⟩)⟩
  have htab : ∀ e, InBox (ds.map fun δ => δ.ax.nel) e → ∃ qs, tabulateElement c (ds.map Direction.B) e mem = .ok qs := fun e he =>
    tabulateElement_ok rfl h1 h3 hT hs hw c (.inl (by rw [hc])) he mem
  choose! qs hqs using htab
  let ctx : List Int → Ctx ℝ := fun e => ⟨elemDirs (ds.map Direction.ax) e, dof, Form.run Form.create [], none, fun a => a, fun _ _ => 2⟩
  refine ⟨c, fun e => ⟨0, nenOf (ds.map Direction.ax), nenOf (ds.map Direction.ax), dof, (match build (ctx e) with | .ok s => s | _ => ⟨[], []⟩), e,
    ds.map fun δ => δ.ax.nel, fun _ _ => false, fun _ => qs e⟩, by rw [hc], ?_, ⟨fun e he => ?_, fun e he => ⟨mem, hqs e he⟩, fun _ _ _ _ => rfl⟩⟩
  · intro W hW
    rw [hc] at hW
    cases hW
  · refine ⟨le_refl _, rfl, rfl, rfl, ctx e, rfl, rfl, rfl, trivial, ?_⟩
    obtain ⟨s, h, -⟩ := C36_constrained_in_every_element (ds.map Direction.ax) (fun ax h => (hw2 ax h).toPreWF) e (elemRange hw2 he) (ctx e) rfl [] rfl none trivial
    show build (ctx e) = .ok (match build (ctx e) with | .ok s => s | _ => ⟨[], []⟩)
    rw [h]

theorem no_values (axs : List (Axis ℝ)) (q : List Int × Int) : prescribedAt axs ([] : List (Form.Op ℝ)) none q = none := by
  unfold prescribedAt
  have : nodePrescribed (nodeDirs axs) (fun a s k => inForce a s k (Form.valueEvents ([] : List (Form.Op ℝ)))) q.1 q.2 = none := by
    unfold nodePrescribed
    rw [List.findSome?_eq_none_iff]
    intro s _
    split_ifs <;> rfl
  rw [this]
  rfl

/-- Three directions, the first two clamped, the last periodic. -/
noncomputable def exCube (J : Bsp.Junk ℝ) : List (Direction Line) :=
  [exLine J [-1, 0, 1] [1/3, 4/3, 1/3], exLine J [-1, 0, 1] [1/3, 4/3, 1/3], exLinePer J [-1, 0, 1] [1/3, 4/3, 1/3]]

theorem exCube_ok (J) : ∀ δ ∈ exCube J, δ.Tabulated ∧ IsSpline δ ∧ Enough δ := by
  intro δ hδ
  simp only [exCube, List.mem_cons, List.not_mem_nil, or_false] at hδ
  refine exLinesPer_ok J δ ?_
  simp only [exLinesPer, List.mem_cons, List.not_mem_nil, or_false]
  tauto

theorem exCubeSetup (g2 : Guess2) (g3 : Guess3) : ∃ Ls, Setup g2 g3 false 2 [2,1,1] [exRealAx, exRealAx, exPerAx] [exRealAx, exRealAx, exPerAx] Ls := by
  refine knot_setup g2 g3 2 [2,1,1] [exRealAx, exRealAx, exPerAx] ?_ (by simp) ?_ rfl (by omega)
  · intro ax hax
    simp only [List.mem_cons, List.not_mem_nil, or_false] at hax
    rcases hax with rfl | rfl | rfl
    · exact ⟨false, 2, 7, Itg.exU, rfl, Itg.exU_legal, by norm_num [Itg.exU], by norm_num [Itg.exU]⟩
    · exact ⟨false, 2, 7, Itg.exU, rfl, Itg.exU_legal, by norm_num [Itg.exU], by norm_num [Itg.exU]⟩
    · exact ⟨true, 2, 7, Itg.exU, rfl, Itg.exU_legal, by norm_num [Itg.exU], by norm_num [Itg.exU]⟩
  · have h1 : gridSize false exRealAx = 3 := by simp [gridSize, exRealAx_nel]
    have h2 : gridSize false exPerAx = 3 := by
      have : exPerAx.nel = 3 := by
        show ((computeSpans 2 7 Itg.exU).length : Int) = 3
        rw [Itg.exU_spans]; rfl
      simp [gridSize, this]
    simp only [List.map_cons, List.map_nil, h1, h2]
    exact .cons (by omega) (.cons (by omega) (.cons (by omega) .nil))

variable (g2 : Guess2) (g3 : Guess3) (J : Bsp.Junk ℝ) (hist : Nat → Hist) (pw : Nat → List Int → PWork ℝ) (w : Nat → List Int → Work ℝ)

/-- `C107_cahn_hilliard_2d` applies: two processes, degree 2, the first direction periodic, any two fields. -/
example (alpha theta shift t : ℝ) (v u : List Int → Nat → ℝ) (junkV junkU) :
    ∃ (Ls : List (Layout ℝ)) (elt : List Int → Elt ℝ (PtData 2 2 (nenOf ((exLinesPer J).map Direction.ax)))) (vecV vecU : Int → ℝ) (F : Int → ℝ),
      Represents ((exLinesPer J).map Direction.ax) Ls 1 vecV v ∧ Represents ((exLinesPer J).map Direction.ax) Ls 1 vecU u ∧
      computeIFunction Ls hist 1 ⟨elt, pw, w⟩ (ch2Residual alpha theta) shift vecV t vecU junkV junkU = .ok F ∧
      rowSum Ls ((exLinesPer J).map Direction.ax) 1 F 0 = fieldIntegral ((exLinesPer J).map Direction.ax) elt v 0 := by
  obtain ⟨Ls, S⟩ := exPerSetup g2 g3
  have S' : Setup g2 g3 false 2 [2,1] [exPerAx, exRealAx] ((exLinesPer J).map Direction.ax) Ls := S
  have hok := exLinesPer_ok J
  obtain ⟨c, elt, hc, hW, hI⟩ := assembled_exists S' (fun δ h => (hok δ h).1) (fun δ h => (hok δ h).2.1) 1 2
  obtain ⟨vecV, hv⟩ := represents_exists S' 1 v
  obtain ⟨vecU, hu⟩ := represents_exists S' 1 u
  obtain ⟨F, h1, h2⟩ := C107_cahn_hilliard_2d S' (fun δ h => (hok δ h).1) (fun δ h => (hok δ h).2.1) (fun _ => hW) (fun _ => hc) hI noLoads_nil (fun z => no_values _ _)
    alpha theta hist pw w shift t vecV vecU junkV junkU v u hv hu
  exact ⟨Ls, elt, vecV, vecU, F, hv, hu, h1, h2⟩

/-- `C107_cahn_hilliard_2d_uniform` applies, and so `C107_cahn_hilliard_2d_step`: from a uniform state, every step that keeps it. -/
example (alpha theta shift t s κ : ℝ) (h0 : s ≠ 0) (u₀ : List Int → Nat → ℝ) (junkV junkU) :
    ∃ (Ls : List (Layout ℝ)) (elt : List Int → Elt ℝ (PtData 2 2 (nenOf ((exLinesPer J).map Direction.ax)))) (vecV vecU : Int → ℝ) (F : Int → ℝ),
      computeIFunction Ls hist 1 ⟨elt, pw, w⟩ (ch2Residual alpha theta) shift vecV t vecU junkV junkU = .ok F ∧
      Represents ((exLinesPer J).map Direction.ax) Ls 1 F (fun _ _ => 0) ∧
      fieldIntegral ((exLinesPer J).map Direction.ax) elt u₀ 0 = fieldIntegral ((exLinesPer J).map Direction.ax) elt u₀ 0 := by
  obtain ⟨Ls, S⟩ := exPerSetup g2 g3
  have S' : Setup g2 g3 false 2 [2,1] [exPerAx, exRealAx] ((exLinesPer J).map Direction.ax) Ls := S
  have hok := exLinesPer_ok J
  obtain ⟨c, elt, hc, hW, hI⟩ := assembled_exists S' (fun δ h => (hok δ h).1) (fun δ h => (hok δ h).2.1) 1 2
  obtain ⟨vecV, hv⟩ := represents_exists S' 1 (fun _ _ => (0:ℝ))
  obtain ⟨vecU, hu⟩ := represents_exists S' 1 (fun _ _ => κ)
  obtain ⟨F, h1, h2⟩ := C107_cahn_hilliard_2d_uniform S' (fun δ h => (hok δ h).1) (fun δ h => (hok δ h).2.1) (fun _ => hW) (fun _ => hc) hI noLoads_nil
    (fun z => no_values _ _) alpha theta κ hist pw w shift t vecV vecU junkV junkU hv hu
  have hv' : Represents ((exLinesPer J).map Direction.ax) Ls 1 vecV fun z k => s * (u₀ z k - u₀ z k) := by simpa using hv
  exact ⟨Ls, elt, vecV, vecU, F, h1, h2, C107_cahn_hilliard_2d_step S' (fun δ h => (hok δ h).1) (fun δ h => (hok δ h).2.1) (fun _ => hW) (fun _ => hc) hI noLoads_nil
    (fun z => no_values _ _) alpha theta hist pw w shift t s h0 vecV vecU junkV junkU _ u₀ u₀ hv' hu F h1 h2⟩

/-- `C107_nsk` applies. -/
example (Ca Re theta shift t : ℝ) (v u : List Int → Nat → ℝ) (junkV junkU) :
    ∃ (Ls : List (Layout ℝ)) (elt : List Int → Elt ℝ (PtData 2 2 (nenOf ((exLinesPer J).map Direction.ax)))) (vecV vecU : Int → ℝ) (F : Int → ℝ),
      computeIFunction Ls hist 3 ⟨elt, pw, w⟩ (nskResidual Ca Re theta) shift vecV t vecU junkV junkU = .ok F ∧
      rowSum Ls ((exLinesPer J).map Direction.ax) 3 F 0 = fieldIntegral ((exLinesPer J).map Direction.ax) elt v 0 ∧
      rowSum Ls ((exLinesPer J).map Direction.ax) 3 F 1 = domainIntegral ((exLinesPer J).map Direction.ax) elt fun e p =>
        combine ((exLinesPer J).map Direction.ax) e p.shape.t0 v 0 * combine ((exLinesPer J).map Direction.ax) e p.shape.t0 u 1 +
        combine ((exLinesPer J).map Direction.ax) e p.shape.t0 u 0 * combine ((exLinesPer J).map Direction.ax) e p.shape.t0 v 1 := by
  obtain ⟨Ls, S⟩ := exPerSetup g2 g3
  have S' : Setup g2 g3 false 2 [2,1] [exPerAx, exRealAx] ((exLinesPer J).map Direction.ax) Ls := S
  have hok := exLinesPer_ok J
  obtain ⟨c, elt, hc, hW, hI⟩ := assembled_exists S' (fun δ h => (hok δ h).1) (fun δ h => (hok δ h).2.1) 3 2
  obtain ⟨vecV, hv⟩ := represents_exists S' 3 v
  obtain ⟨vecU, hu⟩ := represents_exists S' 3 u
  obtain ⟨F, h1, h2, h3⟩ := C107_nsk S' (fun δ h => (hok δ h).1) (fun δ h => (hok δ h).2.1) (fun _ => hW) (fun _ => hc) hI noLoads_nil (fun z => no_values _ _)
    Ca Re theta hist pw w shift t vecV vecU junkV junkU v u hv hu
  exact ⟨Ls, elt, vecV, vecU, F, h1, h2, h3 (fun z k _ => no_values _ _) 1 (.inl rfl)⟩

/-- `C107_pattern_formation` applies. -/
example (m : Pattern) (shift t t0 : ℝ) (v u u0 : List Int → Nat → ℝ) (junkV junkU junkU0) :
    ∃ (Ls : List (Layout ℝ)) (elt : List Int → Elt ℝ (PtData 2 2 (nenOf ((exLinesPer J).map Direction.ax)))) (vecV vecU vecU0 : Int → ℝ) (F : Int → ℝ),
      computeIEFunction Ls hist 2 ⟨elt, pw, w⟩ (patFunction m) shift vecV t vecU t0 vecU0 junkV junkU junkU0 = .ok F ∧
      rowSum Ls ((exLinesPer J).map Direction.ax) 2 F 0 = domainIntegral ((exLinesPer J).map Direction.ax) elt fun e p =>
        let at_ := fun (y : List Int → Nat → ℝ) (k : Nat) => combine ((exLinesPer J).map Direction.ax) e p.shape.t0 y k
        let a := at_ (if m.implicit then u else u0) 0
        let b := at_ (if m.implicit then u else u0) 1
        at_ v 0 - (m.alpha * a * (1 - m.tau1 * b ^ 2) + b * (1 - m.tau2 * a)) := by
  obtain ⟨Ls, S⟩ := exPerSetup g2 g3
  have S' : Setup g2 g3 false 2 [2,1] [exPerAx, exRealAx] ((exLinesPer J).map Direction.ax) Ls := S
  have hok := exLinesPer_ok J
  obtain ⟨c, elt, hc, hW, hI⟩ := assembled_exists S' (fun δ h => (hok δ h).1) (fun δ h => (hok δ h).2.1) 2 2
  obtain ⟨vecV, hv⟩ := represents_exists S' 2 v
  obtain ⟨vecU, hu⟩ := represents_exists S' 2 u
  obtain ⟨vecU0, hu0⟩ := represents_exists S' 2 u0
  obtain ⟨F, h1, h2, -⟩ := C107_pattern_formation S' (fun δ h => (hok δ h).1) (fun δ h => (hok δ h).2.1) (fun _ => hW) (fun _ => by omega) hI noLoads_nil
    (fun z k _ => no_values _ _) m hist pw w shift t t0 vecV vecU vecU0 junkV junkU junkU0 v u u0 hv hu hu0
  exact ⟨Ls, elt, vecV, vecU, vecU0, F, h1, h2⟩

/-- `C107_cahn_hilliard_3d` and `C107_cahn_hilliard_3d_uniform` apply. -/
example (theta L0 lambda shift t κ : ℝ) (v u : List Int → Nat → ℝ) (junkV junkU) :
    ∃ (Ls : List (Layout ℝ)) (elt : List Int → Elt ℝ (PtData 3 3 (nenOf ((exCube J).map Direction.ax)))) (vecV vecU vec0 vecK : Int → ℝ) (F G : Int → ℝ),
      computeIFunction Ls hist 1 ⟨elt, pw, w⟩ (ch3Residual theta L0 lambda) shift vecV t vecU junkV junkU = .ok F ∧
      rowSum Ls ((exCube J).map Direction.ax) 1 F 0 = fieldIntegral ((exCube J).map Direction.ax) elt v 0 ∧
      Represents ((exCube J).map Direction.ax) Ls 1 vecK (fun _ _ => κ) ∧
      computeIFunction Ls hist 1 ⟨elt, pw, w⟩ (ch3Residual theta L0 lambda) shift vec0 t vecK junkV junkU = .ok G ∧
      Represents ((exCube J).map Direction.ax) Ls 1 G (fun _ _ => 0) := by
  obtain ⟨Ls, S⟩ := exCubeSetup g2 g3
  have S' : Setup g2 g3 false 2 [2,1,1] [exRealAx, exRealAx, exPerAx] ((exCube J).map Direction.ax) Ls := S
  have hok := exCube_ok J
  obtain ⟨c, elt, hc, hW, hI⟩ := assembled_exists S' (fun δ h => (hok δ h).1) (fun δ h => (hok δ h).2.1) 1 3
  obtain ⟨vecV, hv⟩ := represents_exists S' 1 v
  obtain ⟨vecU, hu⟩ := represents_exists S' 1 u
  obtain ⟨vec0, h0⟩ := represents_exists S' 1 (fun _ _ => (0:ℝ))
  obtain ⟨vecK, hk⟩ := represents_exists S' 1 (fun _ _ => κ)
  obtain ⟨F, h1, h2⟩ := C107_cahn_hilliard_3d S' (fun δ h => (hok δ h).1) (fun δ h => (hok δ h).2.1) (fun _ => hW) (fun _ => hc) hI noLoads_nil (fun z => no_values _ _)
    theta L0 lambda hist pw w shift t vecV vecU junkV junkU v u hv hu
  obtain ⟨G, h3, h4⟩ := C107_cahn_hilliard_3d_uniform S' (fun δ h => (hok δ h).1) (fun δ h => (hok δ h).2.1) (fun _ => hW) (fun _ => hc) hI noLoads_nil
    (fun z => no_values _ _) theta L0 lambda κ hist pw w shift t vec0 vecK junkV junkU h0 hk
  exact ⟨Ls, elt, vecV, vecU, vec0, vecK, F, G, h1, h2, hk, h3, h4⟩

end PetIGA.Frm
