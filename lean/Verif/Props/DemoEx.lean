import Verif.Props.Demo
import Verif.Props.PoissonEx
/-
Cases to which the theorems of Props/Demo apply: two processes, degree 2, Simpson's rule, without a geometry and with the identity map.
-/
set_option linter.unusedSectionVars false
namespace PetIGA.Demo
open PetIGA.Quad PetIGA.Drv PetIGA.Spec PetIGA.Ax PetIGA.Lay PetIGA.Asm PetIGA.Rule PetIGA.Grid PetIGA.Part PetIGA.Ker PetIGA.SetUp PetIGA.PCA PetIGA.Fix PetIGA.Itg
open Polynomial

/-- Elements of one component with the conditions `ops`. -/
theorem exBuilt {nsd : Nat} (J : Bsp.Junk ℝ) (ops : List (Form.Op ℝ)) (qs : List Int → List (QP ℝ (PtData (exLines J).length nsd (nenOf ((exLines J).map Direction.ax))))) :
    ∃ elt : List Int → Elt ℝ (PtData (exLines J).length nsd (nenOf ((exLines J).map Direction.ax))), ∀ e, (elt e).points none = qs e ∧ (∀ a b, (elt e).visit a b = false) ∧
      (InBox (((exLines J).map Direction.ax).map Axis.nel) e → Built ((exLines J).map Direction.ax) ops 1 none e (elt e)) := by
  have hw : ∀ ax ∈ (exLines J).map Direction.ax, WF ax := by
    intro ax hax
    simp only [exLines, exLine, List.map_cons, List.map_nil, List.mem_cons, List.not_mem_nil, or_false, or_self] at hax
    subst hax
    exact exRealAx_wf
  let ctx : List Int → Ctx ℝ := fun e => ⟨elemDirs ((exLines J).map Direction.ax) e, 1, Form.run Form.create ops, none, fun a => a, fun _ _ => 2⟩
  refine ⟨fun e => ⟨0, nenOf ((exLines J).map Direction.ax), nenOf ((exLines J).map Direction.ax), 1, (match build (ctx e) with | .ok s => s | _ => ⟨[], []⟩), e,
    (exLines J).map fun δ => δ.ax.nel, fun _ _ => false, fun _ => qs e⟩, fun e => ⟨rfl, fun _ _ => rfl, fun he => ?_⟩⟩
  refine ⟨le_refl _, rfl, rfl, rfl, ctx e, rfl, rfl, rfl, trivial, ?_⟩
  obtain ⟨s, h, -⟩ := C36_constrained_in_every_element ((exLines J).map Direction.ax) (fun ax h => (hw ax h).toPreWF) e (elemRange hw he) (ctx e) rfl ops rfl none trivial
  show build (ctx e) = .ok (match build (ctx e) with | .ok s => s | _ => ⟨[], []⟩)
  rw [h]

/-- A set-up on two processes whose elements are built and tabulated, without a geometry. -/
theorem exAssembled (g2 : Guess2) (g3 : Guess3) (J : Bsp.Junk ℝ) (ops : List (Form.Op ℝ)) :
    ∃ (Ls : List (Layout ℝ)) (elt : List Int → Elt ℝ (PtData (exLines J).length 2 (nenOf ((exLines J).map Direction.ax)))),
      Setup g2 g3 false 2 [2,1] [exRealAx, exRealAx] ((exLines J).map Direction.ax) Ls ∧ Assembled (exLines J) ops 1 none (fun _ => exPtB J) elt ∧
      ∀ e, InBox ((exLines J).map fun δ => δ.ax.nel) e → ∀ q ∈ (elt e).points none, 0 < q.detJac := by
  obtain ⟨Ls, S⟩ := exRealSetup g2 g3
  have S' : Setup g2 g3 false 2 [2,1] [exRealAx, exRealAx] ((exLines J).map Direction.ax) Ls := S
  have hok := exLines_ok J
  have hw := setup_facts S'
  obtain ⟨mem⟩ := exMem J
  have htab : ∀ e, InBox ((exLines J).map fun δ => δ.ax.nel) e →
      ∃ qs, tabulateElement (exPtB J) ((exLines J).map Direction.B) e mem = .ok qs := fun e he =>
    tabulateElement_ok rfl hw.1 hw.2.1 (fun δ h => (hok δ h).1) (fun δ h => (hok δ h).2.1) hw.2.2 (exPtB J) (.inl rfl) he mem
  choose! qs hqs using htab
  obtain ⟨elt, helt⟩ := exBuilt J ops qs
  refine ⟨Ls, elt, S', ⟨fun e he => (helt e).2.2 he, fun e he => ⟨mem, ?_⟩, fun e _ => (helt e).2.1⟩, fun e he q hq => ?_⟩
  · rw [(helt e).1]
    exact hqs e he
  · rw [(helt e).1] at hq
    obtain ⟨pts, hp, N, m, o, -, ho, rfl⟩ := (tabulated_points rfl hw.1 hw.2.1 (fun δ h => (hok δ h).1) (fun δ h => (hok δ h).2.1) hw.2.2 (exPtB J) he mem (hqs e he)).2 q hq
    exact detJac_pos ho (lines_J hw.2.2 he (mem_tensorPoints hp)) rfl (.inl rfl)

/-- The same with the identity map as geometry. -/
theorem exAssembledId (g2 : Guess2) (g3 : Guess3) (J : Bsp.Junk ℝ) (ops : List (Form.Op ℝ)) :
    ∃ (Ls : List (Layout ℝ)) (elt : List Int → Elt ℝ (PtData (exLines J).length (exLines J).length (nenOf ((exLines J).map Direction.ax)))),
      Setup g2 g3 false 2 [2,1] [exRealAx, exRealAx] ((exLines J).map Direction.ax) Ls ∧ Assembled (exLines J) ops 1 none (exPtId J) elt ∧
      ∀ e, InBox ((exLines J).map fun δ => δ.ax.nel) e → ∀ q ∈ (elt e).points none, 0 < q.detJac ∧ q.data.arrays.detX ≠ 0 := by
  obtain ⟨Ls, S⟩ := exRealSetup g2 g3
  have S' : Setup g2 g3 false 2 [2,1] [exRealAx, exRealAx] ((exLines J).map Direction.ax) Ls := S
  have hok := exLines_ok J
  have hw := setup_facts S'
  obtain ⟨mem⟩ := exMem J
  have mem : Nat → Tab ℝ (exLines J).length Nat × PtOut (exLines J).length (exLines J).length (Fin (nenOf ((exLines J).map Direction.ax))) := mem
  have htab : ∀ e, InBox ((exLines J).map fun δ => δ.ax.nel) e →
      ∃ qs, tabulateElement (exPtId J e) ((exLines J).map Direction.B) e mem = .ok qs := fun e he =>
    tabulateElement_ok rfl hw.1 hw.2.1 (fun δ h => (hok δ h).1) (fun δ h => (hok δ h).2.1) hw.2.2 (exPtId J e) (.inr (.inr rfl)) he mem
  choose! qs hqs using htab
  obtain ⟨elt, helt⟩ := exBuilt J ops qs
  refine ⟨Ls, elt, S', ⟨fun e he => (helt e).2.2 he, fun e he => ⟨mem, ?_⟩, fun e _ => (helt e).2.1⟩, fun e he q hq => ?_⟩
  · rw [(helt e).1]
    exact hqs e he
  · rw [(helt e).1] at hq
    obtain ⟨h1, h2⟩ := exId_det S' he (hqs e he) q hq
    exact ⟨h2, by rw [h1]; exact one_ne_zero⟩

theorem exPer1 (J) : ∃ δ ∈ exLines J, δ.ax.periodic = false := ⟨_, List.mem_cons_self, rfl⟩

variable (g2 : Guess2) (g3 : Guess3) (J : Bsp.Junk ℝ) (hist : Nat → Hist) (pw : Nat → List Int → PWork ℝ) (w : Nat → List Int → Work ℝ)

/-- `C102_laplace` applies. -/
example : ∃ (Ls : List (Layout ℝ)) (elt : List Int → Elt ℝ (PtData (exLines J).length 2 (nenOf ((exLines J).map Direction.ax)))) (A : Int × Int → ℝ) (b : Int → ℝ),
    computeSystem Ls hist 1 ⟨elt, pw, w⟩ laplace = .ok (A, b) ∧
    ∀ i : Nat, i < total ((exLines J).map Direction.ax) 1 → ∑ j ∈ Finset.range (total ((exLines J).map Direction.ax) 1), A ((i:Int), (j:Int)) = b i := by
  obtain ⟨Ls, elt, S, hI, hJ⟩ := exAssembled g2 g3 J (laplaceConditions (exLines J).length)
  have hok := exLines_ok J
  obtain ⟨A, b, h1, -, h2⟩ := C102_laplace S (fun δ h => (hok δ h).1) (fun δ h => (hok δ h).2.1) (fun δ h => (hok δ h).2.2.1) (exPer1 J)
    (fun _ => ⟨le_refl _, rfl, rfl, rfl⟩) hI hJ hist pw w
  exact ⟨Ls, elt, A, b, h1, fun i hi => by simpa using (h2 fun _ => 1).2 (fun _ _ => rfl) i hi⟩

/-- `C102_laplace_nurbs` applies. -/
example : ∃ (Ls : List (Layout ℝ)) (elt : List Int → Elt ℝ (PtData (exLines J).length (exLines J).length (nenOf ((exLines J).map Direction.ax)))) (A : Int × Int → ℝ)
    (b : Int → ℝ), computeSystem Ls hist 1 ⟨elt, pw, w⟩ laplace = .ok (A, b) ∧
    ∀ i : Nat, i < total ((exLines J).map Direction.ax) 1 → ∑ j ∈ Finset.range (total ((exLines J).map Direction.ax) 1), A ((i:Int), (j:Int)) * 1 = b i := by
  obtain ⟨Ls, elt, S, hI, hJ⟩ := exAssembledId g2 g3 J (laplaceConditions (exLines J).length)
  have hok := exLines_ok J
  obtain ⟨A, b, h1, h2⟩ := C102_laplace_nurbs S (fun δ h => (hok δ h).1) (fun δ h => (hok δ h).2.1) (fun _ W h => by cases h) (fun _ => le_refl _) exNet
    (fun e => ⟨_, rfl, netPoints_on _ _ _⟩) hI hJ hist pw w
  exact ⟨Ls, elt, A, b, h1, h2⟩

/-- `C102_poisson` applies. -/
example : ∃ (Ls : List (Layout ℝ)) (elt : List Int → Elt ℝ (PtData (exLines J).length 2 (nenOf ((exLines J).map Direction.ax)))) (A : Int × Int → ℝ) (b : Int → ℝ),
    computeSystem Ls hist 1 ⟨elt, pw, w⟩ poisson = .ok (A, b) ∧ PosDef (total ((exLines J).map Direction.ax) 1) (fun i j => A (i, j)) := by
  obtain ⟨Ls, elt, S, hI, hJ⟩ := exAssembled g2 g3 J (poissonConditions (exLines J).length)
  have hok := exLines_ok J
  obtain ⟨A, b, h1, h2, -⟩ := C102_poisson S (fun δ h => (hok δ h).1) (fun δ h => (hok δ h).2.1) (fun δ h => (hok δ h).2.2.1) (exPer1 J)
    (fun _ => ⟨le_refl _, rfl, rfl, rfl⟩) hI hJ hist pw w
  exact ⟨Ls, elt, A, b, h1, h2⟩

/-- `C102_project` applies, for example to the discontinuous function `Step`. -/
example : ∃ (Ls : List (Layout ℝ)) (elt : List Int → Elt ℝ (PtData (exLines J).length 2 (nenOf ((exLines J).map Direction.ax)))) (A : Int × Int → ℝ) (b : Int → ℝ),
    computeSystem Ls hist 1 ⟨elt, pw, w⟩ (project false fun _ x => if x 0 < 1 / 2 then 1 else 0) = .ok (A, b) ∧
    PosDef (total ((exLines J).map Direction.ax) 1) (fun i j => A (i, j)) := by
  obtain ⟨Ls, elt, S, hI, hJ⟩ := exAssembled g2 g3 J []
  have hok := exLines_ok J
  obtain ⟨A, b, h1, h2, -⟩ := C102_project S (fun δ h => (hok δ h).1) (fun δ h => (hok δ h).2.1) (fun δ h => (hok δ h).2.2.1)
    (fun _ W h => by cases h) hI hJ false (fun _ x => if x 0 < 1 / 2 then 1 else 0) hist pw w
  exact ⟨Ls, elt, A, b, h1, h2⟩

/-- `C102_project_power` applies to `Quadratic`. -/
example : ∃ (Ls : List (Layout ℝ)) (elt : List Int → Elt ℝ (PtData (exLines J).length 2 (nenOf ((exLines J).map Direction.ax)))) (A : Int × Int → ℝ) (b : Int → ℝ)
    (x : Int → ℝ), computeSystem Ls hist 1 ⟨elt, pw, w⟩ (project false (power 2)) = .ok (A, b) ∧
    (∀ i : Nat, i < total ((exLines J).map Direction.ax) 1 → ∑ j ∈ Finset.range (total ((exLines J).map Direction.ax) 1), A ((i:Int), (j:Int)) * x j = b i) ∧
    ∀ e, InBox ((exLines J).map fun δ => δ.ax.nel) e → ∀ q ∈ (elt e).points none,
      combine ((exLines J).map Direction.ax) e q.data.shape.t0 (fun z i => x (Blk.unknown Ls ((exLines J).map Direction.ax) 1 z i)) 0 =
        q.data.u.getD 0 0 ^ 2 + q.data.u.getD 1 0 ^ 2 := by
  obtain ⟨Ls, elt, S, hI, hJ⟩ := exAssembled g2 g3 J []
  have hok := exLines_ok J
  obtain ⟨A, b, h1, x, h2, h3⟩ := C102_project_power S (fun δ h => (hok δ h).1) (fun δ h => (hok δ h).2.1) (fun δ h => (hok δ h).2.2.1) (exPer J)
    (fun _ => rfl) hI hJ 2 (by
      intro δ hδ
      simp only [exLines, List.mem_cons, List.not_mem_nil, or_false, or_self] at hδ
      subst hδ
      exact le_refl (2:Int)) hist pw w
  refine ⟨Ls, elt, A, b, x, h1, (h2 x).2 fun _ _ => rfl, fun e he q hq => ?_⟩
  rw [h3 e he q hq]
  simp [exLines, List.range_succ]

/-- `C102_project_linear` applies. -/
example : ∃ (Ls : List (Layout ℝ)) (elt : List Int → Elt ℝ (PtData (exLines J).length (exLines J).length (nenOf ((exLines J).map Direction.ax)))) (A : Int × Int → ℝ)
    (b : Int → ℝ) (x : Int → ℝ), computeSystem Ls hist 1 ⟨elt, pw, w⟩ (project true (power 1)) = .ok (A, b) ∧
    (∀ i : Nat, i < total ((exLines J).map Direction.ax) 1 → ∑ j ∈ Finset.range (total ((exLines J).map Direction.ax) 1), A ((i:Int), (j:Int)) * x j = b i) ∧
    ∀ z, InBox (((exLines J).map Direction.ax).map Axis.nnp) z → x (Blk.unknown Ls ((exLines J).map Direction.ax) 1 z 0) = exNet z 0 + exNet z 1 := by
  obtain ⟨Ls, elt, S, hI, hJ⟩ := exAssembledId g2 g3 J []
  have hok := exLines_ok J
  obtain ⟨A, b, h1, x, h2, h3⟩ := C102_project_linear S (fun δ h => (hok δ h).1) (fun δ h => (hok δ h).2.1) (fun δ h => (hok δ h).2.2.1) (fun _ W h => by cases h)
    exNet (fun e => ⟨_, rfl, netPoints_on _ _ _⟩) hI (fun e he q hq => (hJ e he q hq).1) hist pw w
  refine ⟨Ls, elt, A, b, x, h1, (h2 x).2 fun _ _ => rfl, fun z hz => ?_⟩
  rw [h3 z hz]
  show ∑ l : Fin 2, exNet z l = _
  simp [Fin.sum_univ_succ]

end PetIGA.Demo
