import Verif.Props.Poisson
import Verif.Props.ProjectEx
/-
A case to which `C99_poisson` applies: two processes, degree 2 in both directions, Simpson's rule, the boundary values from a table.
-/
set_option linter.unusedSectionVars false
namespace PetIGA.Itg
open PetIGA.Quad PetIGA.Drv PetIGA.Spec PetIGA.Ax PetIGA.Lay PetIGA.Asm PetIGA.Rule PetIGA.Grid PetIGA.Part PetIGA.Ker PetIGA.SetUp PetIGA.PCA PetIGA.Fix
open Polynomial

/-- Both components are prescribed on all sides (the values come from the table). -/
def exOpsP : List (Form.Op ℝ) := [.setValue 0 0 0 1, .setValue 0 0 1 1, .setValue 0 1 0 1, .setValue 0 1 1 1,
  .setValue 1 0 0 1, .setValue 1 0 1 1, .setValue 1 1 0 1, .setValue 1 1 1 1]

theorem exPrescribedP (J) (UG) {z : List Int} {i : Nat} (hz : InBox (((exLines J).map Direction.ax).map Axis.nnp) z) (hi : i < 2)
    (hn : ¬ Inner ((exLines J).map Direction.ax) z) : (Fix.prescribedAt ((exLines J).map Direction.ax) exOpsP UG (z, (i:Int))).isSome := by
  have hd : nodeDirs ((exLines J).map Direction.ax) = [⟨0, 4, false⟩, ⟨0, 4, false⟩] := by
    simp [nodeDirs, exLines, exLine, exRealAx, knotAxis, exU_spans]
  have hnn : ((exLines J).map Direction.ax).map Axis.nnp = [5, 5] := by
    simp [exLines, exLine, exReal_nnp]
  rw [hnn] at hz
  cases hz with
  | cons h0 hz =>
  cases hz with
  | cons h1 hz =>
  cases hz
  rename_i a b
  have hab : a = 0 ∨ a = 4 ∨ b = 0 ∨ b = 4 := by
    by_contra hc
    push Not at hc
    refine hn (.cons ⟨by omega, ?_⟩ (.cons ⟨by omega, ?_⟩ .nil))
    · show a < exRealAx.nnp - 1
      rw [exReal_nnp]; omega
    · show b < exRealAx.nnp - 1
      rw [exReal_nnp]; omega
  unfold Fix.prescribedAt
  rw [hd, Option.isSome_map]
  have hi' : i = 0 ∨ i = 1 := by omega
  obtain ⟨h0a, h0b⟩ := h0
  obtain ⟨h1a, h1b⟩ := h1
  rcases hi' with rfl | rfl <;> interval_cases a <;> interval_cases b <;> first
    | (simp [nodePrescribed, sides, OnGridSide, exOpsP, Form.valueEvents, inForce, BCEvent.legal, List.range_succ]; done)
    | omega

/-- The local copy of a table. -/
theorem table_exists (dirs : List EDir) (dof : Nat) (G : List Int → Int → ℝ) : ∃ U : Int → ℝ, ∀ x f, InBox (Fix.nens dirs) x → 0 ≤ f ∧ f < (dof:Int) →
    U (f + flat (Fix.nens dirs) x * dof) = G (gridNode dirs x) f := by
  classical
  have key : ∀ k : Int, ∃ r : ℝ, ∀ x f, InBox (Fix.nens dirs) x → 0 ≤ f ∧ f < (dof:Int) → k = f + flat (Fix.nens dirs) x * dof → r = G (gridNode dirs x) f := by
    intro k
    by_cases h : ∃ x f, InBox (Fix.nens dirs) x ∧ (0 ≤ f ∧ f < (dof:Int)) ∧ k = f + flat (Fix.nens dirs) x * dof
    · obtain ⟨x, f, hx, hf, hk⟩ := h
      refine ⟨G (gridNode dirs x) f, fun y g hy hg hk' => ?_⟩
      have e : f + flat (Fix.nens dirs) x * dof = g + flat (Fix.nens dirs) y * dof := by rw [← hk, ← hk']
      have hd : (0:Int) < dof := by omega
      have e1 : f = g := by
        have := congrArg (· % (dof:Int)) e
        simp only [Int.add_mul_emod_self_right] at this
        rwa [Int.emod_eq_of_lt hf.1 hf.2, Int.emod_eq_of_lt hg.1 hg.2] at this
      subst e1
      have e2 : flat (Fix.nens dirs) x = flat (Fix.nens dirs) y := by
        have : flat (Fix.nens dirs) x * dof = flat (Fix.nens dirs) y * dof := by omega
        exact Int.eq_of_mul_eq_mul_right hd.ne' this
      rw [flat_inj hx hy e2]
    · exact ⟨0, fun x f hx hf hk => absurd ⟨x, f, hx, hf, hk⟩ h⟩
  choose U hU using key
  exact ⟨U, fun x f hx hf => hU _ x f hx hf rfl⟩

/-- Elements with these conditions and the values from `G`. -/
theorem exEltP (J : Bsp.Junk ℝ) (G : List Int → Int → ℝ) (qs : List Int → List (QP ℝ (PtData (exLines J).length 2 (nenOf ((exLines J).map Direction.ax))))) :
    ∃ elt : List Int → Elt ℝ (PtData (exLines J).length 2 (nenOf ((exLines J).map Direction.ax))), ∀ e, (elt e).points none = qs e ∧ (∀ a b, (elt e).visit a b = false) ∧
      (InBox (((exLines J).map Direction.ax).map Axis.nel) e → Built ((exLines J).map Direction.ax) exOpsP 2 (some G) e (elt e)) := by
  have hw : ∀ ax ∈ (exLines J).map Direction.ax, WF ax := by
    intro ax hax
    simp only [exLines, exLine, List.map_cons, List.map_nil, List.mem_cons, List.not_mem_nil, or_false, or_self] at hax
    subst hax
    exact exRealAx_wf
  choose U hU using fun e => table_exists (elemDirs ((exLines J).map Direction.ax) e) 2 (fun X f => G (wrapNode ((exLines J).map Direction.ax) X) f)
  let ctx : List Int → Ctx ℝ := fun e => ⟨elemDirs ((exLines J).map Direction.ax) e, 2, Form.run Form.create exOpsP, some (U e), fun a => a, fun _ _ => 2⟩
  refine ⟨fun e => ⟨0, nenOf ((exLines J).map Direction.ax), nenOf ((exLines J).map Direction.ax), 2, (match build (ctx e) with | .ok s => s | _ => ⟨[], []⟩), e,
    (exLines J).map fun δ => δ.ax.nel, fun _ _ => false, fun _ => qs e⟩, fun e => ⟨rfl, fun _ _ => rfl, fun he => ?_⟩⟩
  have hG : IsGhosted (ctx e) ((some G).map fun G X f => G (wrapNode ((exLines J).map Direction.ax) X) f) := fun x f hx hf => hU e x f hx hf
  refine ⟨le_refl _, rfl, rfl, rfl, ctx e, rfl, rfl, rfl, hG, ?_⟩
  obtain ⟨s, h, -⟩ := C36_constrained_in_every_element ((exLines J).map Direction.ax) (fun ax h => (hw ax h).toPreWF) e (elemRange hw he) (ctx e) rfl exOpsP rfl _ hG
  show build (ctx e) = .ok (match build (ctx e) with | .ok s => s | _ => ⟨[], []⟩)
  rw [h]

theorem exParts (J) : ∀ δ ∈ exLines J, PartsOk δ := by
  intro δ hδ
  simp only [exLines, List.mem_cons, List.not_mem_nil, or_false, or_self] at hδ
  subst hδ
  refine ⟨⟨?_, ?_⟩, rfl, ?_⟩
  · show exU 1 = exU 2
    norm_num [exU]
  · show exU (7 - 2) = exU (7 - 1)
    norm_num [exU]
  · intro P hP
    have h2 : P.natDegree ≤ 2 := hP
    exact simpson_exact P (by omega)

theorem exNoLoads : NoLoads exOpsP := by
  intro a s k v
  simp [exOpsP, Form.loadEvents, inForce]

/-- `C99_poisson` applies to the problems `-Δu = -Δ(x y²)`, `-Δu = -Δ(x² - y)`. -/
example (g2 : Guess2) (g3 : Guess3) (J : Bsp.Junk ℝ) (hist : Nat → Hist) (pw : Nat → List Int → PWork ℝ) (w : Nat → List Int → Work ℝ) :
    ∃ (Ls : List (Layout ℝ)) (elt : List Int → Elt ℝ (PtData (exLines J).length 2 (nenOf ((exLines J).map Direction.ax)))) (A : Int × Int → ℝ) (b : Int → ℝ)
      (v : List Int → Nat → ℝ),
      computeSystem Ls hist 2 ⟨elt, pw, w⟩ (fun p A B => .ok (fun i => A i + gramEntry 2 (List.ofFn fun l p a => p.shape.t1 l a) p i,
        fun i => B i + loadEntry 2 [(fun p a => p.shape.t0 a, fun p i => - laplacian (exLines J).length (exG i) p.u)] p i)) = .ok (A, b) ∧
      (∀ e, InBox ((exLines J).map fun δ => δ.ax.nel) e → ∀ q ∈ (elt e).points none, ∀ i, i < 2 →
        combine ((exLines J).map Direction.ax) e q.data.shape.t0 v i = exG i q.data.u) ∧ ∀ x : Int → ℝ,
      (∀ i : Nat, i < total ((exLines J).map Direction.ax) 2 → ∑ j ∈ Finset.range (total ((exLines J).map Direction.ax) 2), A ((i:Int), (j:Int)) * x j = b i) ↔
      ∀ z (i : Nat), InBox (((exLines J).map Direction.ax).map Axis.nnp) z → i < 2 → x (Blk.unknown Ls ((exLines J).map Direction.ax) 2 z i) = v z i := by
  obtain ⟨Ls, S⟩ := exRealSetup g2 g3
  have S' : Setup g2 g3 false 2 [2,1] [exRealAx, exRealAx] ((exLines J).map Direction.ax) Ls := S
  have hok := exLines_ok J
  have hw := setup_facts S'
  obtain ⟨mem⟩ := exMem J
  have htab : ∀ e, InBox ((exLines J).map fun δ => δ.ax.nel) e →
      ∃ qs, tabulateElement (exPtB J) ((exLines J).map Direction.B) e mem = .ok qs := fun e he =>
    tabulateElement_ok rfl hw.1 hw.2.1 (fun δ h => (hok δ h).1) (fun δ h => (hok δ h).2.1) hw.2.2 (exPtB J) (.inl rfl) he mem
  choose! qs hqs using htab
  choose u hu using fun i => C97_points S' (fun δ h => (hok δ h).1) (fun δ h => (hok δ h).2.1) (exPer J) (exG i) (exG_poly J i)
  obtain ⟨elt, helt⟩ := exEltP J (fun z f => u f.toNat z) qs
  have hI : Assembled (exLines J) exOpsP 2 (some fun z f => u f.toNat z) (fun _ => exPtB J) elt := by
    refine ⟨fun e he => (helt e).2.2 he, fun e he => ⟨mem, ?_⟩, fun e _ => (helt e).2.1⟩
    rw [(helt e).1]
    exact hqs e he
  have hvg : ∀ e, InBox ((exLines J).map fun δ => δ.ax.nel) e → ∀ q ∈ (elt e).points none, ∀ i, i < 2 →
      combine ((exLines J).map Direction.ax) e q.data.shape.t0 (fun z i => u i z) i = exG i q.data.u := by
    intro e he q hq i _
    rw [(helt e).1] at hq
    exact (hu i 2 (exPtB J) rfl e he mem _ (hqs e he) q hq).1 i
  obtain ⟨A, b, h1, h2⟩ := C99_poisson S' (fun δ h => (hok δ h).1) (fun δ h => (hok δ h).2.1) (fun δ h => (hok δ h).2.2.1) (exParts J) exNoLoads
    (fun _ => ⟨le_refl _, rfl, rfl, rfl⟩) (fun _ => rfl) hI (fun z i hz hi hn => exPrescribedP J _ hz hi hn) _ _ _ exG (exG_poly J) (fillsSys_add _ _ _ _)
    (gramEntry_gram 2 _) (loadEntry_load 2 _) hist pw w (fun z i => u i z) (fun z i hz hi v0 hv => by
      unfold Fix.prescribedAt at hv
      obtain ⟨a, -, ha⟩ := Option.map_eq_some_iff.1 hv
      simpa [fromTable] using ha) hvg
  exact ⟨Ls, elt, A, b, _, h1, hvg, h2⟩

end PetIGA.Itg
