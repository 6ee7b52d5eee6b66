import Verif.Props.Laplace
import Verif.Props.MassEx
/-
A case to which the theorems of Props/Laplace apply: two processes, degree 2, Simpson's rule, one side constrained.
-/
set_option linter.unusedSectionVars false
namespace PetIGA.Itg
open PetIGA.Quad PetIGA.Drv PetIGA.Spec PetIGA.Ax PetIGA.Lay PetIGA.Asm PetIGA.Rule PetIGA.Grid PetIGA.Part PetIGA.Ker PetIGA.SetUp PetIGA.PCA PetIGA.Fix

/-- The entries of the matrix of a sum of products at a point. -/
noncomputable def gramEntry {P : Type} {nen : Nat} (dof : Nat) (L : List (P → Fin nen → ℝ)) (p : P) (q : Int) : ℝ :=
  let i := q.toNat / (nen * dof)
  let j := q.toNat % (nen * dof)
  if h : i / dof < nen ∧ j / dof < nen then
    if i % dof = j % dof then 1 * (L.map fun g => g p ⟨i / dof, h.1⟩ * g p ⟨j / dof, h.2⟩).sum else 0
  else 0

theorem gramEntry_gram {P : Type} {nen : Nat} (dof : Nat) (L : List (P → Fin nen → ℝ)) : GramForm dof nen L (fun _ => 1) (gramEntry dof L) := by
  intro p a b c e hc he
  have h1 : (b:Nat) * dof + e < nen * dof := by
    have h := b.2
    calc (b:Nat) * dof + e < (b:Nat) * dof + dof := by omega
      _ = ((b:Nat) + 1) * dof := by ring
      _ ≤ nen * dof := Nat.mul_le_mul_right _ h
  have e1 : (((a:Nat) * dof + c) * (nen * dof) + ((b:Nat) * dof + e)) / (nen * dof) = (a:Nat) * dof + c := by
    rw [mul_comm, Nat.mul_add_div (by omega), Nat.div_eq_of_lt h1, add_zero]
  have e2 : (((a:Nat) * dof + c) * (nen * dof) + ((b:Nat) * dof + e)) % (nen * dof) = (b:Nat) * dof + e := by
    rw [mul_comm, Nat.mul_add_mod, Nat.mod_eq_of_lt h1]
  have e3 : ∀ x y : Nat, y < dof → (x * dof + y) / dof = x ∧ (x * dof + y) % dof = y := by
    intro x y hy
    rw [mul_comm]
    exact ⟨by rw [Nat.mul_add_div (by omega), Nat.div_eq_of_lt hy, add_zero], by rw [Nat.mul_add_mod, Nat.mod_eq_of_lt hy]⟩
  unfold gramEntry
  simp only [Int.toNat_natCast, e1, e2, (e3 _ _ hc).1, (e3 _ _ hc).2, (e3 _ _ he).1, (e3 _ _ he).2, a.2, b.2, and_self, dite_true, Fin.eta]

/-- First derivatives, B-splines, no geometry. -/
noncomputable def exPtB (J) : PtIn (exLines J).length 2 (Fin (nenOf ((exLines J).map Direction.ax))) := ⟨1, none, none, none, false, true⟩

/-- Both components have a value on a side. -/
def exOpsR : List (Form.Op ℝ) := [.setValue 0 0 0 5, .setValue 1 1 1 (-2)]

noncomputable def exCtxR (e : List Int) : Ctx ℝ := ⟨elemDirs [exRealAx, exRealAx] e, 2, Form.run Form.create exOpsR, none, fun a => a, fun _ _ => 2⟩

noncomputable def exEltR (J : Bsp.Junk ℝ) (qs : List Int → List (QP ℝ (PtData (exLines J).length 2 (nenOf ((exLines J).map Direction.ax))))) (e : List Int) :
    Elt ℝ (PtData (exLines J).length 2 (nenOf ((exLines J).map Direction.ax))) :=
  ⟨0, nenOf ((exLines J).map Direction.ax), nenOf ((exLines J).map Direction.ax), 2, (match build (exCtxR e) with | .ok s => s | _ => ⟨[], []⟩), e,
    (exLines J).map fun δ => δ.ax.nel, fun _ _ => false, fun _ => qs e⟩

/-- The same elements without conditions. -/
noncomputable def exEltN (J : Bsp.Junk ℝ) (qs : List Int → List (QP ℝ (PtData (exLines J).length 2 (nenOf ((exLines J).map Direction.ax))))) (e : List Int) :
    Elt ℝ (PtData (exLines J).length 2 (nenOf ((exLines J).map Direction.ax))) :=
  ⟨0, nenOf ((exLines J).map Direction.ax), nenOf ((exLines J).map Direction.ax), 2, ⟨[], []⟩, e, (exLines J).map fun δ => δ.ax.nel, fun _ _ => false, fun _ => qs e⟩

theorem exEltR_built (J) (qs) (e : List Int) (he : InBox (((exLines J).map Direction.ax).map Axis.nel) e) :
    Built ((exLines J).map Direction.ax) exOpsR 2 none e (exEltR J qs e) := by
  have hw : ∀ ax ∈ (exLines J).map Direction.ax, WF ax := by
    intro ax hax
    simp only [exLines, exLine, List.map_cons, List.map_nil, List.mem_cons, List.not_mem_nil, or_false, or_self] at hax
    subst hax
    exact exRealAx_wf
  refine ⟨le_refl _, rfl, rfl, rfl, exCtxR e, rfl, rfl, rfl, trivial, ?_⟩
  obtain ⟨s, h, -⟩ := C36_constrained_in_every_element ((exLines J).map Direction.ax) (fun ax h => (hw ax h).toPreWF) e (elemRange hw he) (exCtxR e) rfl exOpsR rfl none trivial
  show build (exCtxR e) = .ok (match build (exCtxR e) with | .ok s => s | _ => ⟨[], []⟩)
  rw [h]

theorem exReal_nnp : exRealAx.nnp = 5 := by
  show computeNnp false 2 7 exU = 5
  simp [computeNnp]

theorem exPrescribed (J) : (Fix.prescribedAt ((exLines J).map Direction.ax) exOpsR none ([0, 0], (0:Int))).isSome ∧
    (Fix.prescribedAt ((exLines J).map Direction.ax) exOpsR none ([0, 4], (1:Int))).isSome := by
  have hd : nodeDirs ((exLines J).map Direction.ax) = [⟨0, 4, false⟩, ⟨0, 4, false⟩] := by
    simp [nodeDirs, exLines, exLine, exRealAx, knotAxis, exU_spans]
  unfold Fix.prescribedAt
  rw [hd]
  simp [nodePrescribed, sides, OnGridSide, exOpsR, Form.valueEvents, inForce, BCEvent.legal, List.range_succ]

theorem exMem (J : Bsp.Junk ℝ) : Nonempty (Nat → Tab ℝ (exLines J).length Nat × PtOut (exLines J).length 2 (Fin (nenOf ((exLines J).map Direction.ax)))) :=
  ⟨fun _ => (⟨fun _ => 0, fun _ _ => 0, fun _ _ _ => 0, fun _ _ _ _ => 0, fun _ _ _ _ _ => 0⟩,
     ⟨⟨fun _ => 0, fun _ _ => 0, fun _ _ _ => 0, fun _ _ _ _ => 0, fun _ _ _ _ _ => 0⟩,
      ⟨fun _ => 0, fun _ _ => 0, fun _ _ _ => 0, fun _ _ _ _ => 0, fun _ _ _ _ _ => 0⟩, 0,
      ⟨fun _ => 0, fun _ _ => 0, fun _ _ _ => 0, fun _ _ _ _ => 0, fun _ _ _ _ _ => 0⟩,
      ⟨fun _ => 0, fun _ _ => 0, fun _ _ _ => 0, fun _ _ _ _ => 0, fun _ _ _ _ _ => 0⟩, 0, fun _ => 0, 0⟩)⟩

/-- The gradients. -/
def grads (d nsd nen : Nat) : List (PtData d nsd nen → Fin nen → ℝ) := List.ofFn fun i p a => p.shape.t1 i a

/-- `C88_dirichlet` and `C88_solvable` apply: two processes, degree 2, Simpson's rule, two components, each with a value on a side. -/
example (g2 : Guess2) (g3 : Guess3) (J : Bsp.Junk ℝ) (hist : Nat → Hist) (pw : Nat → List Int → PWork ℝ) (w : Nat → List Int → Work ℝ) :
    ∃ (Ls : List (Layout ℝ)) (elt : List Int → Elt ℝ (PtData (exLines J).length 2 (nenOf ((exLines J).map Direction.ax)))),
    ∃ A b, computeSystem Ls hist 2 ⟨elt, pw, w⟩ (fun p A B => .ok (fun i => A i + gramEntry 2 (grads _ _ _) p i, fun i => B i + i)) = .ok (A, b) ∧
      PosDef (total ((exLines J).map Direction.ax) 2) fun i j => A (i, j) := by
  obtain ⟨Ls, S⟩ := exRealSetup g2 g3
  have S' : Setup g2 g3 false 2 [2,1] [exRealAx, exRealAx] ((exLines J).map Direction.ax) Ls := S
  have hok := exLines_ok J
  have hw := setup_facts S'
  obtain ⟨mem⟩ := exMem J
  have htab : ∀ e, InBox ((exLines J).map fun δ => δ.ax.nel) e →
      ∃ qs, tabulateElement (exPtB J) ((exLines J).map Direction.B) e mem = .ok qs := fun e he =>
    tabulateElement_ok rfl hw.1 hw.2.1 (fun δ h => (hok δ h).1) (fun δ h => (hok δ h).2.1) hw.2.2 (exPtB J) (.inl rfl) he mem
  choose! qs hqs using htab
  refine ⟨Ls, exEltR J qs, ?_⟩
  refine C88_dirichlet S' (fun δ h => (hok δ h).1) (fun δ h => (hok δ h).2.1) (fun δ h => (hok δ h).2.2.1) (c := fun _ => exPtB J)
    (ops := exOpsR) (UG := none) (fun e => ⟨le_refl _, rfl, rfl, rfl⟩) ⟨exEltR_built J qs, fun e he => ⟨mem, hqs e he⟩, fun _ _ _ _ => rfl⟩ ?_ ?_ _
    (gramEntry 2 (grads _ _ _)) (fun _ i => i) (fun _ => 1) (grads _ _ _) ?_ (gramEntry_gram 2 _) ?_ (fun _ _ _ _ => one_pos) hist pw w
  · intro e he q hq
    obtain ⟨pts, hp, N, m, o, -, ho, rfl⟩ := (tabulated_points rfl hw.1 hw.2.1 (fun δ h => (hok δ h).1) (fun δ h => (hok δ h).2.1) hw.2.2 (exPtB J) he mem (hqs e he)).2 q hq
    exact detJac_pos ho (lines_J hw.2.2 he (mem_tensorPoints hp)) rfl (.inl rfl)
  · intro i hi
    have hn : ((exLines J).map Direction.ax).map Axis.nnp = [5, 5] := by
      show [exRealAx.nnp, exRealAx.nnp] = _
      rw [exReal_nnp]
    rw [hn]
    obtain rfl | rfl : i = 0 ∨ i = 1 := by omega
    · exact ⟨[0, 0], .cons (by omega) (.cons (by omega) .nil), (exPrescribed J).1⟩
    · exact ⟨[0, 4], .cons (by omega) (.cons (by omega) .nil), (exPrescribed J).2⟩
  · intro p A B hA hB
    exact ⟨_, _, rfl, fun i h0 h1 => by rw [hA i h0 h1, zero_add], fun i h0 h1 => by rw [hB i h0 h1, zero_add]⟩
  · intro i
    exact List.mem_ofFn.2 ⟨i, rfl⟩

/-- `C88_constants` applies to the same elements without conditions. -/
example (g2 : Guess2) (g3 : Guess3) (J : Bsp.Junk ℝ) (hist : Nat → Hist) (pw : Nat → List Int → PWork ℝ) (w : Nat → List Int → Work ℝ) :
    ∃ (Ls : List (Layout ℝ)) (elt : List Int → Elt ℝ (PtData (exLines J).length 2 (nenOf ((exLines J).map Direction.ax)))),
    ∃ A, computeMatrix Ls hist 2 ⟨elt, pw, w⟩ (fun p A => .ok fun i => A i + gramEntry 2 (grads _ _ _) p i) = .ok A ∧
      ∀ i : Nat, i < total ((exLines J).map Direction.ax) 2 →
        ∑ j ∈ Finset.range (total ((exLines J).map Direction.ax) 2), A ((i:Int), (j:Int)) = 0 := by
  obtain ⟨Ls, S⟩ := exRealSetup g2 g3
  have S' : Setup g2 g3 false 2 [2,1] [exRealAx, exRealAx] ((exLines J).map Direction.ax) Ls := S
  have hok := exLines_ok J
  have hw := setup_facts S'
  obtain ⟨mem⟩ := exMem J
  have htab : ∀ e, InBox ((exLines J).map fun δ => δ.ax.nel) e →
      ∃ qs, tabulateElement (exPtB J) ((exLines J).map Direction.B) e mem = .ok qs := fun e he =>
    tabulateElement_ok rfl hw.1 hw.2.1 (fun δ h => (hok δ h).1) (fun δ h => (hok δ h).2.1) hw.2.2 (exPtB J) (.inl rfl) he mem
  choose! qs hqs using htab
  refine ⟨Ls, exEltN J qs, ?_⟩
  obtain ⟨A, h1, -, h2⟩ := C88_constants S' (fun δ h => (hok δ h).1) (fun δ h => (hok δ h).2.1) (fun δ h => (hok δ h).2.2.1) (c := fun _ => exPtB J)
    (elt := exEltN J qs) (fun e => ⟨le_refl _, rfl, rfl, rfl⟩) ⟨fun e he => ⟨⟨le_refl _, rfl, ⟨by simp [exEltN], by simp [exEltN]⟩, ⟨by simp [exEltN], by simp [exEltN]⟩⟩, rfl, rfl⟩, fun e he => ⟨mem, hqs e he⟩, fun _ _ _ _ => rfl⟩ (by
      intro e he q hq
      obtain ⟨pts, hp, N, m, o, -, ho, rfl⟩ := (tabulated_points rfl hw.1 hw.2.1 (fun δ h => (hok δ h).1) (fun δ h => (hok δ h).2.1) hw.2.2 (exPtB J) he mem (hqs e he)).2 q hq
      exact detJac_pos ho (lines_J hw.2.2 he (mem_tensorPoints hp)) rfl (.inl rfl)) _ (gramEntry 2 (grads _ _ _)) (fun _ => 1)
    (fills_self _ _) (gramEntry_gram 2 _) (fun _ _ _ _ => one_pos) hist pw w
  refine ⟨A, h1, fun i hi => ?_⟩
  have := ((h2 fun _ => 1).2.2 fun _ _ _ _ _ _ => rfl) i hi
  simpa using this

end PetIGA.Itg
