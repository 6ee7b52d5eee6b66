import Verif.Props.GlobalDriver
import Mathlib.Analysis.Calculus.Deriv.Pow
/-! C106: if the residual callback is the gradient of an energy density, the assembled residual is the gradient of the total potential energy. -/
set_option linter.unusedSectionVars false
namespace PetIGA.Drv
open PetIGA.Ax PetIGA.Lay PetIGA.Asm PetIGA.Fix PetIGA.Grid PetIGA.Spec PetIGA.Part

variable {K : Type} [Field K] [LinearOrder K] [IsStrictOrderedRing K]
variable {P : Type}

/-! ### Specification -/

/-- Energy of the boundary data of one unknown with value `x`: `(x - v)²/2` if the value `v` is prescribed, else minus the work of the prescribed load. -/
noncomputable def boundaryEnergy (E : Elt ℝ P) (i : Nat) (x : ℝ) : ℝ :=
  match tableGet E.fixes.fix i with
  | some v => (x - v) ^ 2 / 2
  | none => -((tableGet E.fixes.flux i).getD 0 * x)

/-- The potential energy of an element: the integral of the density `en`, evaluated with the prescribed values in place, and the energy of the boundary data. -/
noncomputable def potential (E : Elt ℝ P) (en : P → List ℝ → ℝ) (U : List ℝ) : ℝ :=
  integral E (fun p => en p (withValues E U)) + ((List.range E.n).map fun i => boundaryEnergy E i (U.getD i 0)).sum

/-- The potential energy of a nodal field. -/
noncomputable def totalEnergy (axs : List (Axis K)) (dof : Nat) (elt : List Int → Elt ℝ P) (en : P → List ℝ → ℝ) (u : List Int → Nat → ℝ) : ℝ :=
  ((indices (axs.map Axis.nel)).map fun e => potential (elt e) en (valuesOf false axs dof u e)).sum

/-! ### Proofs -/

variable {g2 : Guess2} {g3 : Guess3} {size : Int} {procs : List Int} {axes axs : List (Axis K)} {Ls : List (Layout K)}

/-- The work of an assembled vector, element by element. -/
theorem sumVec_work (S : Setup g2 g3 false size procs axes axs Ls) (dof : Nat) (w : List Int → Nat → ℝ) (ρ : List Int → Nat → ℝ) :
    ((indices (axs.map Axis.nnp)).map fun z => ((List.range dof).map fun c => sumVec axs dof ρ z c * w z c).sum).sum =
      ((indices (axs.map Axis.nel)).map fun e => ((List.range (unknowns axs dof)).map fun j => ρ e j * (valuesOf false axs dof w e).getD j 0).sum).sum := by
  have e1 : ∀ z c, sumVec axs dof ρ z c * w z c = ((indices (axs.map Axis.nel)).map fun e => ((indices (nens axs)).map fun t =>
      if nodeOf false axs e t = z then ρ e (slot axs dof t c) * w z c else 0).sum).sum := by
    intro z c
    unfold sumVec
    rw [sum_mul]
    congr 1; apply List.map_congr_left; intro e _
    rw [sum_mul]
    congr 1; apply List.map_congr_left; intro t _
    rw [ite_mul, zero_mul]
  have e2 : ∀ z, ((List.range dof).map fun c => sumVec axs dof ρ z c * w z c).sum = ((indices (axs.map Axis.nel)).map fun e => ((indices (nens axs)).map fun t =>
      ((List.range dof).map fun c => if nodeOf false axs e t = z then ρ e (slot axs dof t c) * w z c else 0).sum).sum).sum := by
    intro z
    simp only [e1]
    rw [sum_swap]
    congr 1; apply List.map_congr_left; intro e _
    rw [sum_swap]
  simp only [e2]
  rw [sum_swap]
  congr 1; apply List.map_congr_left; intro e he
  rw [sum_unknowns, sum_swap]
  congr 1; apply List.map_congr_left; intro t ht
  have hin := nodeOf_inBox S ((mem_indices _ _).1 he) ht
  rw [sum_nodup (nodup_indices _) ((mem_indices _ _).2 hin)]
  · simp
  · intro y _ hy
    simp [Ne.symm hy]

theorem potential_deriv (E : Elt ℝ P) (en : P → List ℝ → ℝ) (R : P → Int → ℝ) (U W : List ℝ) (hU : U.length = E.n) (hW : W.length = E.n)
    (h : ∀ side, ∀ q ∈ E.points side, HasDerivAt (fun s => en q.data (withValues E (axpy U s W)))
      ((List.range E.n).map fun (j : Nat) => R q.data j * (withoutRates E W).getD j 0).sum 0) :
    HasDerivAt (fun s => potential E en (axpy U s W)) ((List.range E.n).map fun (i : Nat) => residualAt E U R i * W.getD i 0).sum 0 := by
  unfold potential
  have h1 := integral_deriv E (fun s p => en p (withValues E (axpy U s W)))
    (fun p => ((List.range E.n).map fun (j : Nat) => R p j * (withoutRates E W).getD j 0).sum) h
  rw [integral_sum E (fun (j : Nat) p => R p j)] at h1
  have h2 := hasDerivAt_sum (fun s i => boundaryEnergy E i ((axpy U s W).getD i 0))
    (fun i => (match tableGet E.fixes.fix i with | some v => U.getD i 0 - v | none => -(tableGet E.fixes.flux i).getD 0) * W.getD i 0) (List.range E.n) (by
      intro i hi
      rw [List.mem_range] at hi
      simp only [axpy_getD _ (hU.trans hW.symm) i (by omega)]
      have hl : HasDerivAt (fun s : ℝ => U.getD i 0 + s * W.getD i 0) (W.getD i 0) 0 := by
        simpa using ((hasDerivAt_id (0:ℝ)).mul_const (W.getD i 0)).const_add (U.getD i 0)
      unfold boundaryEnergy
      cases tableGet E.fixes.fix i with
      | some v =>
        have := ((hl.sub_const v).pow 2).div_const 2
        refine this.congr_deriv ?_
        simp
        ring
      | none =>
        have := (hl.const_mul ((tableGet E.fixes.flux i).getD 0)).neg
        refine this.congr_deriv ?_
        ring)
  refine (h1.fun_add h2).congr_deriv ?_
  rw [← List.sum_map_add]
  congr 1; apply List.map_congr_left; intro i hi
  rw [List.mem_range] at hi
  have hg : (withoutRates E W).getD i 0 = if (tableGet E.fixes.fix i).isSome then 0 else W.getD i 0 := by
    unfold withoutRates
    rw [List.getD_eq_getElem?_getD, List.getElem?_map, List.getElem?_range hi]
    rfl
  rw [hg]
  unfold residualAt
  cases tableGet E.fixes.fix i with
  | some v => simp
  | none => simp; ring

/-- **C106**.  If at every quadrature point the residual callback returns the gradient of the energy density `en`, the vector that `IGAComputeFunction` returns, on any
number of processes, is the gradient of the potential energy: along every field `w` the energy changes by the work of the residual. -/
theorem C106_gradient (axes axs : List (Axis K)) (dof : Nat) (elt : List Int → Elt ℝ P) (hE : Elements axs dof elt)
    (cbR : P → List ℝ → (Int → ℝ) → Res (Int → ℝ)) (R : P → List ℝ → Int → ℝ)
    (hR : ∀ U, Fills (unknowns axs dof) (fun p => cbR p U) (fun p => R p U)) (en : P → List ℝ → ℝ)
    (Good : P → List ℝ → Prop) (hD : ∀ p U W, Good p U → U.length = unknowns axs dof → W.length = unknowns axs dof →
      HasDerivAt (fun s => en p (axpy U s W)) ((List.range (unknowns axs dof)).map fun (j : Nat) => R p U j * W.getD j 0).sum 0) :
    ∃ f : (List Int → Nat → ℝ) → List Int → Nat → ℝ,
      ∀ {g2 : Guess2} {g3 : Guess3} {size : Int} {procs : List Int} {Ls : List (Layout K)},
        Setup g2 g3 false size procs axes axs Ls →
        (∀ hist pw w vecU junk u, Represents axs Ls dof vecU u →
          ∃ F, computeFunction Ls hist dof ⟨elt, pw, w⟩ cbR vecU junk = .ok F ∧ Represents axs Ls dof F (f u)) ∧
        ∀ u, AtPoints axs elt (fun e p => Good p (withValues (elt e) (valuesOf false axs dof u e))) →
          ∀ w, HasDerivAt (fun s => totalEnergy axs dof elt en (along u s w))
            ((indices (axs.map Axis.nnp)).map fun z => ((List.range dof).map fun c => f u z c * w z c).sum).sum 0 := by
  refine ⟨fun u => sumVec axs dof fun e => residualAt (elt e) (valuesOf false axs dof u e)
      (fun p => R p (withValues (elt e) (valuesOf false axs dof u e))), ?_⟩
  intro g2 g3 size procs Ls S
  refine ⟨fun hist pw w vecU junk u hu => ?_, ?_⟩
  · refine vec_global S hist dof vecU junk u hu _ _ fun r e he => ?_
    exact element_vec hE he (C77_function (elt e) (hE e he).1 cbR R (by rw [hE.m_eq he]; exact hR) _ _ _)
  · intro u hu w
    dsimp only
    rw [sumVec_work S]
    unfold totalEnergy
    refine hasDerivAt_sum _ _ _ fun e he => ?_
    have he := (mem_indices _ _).1 he
    have hn := hE.n_eq he
    simp only [valuesOf_along]
    have hl := fun u : List Int → Nat → ℝ => (valuesOf_length false axs dof u e).trans hn.symm
    rw [← hn]
    refine potential_deriv (elt e) en _ _ _ (hl u) (hl w) fun side q hq => ?_
    simp only [withValues_axpy (hl u) (hl w)]
    have := hD q.data (withValues (elt e) (valuesOf false axs dof u e)) (withoutRates (elt e) (valuesOf false axs dof w e))
      (hu e he side q hq) (by rw [withValues_length, hn]) (by rw [withoutRates_length, hn])
    rw [← hn] at this
    exact this

/-! ### The hypotheses can be met -/

theorem sum_squares {U W : List ℝ} {n : Nat} (hU : U.length = n) (hW : W.length = n) :
    HasDerivAt (fun s => ((List.range n).map fun i => (axpy U s W).getD i 0 * (axpy U s W).getD i 0).sum)
      ((List.range n).map fun i => 2 * U.getD i 0 * W.getD i 0).sum 0 :=
  hasDerivAt_sum _ _ _ fun i hi => square_deriv hU hW (List.mem_range.1 hi)

/-- The density `∑ u_i²` with the residual `2 u_i`, on four processes, with a prescribed value and a load in one of the elements. -/
example : ∃ Ls : List (Layout Rat), Setup exactGuess2 exactGuess3 false 4 [2,2] [exAx0, exAx1] exAxs Ls ∧
    ∃ f : (List Int → Nat → ℝ) → List Int → Nat → ℝ,
      (∀ hist pw w vecU junk u, Represents exAxs Ls 1 vecU u → ∃ F, computeFunction Ls hist 1 ⟨exElts, pw, w⟩
        (fun _ U A => .ok fun i => A i + 2 * U.getD i.toNat 0) vecU junk = .ok F ∧ Represents exAxs Ls 1 F (f u)) ∧
      ∀ u w, HasDerivAt (fun s => totalEnergy exAxs 1 exElts (fun _ U => ((List.range (unknowns exAxs 1)).map fun i => U.getD i 0 * U.getD i 0).sum) (along u s w))
        ((indices (exAxs.map Axis.nnp)).map fun z => ((List.range 1).map fun c => f u z c * w z c).sum).sum 0 := by
  obtain ⟨Ls, S⟩ := exSetup exactGuess2 exactGuess3
  obtain ⟨f, h⟩ := C106_gradient [exAx0, exAx1] exAxs 1 exElts exElts_elements (fun _ U A => .ok fun i => A i + 2 * U.getD i.toNat 0)
    (fun _ U i => 2 * U.getD i.toNat 0) (fun U => fills_self _ _) (fun _ U => ((List.range (unknowns exAxs 1)).map fun i => U.getD i 0 * U.getD i 0).sum)
    (fun _ _ => True) (fun p U W _ hU hW => sum_squares hU hW)
  exact ⟨Ls, S, f, (h S).1, fun u w => (h S).2 u (fun _ _ _ _ _ => trivial) w⟩

end PetIGA.Drv
