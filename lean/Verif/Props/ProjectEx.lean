import Verif.Props.Project
/-
Cases to which the theorems of Props/Reproduce and Props/Project apply: two processes, degree 2, Simpson's rule.
-/
set_option linter.unusedSectionVars false
namespace PetIGA.Itg
open PetIGA.Quad PetIGA.Drv PetIGA.Spec PetIGA.Ax PetIGA.Lay PetIGA.Asm PetIGA.Rule PetIGA.Grid PetIGA.Part PetIGA.Ker PetIGA.SetUp PetIGA.PCA PetIGA.Fix
open Polynomial

/-- The entries of a load vector at a point. -/
noncomputable def loadEntry {P : Type} {nen : Nat} (dof : Nat) (L : List ((P → Fin nen → ℝ) × (P → Nat → ℝ))) (p : P) (q : Int) : ℝ :=
  if h : q.toNat / dof < nen then 1 * (L.map fun g => g.1 p ⟨q.toNat / dof, h⟩ * g.2 p (q.toNat % dof)).sum else 0

theorem loadEntry_load {P : Type} {nen : Nat} (dof : Nat) (L : List ((P → Fin nen → ℝ) × (P → Nat → ℝ))) :
    LoadForm dof nen L (fun _ => 1) (loadEntry dof L) := by
  intro p a c hc
  have e3 : ((a:Nat) * dof + c) / dof = a ∧ ((a:Nat) * dof + c) % dof = c := by
    rw [mul_comm]
    exact ⟨by rw [Nat.mul_add_div (by omega), Nat.div_eq_of_lt hc, add_zero], by rw [Nat.mul_add_mod, Nat.mod_eq_of_lt hc]⟩
  unfold loadEntry
  simp only [Int.toNat_natCast, e3.1, e3.2, a.2, dite_true, Fin.eta]

/-- Adds its contributions to what is there. -/
theorem fillsSys_add {P : Type} (m n : Nat) (k r : P → Int → ℝ) : FillsSys m n (fun p A B => .ok (fun i => A i + k p i, fun i => B i + r p i)) k r := by
  intro p A B hA hB
  exact ⟨_, _, rfl, fun i h0 h1 => by rw [hA i h0 h1, zero_add], fun i h0 h1 => by rw [hB i h0 h1, zero_add]⟩

noncomputable def exCtxE (e : List Int) : Ctx ℝ := ⟨elemDirs [exRealAx, exRealAx] e, 2, Form.run Form.create [], none, fun a => a, fun _ _ => 2⟩

/-- Elements without conditions. -/
noncomputable def exEltE {nsd : Nat} (J : Bsp.Junk ℝ) (qs : List Int → List (QP ℝ (PtData (exLines J).length nsd (nenOf ((exLines J).map Direction.ax))))) (e : List Int) :
    Elt ℝ (PtData (exLines J).length nsd (nenOf ((exLines J).map Direction.ax))) :=
  ⟨0, nenOf ((exLines J).map Direction.ax), nenOf ((exLines J).map Direction.ax), 2, (match build (exCtxE e) with | .ok s => s | _ => ⟨[], []⟩), e,
    (exLines J).map fun δ => δ.ax.nel, fun _ _ => false, fun _ => qs e⟩

theorem exEltE_built {nsd : Nat} (J) (qs) (e : List Int) (he : InBox (((exLines J).map Direction.ax).map Axis.nel) e) :
    Built ((exLines J).map Direction.ax) [] 2 none e (exEltE (nsd := nsd) J qs e) := by
  have hw : ∀ ax ∈ (exLines J).map Direction.ax, WF ax := by
    intro ax hax
    simp only [exLines, exLine, List.map_cons, List.map_nil, List.mem_cons, List.not_mem_nil, or_false, or_self] at hax
    subst hax
    exact exRealAx_wf
  refine ⟨le_refl _, rfl, rfl, rfl, exCtxE e, rfl, rfl, rfl, trivial, ?_⟩
  obtain ⟨s, h, -⟩ := C36_constrained_in_every_element ((exLines J).map Direction.ax) (fun ax h => (hw ax h).toPreWF) e (elemRange hw he) (exCtxE e) rfl [] rfl none trivial
  show build (exCtxE e) = .ok (match build (exCtxE e) with | .ok s => s | _ => ⟨[], []⟩)
  rw [h]

/-- `x y²` and `x² - y`. -/
noncomputable def exG (i : Nat) (xs : List ℝ) : ℝ := if i = 0 then xs.getD 0 0 * xs.getD 1 0 ^ 2 else xs.getD 0 0 ^ 2 - xs.getD 1 0

theorem exG_poly (J) (i : Nat) : PolyOn (fun xs => xs.length = (exLines J).length) ((exLines J).map fun δ => δ.ax.p.toNat) (exG i) := by
  by_cases hi : i = 0
  · refine ⟨[[X, X^2]], ?_, ?_⟩
    · intro P hP
      simp only [List.mem_cons, List.not_mem_nil, or_false] at hP
      subst hP
      refine .cons ?_ (.cons ?_ .nil)
      · show natDegree _ ≤ 2
        compute_degree
        omega
      · show natDegree _ ≤ 2
        compute_degree
    · intro xs hx
      obtain ⟨a, b, rfl⟩ : ∃ a b, xs = [a, b] := by
        match xs, hx with
        | [a, b], _ => exact ⟨a, b, rfl⟩
      simp [exG, hi, evalProd]
  · refine ⟨[[X^2, 1], [1, -X]], ?_, ?_⟩
    · intro P hP
      simp only [List.mem_cons, List.not_mem_nil, or_false] at hP
      rcases hP with rfl | rfl
      · refine .cons ?_ (.cons ?_ .nil)
        · show natDegree _ ≤ 2
          compute_degree
        · show natDegree _ ≤ 2
          simp
      · refine .cons ?_ (.cons ?_ .nil)
        · show natDegree _ ≤ 2
          simp
        · show natDegree _ ≤ 2
          compute_degree
          omega
    · intro xs hx
      obtain ⟨a, b, rfl⟩ : ∃ a b, xs = [a, b] := by
        match xs, hx with
        | [a, b], _ => exact ⟨a, b, rfl⟩
      simp [exG, hi, evalProd]
      ring

theorem exPer (J) : ∀ δ ∈ exLines J, δ.ax.periodic = false := by
  intro δ hδ
  simp only [exLines, List.mem_cons, List.not_mem_nil, or_false, or_self] at hδ
  subst hδ
  rfl

/-- `C97_points` and `C98_l2` apply. -/
example (g2 : Guess2) (g3 : Guess3) (J : Bsp.Junk ℝ) (hist : Nat → Hist) (pw : Nat → List Int → PWork ℝ) (w : Nat → List Int → Work ℝ) :
    ∃ (Ls : List (Layout ℝ)) (elt : List Int → Elt ℝ (PtData (exLines J).length 2 (nenOf ((exLines J).map Direction.ax)))),
    ∃ A b, computeSystem Ls hist 2 ⟨elt, pw, w⟩ (fun p A B => .ok (fun i => A i + gramEntry 2 [fun p a => p.shape.t0 a] p i,
        fun i => B i + loadEntry 2 [(fun p a => p.shape.t0 a, fun p i => exG i p.u)] p i)) = .ok (A, b) ∧
      ∃ x : Int → ℝ, (∀ i : Nat, i < total ((exLines J).map Direction.ax) 2 →
        ∑ j ∈ Finset.range (total ((exLines J).map Direction.ax) 2), A ((i:Int), (j:Int)) * x j = b i) ∧
        ∀ e, InBox ((exLines J).map fun δ => δ.ax.nel) e → ∀ q ∈ (elt e).points none, ∀ i, i < 2 →
          combine ((exLines J).map Direction.ax) e q.data.shape.t0 (fun z i => x (Blk.unknown Ls ((exLines J).map Direction.ax) 2 z i)) i = exG i q.data.u := by
  obtain ⟨Ls, S⟩ := exRealSetup g2 g3
  have S' : Setup g2 g3 false 2 [2,1] [exRealAx, exRealAx] ((exLines J).map Direction.ax) Ls := S
  have hok := exLines_ok J
  have hw := setup_facts S'
  obtain ⟨mem⟩ := exMem J
  have htab : ∀ e, InBox ((exLines J).map fun δ => δ.ax.nel) e →
      ∃ qs, tabulateElement (exPtB J) ((exLines J).map Direction.B) e mem = .ok qs := fun e he =>
    tabulateElement_ok rfl hw.1 hw.2.1 (fun δ h => (hok δ h).1) (fun δ h => (hok δ h).2.1) hw.2.2 (exPtB J) (.inl rfl) he mem
  choose! qs hqs using htab
  refine ⟨Ls, exEltE J qs, ?_⟩
  obtain ⟨A, b, h1, x, h2, h3⟩ := C98_l2 S' (fun δ h => (hok δ h).1) (fun δ h => (hok δ h).2.1) (fun δ h => (hok δ h).2.2.1) (exPer J) (c := fun _ => exPtB J)
    (fun _ => rfl) ⟨exEltE_built J qs, fun e he => ⟨mem, hqs e he⟩, fun _ _ _ _ => rfl⟩ _ _ _ (fun _ => 1) ⟨fun e he q hq => by
      obtain ⟨pts, hp, N, m, o, -, ho, rfl⟩ := (tabulated_points rfl hw.1 hw.2.1 (fun δ h => (hok δ h).1) (fun δ h => (hok δ h).2.1) hw.2.2 (exPtB J) he mem (hqs e he)).2 q hq
      exact detJac_pos ho (lines_J hw.2.2 he (mem_tensorPoints hp)) rfl (.inl rfl), fun _ _ _ _ => one_pos⟩ exG (exG_poly J)
    (fillsSys_add _ _ _ _) (gramEntry_gram 2 _) (loadEntry_load 2 _) hist pw w
  exact ⟨A, b, h1, x, (h2 x).2 fun _ _ => rfl, h3⟩

theorem exInForce (a s k : Int) (v : ℝ) (h : inForce a s k (Form.valueEvents exOpsR) = some v) : v = if k = 0 then 5 else -2 := by
  simp only [exOpsR, Form.valueEvents, List.nil_append, List.cons_append, inForce] at h
  split_ifs at h with h1 h2
  · obtain ⟨-, -, -, rfl⟩ := h1
    simp only [Option.some.injEq] at h
    rw [← h]; norm_num
  · obtain ⟨-, -, -, rfl⟩ := h2
    simp only [Option.some.injEq] at h
    rw [← h]; norm_num

/-- Constant gradients with a condition on one side of each component: `C98_exact` applies with the constants `5` and `-2`. -/
example (g2 : Guess2) (g3 : Guess3) (J : Bsp.Junk ℝ) (hist : Nat → Hist) (pw : Nat → List Int → PWork ℝ) (w : Nat → List Int → Work ℝ) :
    ∃ (Ls : List (Layout ℝ)) (elt : List Int → Elt ℝ (PtData (exLines J).length 2 (nenOf ((exLines J).map Direction.ax)))),
    ∃ A b, computeSystem Ls hist 2 ⟨elt, pw, w⟩ (fun p A B => .ok (fun i => A i + gramEntry 2 (List.ofFn fun l p a => p.shape.t1 l a) p i,
        fun i => B i + loadEntry 2 (List.ofFn fun l => (fun p a => p.shape.t1 l a, fun _ _ => 0)) p i)) = .ok (A, b) ∧
      ∀ x : Int → ℝ, (∀ z (i : Nat), InBox (((exLines J).map Direction.ax).map Axis.nnp) z → i < 2 →
          x (Blk.unknown Ls ((exLines J).map Direction.ax) 2 z i) = if i = 0 then 5 else -2) →
        ∀ i : Nat, i < total ((exLines J).map Direction.ax) 2 →
          ∑ j ∈ Finset.range (total ((exLines J).map Direction.ax) 2), A ((i:Int), (j:Int)) * x j = b i := by
  obtain ⟨Ls, S⟩ := exRealSetup g2 g3
  have S' : Setup g2 g3 false 2 [2,1] [exRealAx, exRealAx] ((exLines J).map Direction.ax) Ls := S
  have hok := exLines_ok J
  have hw := setup_facts S'
  obtain ⟨mem⟩ := exMem J
  have htab : ∀ e, InBox ((exLines J).map fun δ => δ.ax.nel) e →
      ∃ qs, tabulateElement (exPtB J) ((exLines J).map Direction.B) e mem = .ok qs := fun e he =>
    tabulateElement_ok rfl hw.1 hw.2.1 (fun δ h => (hok δ h).1) (fun δ h => (hok δ h).2.1) hw.2.2 (exPtB J) (.inl rfl) he mem
  choose! qs hqs using htab
  refine ⟨Ls, exEltR J qs, ?_⟩
  obtain ⟨A, b, h1, h2⟩ := C98_exact S' (fun δ h => (hok δ h).1) (fun δ h => (hok δ h).2.1) (ops := exOpsR) (UG := none)
    (by intro a s k; simp [exOpsR, Form.loadEvents, inForce]) (c := fun _ => exPtB J)
    ⟨exEltR_built J qs, fun e he => ⟨mem, hqs e he⟩, fun _ _ _ _ => rfl⟩ _ _ _ (fun _ => 1) ⟨fun e he q hq => by
      obtain ⟨pts, hp, N, m, o, -, ho, rfl⟩ := (tabulated_points rfl hw.1 hw.2.1 (fun δ h => (hok δ h).1) (fun δ h => (hok δ h).2.1) hw.2.2 (exPtB J) he mem (hqs e he)).2 q hq
      exact detJac_pos ho (lines_J hw.2.2 he (mem_tensorPoints hp)) rfl (.inl rfl), fun _ _ _ _ => one_pos⟩ (fun l => (fun p a => p.shape.t1 l a, fun _ _ => 0))
    (fillsSys_add _ _ _ _) (gramEntry_gram 2 _) (loadEntry_load 2 _) hist pw w
  refine ⟨A, b, h1, fun x hx => ((h2 (fun _ i => if i = 0 then 5 else -2) ?_ ?_) x).1 hx⟩
  · intro z i hz hi v0 hp
    unfold Fix.prescribedAt nodePrescribed at hp
    obtain ⟨v1, h1, h2⟩ := Option.map_eq_some_iff.1 hp
    obtain ⟨sd, -, hs⟩ := List.exists_of_findSome?_eq_some h1
    have hv : v1 = v0 := h2
    subst hv
    split at hs
    · have := exInForce _ _ _ _ hs
      rw [this]
      simp
    · cases hs
  · intro e he q hq l i hi
    rw [List.map_map] at he
    exact const_gradient hw.1 hw.2.1 (fun δ h => (hok δ h).1) (fun δ h => (hok δ h).2.1) hw.2.2 (exPtB J) ⟨le_refl _, rfl, rfl, rfl⟩ he (hqs e he) (fun q hq => by
      obtain ⟨pts, hp, N, m, o, -, ho, rfl⟩ := (tabulated_points rfl hw.1 hw.2.1 (fun δ h => (hok δ h).1) (fun δ h => (hok δ h).2.1) hw.2.2 (exPtB J) he mem (hqs e he)).2 q hq
      exact (detJac_pos ho (lines_J hw.2.2 he (mem_tensorPoints hp)) rfl (.inl rfl)).ne') _ i (if i = 0 then 5 else -2) (fun _ _ => rfl) q hq l

/-- The control points of element `e` of a net. -/
noncomputable def netPoints {nsd : Nat} (axs : List (Axis ℝ)) (e : List Int) (X : List Int → Nat → ℝ) : Fin nsd → Fin (nenOf axs) → ℝ :=
  fun l a => open Classical in if h : ∃ t, InBox (nens axs) t ∧ (a:Int) = flat (nens axs) t then X (nodeOf false axs e h.choose) l else 0

theorem netPoints_on {nsd : Nat} (axs : List (Axis ℝ)) (e : List Int) (X : List Int → Nat → ℝ) : OnNet axs e (netPoints (nsd := nsd) axs e X) X := by
  intro t ht a ha l
  have h : ∃ t, InBox (nens axs) t ∧ (a:Int) = flat (nens axs) t := ⟨t, ht, ha⟩
  unfold netPoints
  rw [dif_pos h, flat_inj h.choose_spec.1 ht (h.choose_spec.2.symm.trans ha)]

/-- A NURBS surface in space with the net `X`. -/
noncomputable def exPtS (J) (X : List Int → Nat → ℝ) (e : List Int) : PtIn (exLines J).length 3 (Fin (nenOf ((exLines J).map Direction.ax))) :=
  ⟨1, some fun a => 1 + (a:Nat), some (netPoints _ e X), none, false, true⟩

/-- `C97_affine` and `C98_l2_affine` apply to any NURBS surface in space: the fit of `1 + x_0 - 2 x_2` and of `x_1`. -/
example (g2 : Guess2) (g3 : Guess3) (J : Bsp.Junk ℝ) (hist : Nat → Hist) (pw : Nat → List Int → PWork ℝ) (w : Nat → List Int → Work ℝ) (X : List Int → Nat → ℝ) :
    ∃ (Ls : List (Layout ℝ)) (elt : List Int → Elt ℝ (PtData (exLines J).length 3 (nenOf ((exLines J).map Direction.ax)))),
    ∃ A b, computeSystem Ls hist 2 ⟨elt, pw, w⟩ (fun p A B => .ok (fun i => A i + gramEntry 2 [fun p a => p.shape.t0 a] p i,
        fun i => B i + loadEntry 2 [(fun p a => p.shape.t0 a, fun p i => (if i = 0 then 1 else 0) +
          ∑ l, (fun i (l : Fin 3) => if i = 0 then ![1, 0, -2] l else ![0, 1, 0] l) i l * p.arrays.mapX.t0 l)] p i)) = .ok (A, b) ∧
      ∃ x : Int → ℝ, (∀ i : Nat, i < total ((exLines J).map Direction.ax) 2 →
        ∑ j ∈ Finset.range (total ((exLines J).map Direction.ax) 2), A ((i:Int), (j:Int)) * x j = b i) ∧
        ∀ z, InBox (((exLines J).map Direction.ax).map Axis.nnp) z →
          x (Blk.unknown Ls ((exLines J).map Direction.ax) 2 z 0) = 1 + X z 0 - 2 * X z 2 ∧ x (Blk.unknown Ls ((exLines J).map Direction.ax) 2 z 1) = X z 1 := by
  obtain ⟨Ls, S⟩ := exRealSetup g2 g3
  have S' : Setup g2 g3 false 2 [2,1] [exRealAx, exRealAx] ((exLines J).map Direction.ax) Ls := S
  have hok := exLines_ok J
  have hw := setup_facts S'
  have mem : Nat → Tab ℝ (exLines J).length Nat × PtOut (exLines J).length 3 (Fin (nenOf ((exLines J).map Direction.ax))) := fun _ =>
    (⟨fun _ => 0, fun _ _ => 0, fun _ _ _ => 0, fun _ _ _ _ => 0, fun _ _ _ _ _ => 0⟩,
     ⟨⟨fun _ => 0, fun _ _ => 0, fun _ _ _ => 0, fun _ _ _ _ => 0, fun _ _ _ _ _ => 0⟩,
      ⟨fun _ => 0, fun _ _ => 0, fun _ _ _ => 0, fun _ _ _ _ => 0, fun _ _ _ _ _ => 0⟩, 0,
      ⟨fun _ => 0, fun _ _ => 0, fun _ _ _ => 0, fun _ _ _ _ => 0, fun _ _ _ _ _ => 0⟩,
      ⟨fun _ => 0, fun _ _ => 0, fun _ _ _ => 0, fun _ _ _ _ => 0, fun _ _ _ _ _ => 0⟩, 0, fun _ => 0, 0⟩)
  have htab : ∀ e, InBox ((exLines J).map fun δ => δ.ax.nel) e →
      ∃ qs, tabulateElement (exPtS J X e) ((exLines J).map Direction.B) e mem = .ok qs := fun e he =>
    tabulateElement_ok rfl hw.1 hw.2.1 (fun δ h => (hok δ h).1) (fun δ h => (hok δ h).2.1) hw.2.2 (exPtS J X e) (.inr (.inl (by simp [exLines]))) he mem
  choose! qs hqs using htab
  refine ⟨Ls, exEltE J qs, ?_⟩
  have hR : ∀ e, Weights (exLines J) (exPtS J X e) := by
    intro e W hW
    simp only [exPtS, Option.some.injEq] at hW
    subst hW
    exact ⟨fun a => by positivity, fun δ h => (hok δ h).2.2.2⟩
  obtain ⟨A, b, h1, x, h2, h3⟩ := C98_l2_affine S' (fun δ h => (hok δ h).1) (fun δ h => (hok δ h).2.1) (fun δ h => (hok δ h).2.2.1) (c := exPtS J X)
    hR X (fun e => ⟨_, rfl, netPoints_on _ _ _⟩) ⟨exEltE_built J qs, fun e he => ⟨mem, hqs e he⟩, fun _ _ _ _ => rfl⟩ _ _ _ (fun _ => 1) ⟨fun e he q hq => by
      obtain ⟨pts, hp, N, m, o, -, ho, rfl⟩ := (tabulated_points rfl hw.1 hw.2.1 (fun δ h => (hok δ h).1) (fun δ h => (hok δ h).2.1) hw.2.2 (exPtS J X e) he mem (hqs e he)).2 q hq
      exact detJac_pos ho (lines_J hw.2.2 he (mem_tensorPoints hp)) rfl (.inr (.inl (by simp [exLines]))), fun _ _ _ _ => one_pos⟩
    (fun i => if i = 0 then 1 else 0) (fun i l => if i = 0 then ![1, 0, -2] l else ![0, 1, 0] l)
    (fillsSys_add _ _ _ _) (gramEntry_gram 2 _) (loadEntry_load 2 _) hist pw w
  refine ⟨A, b, h1, x, (h2 x).2 fun _ _ => rfl, fun z hz => ⟨?_, ?_⟩⟩
  · rw [h3 z 0 hz (by omega)]
    simp [Fin.sum_univ_succ]
    ring
  · rw [h3 z 1 hz (by omega)]
    simp [Fin.sum_univ_succ]

theorem detX_eq {d : Nat} {ι : Type} [Fintype ι] {c : PtIn d d ι} {N : Tab ℝ d ι} {J : ℝ} {m o : PtOut d d ι} (ho : Ker.tabulate c N J m = .ok o)
    (C) (hC : c.geometry = some C) (hord : 1 ≤ c.order) : o.detX = determinant d fun u v => ∑ a, C v a * (basisOf c N).t1 u a := by
  set Y := geometryMap c.order C (basisOf c N) m.mapX with hY
  have hXt : Y.t1 = fun u v => ∑ a, C v a * (basisOf c N).t1 u a := by
    funext u v
    rw [hY]
    unfold geometryMap
    rw [if_neg (by omega)]
    dsimp only
    split_ifs <;> rfl
  have hI : (inverseMap c.order Y (m.detX, m.mapU)).1 = determinant d Y.t1 := by
    unfold inverseMap
    rw [if_neg (by omega)]
    dsimp only
    split_ifs <;> rfl
  rw [← hXt, ← hI]
  unfold Ker.tabulate at ho
  rw [hC] at ho
  dsimp only at ho
  rw [dif_pos rfl] at ho
  split_ifs at ho
  all_goals split at ho <;> (simp only [Res.ok.injEq] at ho; rw [← ho])

theorem tensorPoints_ne {α : Type} : ∀ {ls : List (List α)}, (∀ l ∈ ls, l ≠ []) → tensorPoints ls ≠ []
  | [], _ => by simp [tensorPoints]
  | l :: ls, h => by
    obtain ⟨a, l', rfl⟩ := List.exists_cons_of_ne_nil (h l List.mem_cons_self)
    obtain ⟨r, rs, hr⟩ := List.exists_cons_of_ne_nil (tensorPoints_ne fun l hl => h l (List.mem_cons_of_mem _ hl))
    simp [tensorPoints, hr]

/-- The net of the identity map: the coefficients of `x` and `y`. -/
noncomputable def exNet (z : List Int) (l : Nat) : ℝ := polyField [exRealAx, exRealAx] [if l = 0 then [X, 1] else [1, X]] z

noncomputable def exPtId (J) (e : List Int) : PtIn (exLines J).length (exLines J).length (Fin (nenOf ((exLines J).map Direction.ax))) :=
  ⟨1, none, some (netPoints _ e exNet), none, false, false⟩

theorem detJac_eq {d : Nat} {ι : Type} [Fintype ι] {c : PtIn d d ι} {N : Tab ℝ d ι} {J : ℝ} {m o : PtOut d d ι} (ho : Ker.tabulate c N J m = .ok o)
    (C) (hC : c.geometry = some C) (hb : c.boundary = none) (hg : c.collocation = false) : o.detJac = J * o.detX := by
  unfold Ker.tabulate at ho
  rw [hC, hb] at ho
  dsimp only at ho
  rw [dif_pos rfl] at ho
  split_ifs at ho with h1 h2
  · rw [hg] at h2; cases h2
  · simp only [Res.ok.injEq] at ho
    rw [← ho]

/-- The Jacobian of the identity map is `1`. -/
theorem exId_det {g2 : Guess2} {g3 : Guess3} {J : Bsp.Junk ℝ} {Ls} (S' : Setup g2 g3 false 2 [2,1] [exRealAx, exRealAx] ((exLines J).map Direction.ax) Ls)
    {e : List Int} (he : InBox ((exLines J).map fun δ => δ.ax.nel) e) {mem} {qs}
    (hqs : tabulateElement (exPtId J e) ((exLines J).map Direction.B) e mem = .ok qs) : ∀ q ∈ qs, q.data.arrays.detX = 1 ∧ 0 < q.detJac := by
  have hok := exLines_ok J
  have hw := setup_facts S'
  intro q hq
  obtain ⟨pts, hp, N, m, o, hN, ho, rfl⟩ := (tabulated_points rfl hw.1 hw.2.1 (fun δ h => (hok δ h).1) (fun δ h => (hok δ h).2.1) hw.2.2 (exPtId J e) he mem hqs).2 q hq
  have hwp : ∀ ax ∈ (exLines J).map Direction.ax, WF ax ∧ ax.periodic = false := by
    intro ax hax
    obtain ⟨δ, hδ, rfl⟩ := List.mem_map.1 hax
    exact ⟨hw.2.2 δ hδ, exPer J δ hδ⟩
  have he' : InBox (((exLines J).map Direction.ax).map Axis.nel) e := by rw [List.map_map]; exact he
  have hlen : (pts.map Pt.x).length = ((exLines J).map Direction.ax).length := by
    rw [List.length_map, ← (mem_tensorPoints hp).length_eq]
    simp [lines, PetIGA.Grid.inBox_length he]
  have key : ∀ (i l : Fin 2), ∑ a, netPoints ((exLines J).map Direction.ax) e exNet l a * N.t1 i a = if i = l then 1 else 0 := by
    intro i l
    rw [← combine_fin ((exLines J).map Direction.ax) rfl e (N.t1 i) _ (fun z _ => exNet z l) 0 (fun t ht a ha => (netPoints_on _ e exNet t ht a ha l).symm)]
    unfold combine
    have hr := polyField_repr ((exLines J).map Direction.ax) hwp he' (pts.map Pt.x) hlen (unitOrder i) (by simp [unitOrder, exLines])
      [if (l:Nat) = 0 then [X, 1] else [1, X]] (by
        intro P hP
        simp only [List.mem_cons, List.not_mem_nil, or_false] at hP
        subst hP
        split
        · exact .cons (show natDegree (X:ℝ[X]) ≤ 2 by simp) (.cons (show natDegree (1:ℝ[X]) ≤ 2 by simp) .nil)
        · exact .cons (show natDegree (1:ℝ[X]) ≤ 2 by simp) (.cons (show natDegree (X:ℝ[X]) ≤ 2 by simp) .nil))
    refine Eq.trans ?_ (hr.trans ?_)
    · congr 1; refine List.map_congr_left fun s hs => ?_
      have hs' := (mem_indices _ _).1 hs
      congr 1
      have hlt := flat_lt_nen ((exLines J).map Direction.ax) hs
      unfold ent
      rw [dif_pos hlt]
      exact (hN s hs' ⟨_, hlt⟩ (by have := (flat_range hs').1; simp only; omega)).2 (le_refl _) i
    · obtain ⟨a, b, hab⟩ : ∃ a b, pts.map Pt.x = [a, b] := by
        have h2 : (pts.map Pt.x).length = 2 := hlen
        match pts.map Pt.x, h2 with
        | [a, b], _ => exact ⟨a, b, rfl⟩
      rw [hab]
      fin_cases i <;> fin_cases l <;> simp [derivs, unitOrder, evalProd, List.finRange_succ]
  have hd : o.detX = 1 := by
    rw [detX_eq ho _ rfl (le_refl _)]
    show determinant 2 (fun u v => ∑ a, netPoints ((exLines J).map Direction.ax) e exNet v a * N.t1 u a) = 1
    rw [show (fun (u v : Fin 2) => ∑ a, netPoints ((exLines J).map Direction.ax) e exNet v a * N.t1 u a) = fun u v => if u = v then 1 else 0 from
      funext fun u => funext fun v => key u v]
    simp [determinant]
  refine ⟨hd, ?_⟩
  show 0 < o.detJac
  rw [detJac_eq ho _ rfl rfl rfl, hd, mul_one]
  exact lines_J hw.2.2 he (mem_tensorPoints hp)

/-- `C97_affine_gradient` applies: the net of the identity map has Jacobian `1`, and the gradient of `t + R_0 x + R_1 y` is `R`. -/
example (g2 : Guess2) (g3 : Guess3) (J : Bsp.Junk ℝ) (e : List Int) (he : InBox ((exLines J).map fun δ => δ.ax.nel) e) (mem) (t : ℝ)
    (R : Fin (exLines J).length → ℝ) :
    ∃ qs, tabulateElement (exPtId J e) ((exLines J).map Direction.B) e mem = .ok qs ∧ qs ≠ [] ∧ ∀ q ∈ qs, q.data.arrays.detX = 1 ∧ ∀ i,
      combine ((exLines J).map Direction.ax) e (q.data.shape.t1 i) (fun z _ => t + ∑ l, R l * exNet z l) 0 = R i := by
  obtain ⟨Ls, S⟩ := exRealSetup g2 g3
  have S' : Setup g2 g3 false 2 [2,1] [exRealAx, exRealAx] ((exLines J).map Direction.ax) Ls := S
  have hok := exLines_ok J
  have hw := setup_facts S'
  obtain ⟨qs, hqs⟩ := tabulateElement_ok rfl hw.1 hw.2.1 (fun δ h => (hok δ h).1) (fun δ h => (hok δ h).2.1) hw.2.2 (exPtId J e) (.inr (.inr rfl)) he mem
  have hdet : ∀ q ∈ qs, q.data.arrays.detX = 1 := fun q hq => (exId_det S' he hqs q hq).1
  refine ⟨qs, hqs, ?_, fun q hq => ⟨hdet q hq, ?_⟩⟩
  · have hne : tensorPoints (lines (exLines J) e) ≠ [] := by
      refine tensorPoints_ne fun l hl => ?_
      match e, PetIGA.Grid.inBox_length he with
      | [a, b], _ =>
        simp only [lines, exLines, List.zipWith_cons_cons, List.zipWith_nil_left, List.mem_cons, List.not_mem_nil, or_false] at hl
        rcases hl with rfl | rfl <;> simp [exLine]
    obtain ⟨pts, rest, hp⟩ := List.exists_cons_of_ne_nil hne
    obtain ⟨q, hq, -⟩ := (tabulated_points rfl hw.1 hw.2.1 (fun δ h => (hok δ h).1) (fun δ h => (hok δ h).2.1) hw.2.2 (exPtId J e) he mem hqs).1 pts
      (by rw [hp]; exact List.mem_cons_self)
    exact List.ne_nil_of_mem hq
  · exact C97_affine_gradient S' (fun δ h => (hok δ h).1) (fun δ h => (hok δ h).2.1) (exPtId J e) (fun W h => by cases h) _ rfl (le_refl _) he hqs exNet
      (netPoints_on _ _ _) t R 0 q hq (by rw [hdet q hq]; exact one_ne_zero)

end PetIGA.Itg
