import Verif.Props.Mass
import Verif.Props.IntegrateTables
/-
A case to which the theorems of Props/Mass apply: two processes, a NURBS space, Simpson's rule, two components.
-/
set_option linter.unusedSectionVars false
namespace PetIGA.Itg
open PetIGA.Quad PetIGA.Drv PetIGA.Spec PetIGA.Ax PetIGA.Lay PetIGA.Asm PetIGA.Rule PetIGA.Grid PetIGA.Part PetIGA.Ker PetIGA.SetUp PetIGA.PCA

/-- Without a map onto a space of the same dimension, or without error checking, tabulating an element succeeds. -/
theorem tabulateElement_ok {nsd nen d : Nat} {ds : List (Direction Line)} (hd : ds.length = d) (h1 : 1 ≤ d) (h3 : d ≤ 3)
    (hT : ∀ δ ∈ ds, δ.Tabulated) (hs : ∀ δ ∈ ds, IsSpline δ) (hw : ∀ δ ∈ ds, WF δ.ax) (c : PtIn d nsd (Fin nen))
    (hc : c.geometry = none ∨ nsd ≠ d ∨ c.debug = false) {e : List Int}
    (he : InBox (ds.map fun δ => δ.ax.nel) e) (mem) : ∃ qs, tabulateElement c (ds.map Direction.B) e mem = .ok qs := by
  have key : ∀ N J m, ∃ o, Ker.tabulate c N J m = .ok o := by
    intro N J m
    unfold Ker.tabulate
    dsimp only
    cases hg : c.geometry with
    | none => cases c.boundary <;> exact ⟨_, rfl⟩
    | some C =>
      dsimp only
      by_cases h : nsd = d
      · rw [dif_pos h]
        have : c.debug = false := by
          rcases hc with hc | hc | hc
          · rw [hg] at hc; simp at hc
          · exact absurd h hc
          · exact hc
        rw [if_neg (by simp [this])]
        cases c.boundary <;> exact ⟨_, rfl⟩
      · rw [dif_neg h]
        cases c.boundary <;> exact ⟨_, rfl⟩
  unfold tabulateElement
  rw [elemPoints_ok (by omega) hT hw he]
  simp only [Res.bind]
  set f := fun qi : QP ℝ (List ℝ × List (Option Line)) × Nat =>
    tabulatePoint c ((ds.map Direction.B).map fun B => B.nen.toNat) (mem qi.2) qi.1 with hf
  have hall : ∀ qi ∈ ((tensorPoints (lines ds e)).map fun pts =>
      (⟨(pts.map Pt.J).prod, (pts.map Pt.w).prod, (pts.map Pt.x, pts.map Pt.value)⟩ : QP ℝ (List ℝ × List (Option Line)))).zipIdx,
      ∃ q, f qi = .ok q := by
    rintro ⟨b, i⟩ hb
    rw [List.mk_mem_zipIdx_iff_getElem?, List.getElem?_map, Option.map_eq_some_iff] at hb
    obtain ⟨pts, hp, rfl⟩ := hb
    obtain ⟨N, -, n2⟩ := tabulatePoint_of hd h1 h3 hT hs hw c he (List.mem_of_getElem? hp) (mem i)
    obtain ⟨o, ho⟩ := key N (pts.map Pt.J).prod (mem i).2
    rw [ho] at n2
    exact ⟨_, n2⟩
  haveI : Nonempty (QP ℝ (PtData d nsd nen)) := ⟨⟨0, 0, ⟨[], ⟨fun _ => 0, fun _ _ => 0, fun _ _ _ => 0, fun _ _ _ _ => 0, fun _ _ _ _ _ => 0⟩, (mem 0).2⟩⟩⟩
  choose! v hv using hall
  exact ⟨_, Blk.sequence_ok f v _ hv⟩

/-- The direction with the axis of Props/IntegrateTables, the B-spline kernel, and the given rule. -/
noncomputable def exLine (J : Bsp.Junk ℝ) (X W : List ℝ) : Direction Line :=
  let cb := fun (k : Int) (u : ℝ) => fun t r : Nat => Bsp.basis J k u 2 2 exU t r
  ⟨exRealAx, X, W, cb, ⟨X.length, 3, exRealAx.span.map (mkElem cb 2 exU X.length 0 X W), (cb 2 (exU 2), cb 4 (exU 5))⟩⟩

theorem exLine_tabulated (J) {X W : List ℝ} (hl : X.length = W.length) (h1 : 1 ≤ X.length) (hW : ∀ w ∈ W, 0 < w) :
    (exLine J X W).Tabulated := by
  have hr : Ready (exRule X W) X W := ⟨by simp [exRule]; omega, rfl, rfl, rfl, by simp [exRule]; omega⟩
  exact ⟨0, .bspline, exRule X W, exRule X W, initQuadrature_std _ _ _ _ X W hr (by simp [exRule]), hr, by simp [exRule], hW⟩

/-- Simpson's rule in both directions. -/
noncomputable def exLines (J : Bsp.Junk ℝ) : List (Direction Line) :=
  [exLine J [-1, 0, 1] [1/3, 4/3, 1/3], exLine J [-1, 0, 1] [1/3, 4/3, 1/3]]

theorem exLines_ok (J) : ∀ δ ∈ exLines J, δ.Tabulated ∧ IsSpline δ ∧ Enough δ ∧ ∀ x ∈ δ.X, -1 ≤ x ∧ x ≤ 1 := by
  intro δ hδ
  simp only [exLines, List.mem_cons, List.not_mem_nil, or_false, or_self] at hδ
  subst hδ
  refine ⟨exLine_tabulated J rfl (by simp) (by intro w hw; simp at hw; rcases hw with rfl | rfl | rfl <;> norm_num),
    fun k u => ⟨J, rfl⟩, ⟨by simp [exLine]; norm_num, ?_⟩, ?_⟩
  · show (2:Int) < _
    simp [exLine]
  · intro x hx
    simp [exLine] at hx
    rcases hx with rfl | rfl | rfl <;> norm_num

/-- The elements: NURBS weights `1 + a`, no geometry, two components. -/
noncomputable def exPtIn (J) : PtIn (exLines J).length 2 (Fin (nenOf ((exLines J).map Direction.ax))) :=
  ⟨1, some fun a => 1 + (a:Nat), none, none, false, true⟩

/-- The entries of the mass matrix at a point. -/
noncomputable def massEntry {d nsd nen : Nat} (dof : Nat) (p : PtData d nsd nen) (q : Int) : ℝ :=
  let i := q.toNat / (nen * dof)
  let j := q.toNat % (nen * dof)
  if h : i / dof < nen ∧ j / dof < nen then
    if i % dof = j % dof then 1 * ([fun (p : PtData d nsd nen) a => p.shape.t0 a].map fun g => g p ⟨i / dof, h.1⟩ * g p ⟨j / dof, h.2⟩).sum else 0
  else 0

theorem massEntry_gram {d nsd nen : Nat} (dof : Nat) :
    GramForm dof nen [fun (p : PtData d nsd nen) a => p.shape.t0 a] (fun _ => 1) (massEntry dof) := by
  intro p a b c e hc he
  have h1 : (b:Nat) * dof + e < nen * dof := by
    have h := b.2
    calc (b:Nat) * dof + e < (b:Nat) * dof + dof := by omega
      _ = ((b:Nat) + 1) * dof := by ring
      _ ≤ nen * dof := Nat.mul_le_mul_right _ h
  have e1 : (((a:Nat) * dof + c) * (nen * dof) + ((b:Nat) * dof + e)) / (nen * dof) = (a:Nat) * dof + c := by
    rw [mul_comm, Nat.mul_add_div (by omega), Nat.div_eq_of_lt h1, add_zero]
  have e2 : (((a:Nat) * dof + c) * (nen * dof) + ((b:Nat) * dof + e)) % (nen * dof) = (b:Nat) * dof + e := by
    rw [mul_comm, Nat.mul_add_mod, Nat.mod_eq_of_lt h1]
  have e3 : ∀ x y : Nat, y < dof → (x * dof + y) / dof = x ∧ (x * dof + y) % dof = y := by
    intro x y hy
    rw [mul_comm]
    exact ⟨by rw [Nat.mul_add_div (by omega), Nat.div_eq_of_lt hy, add_zero], by rw [Nat.mul_add_mod, Nat.mod_eq_of_lt hy]⟩
  unfold massEntry
  simp only [Int.toNat_natCast, e1, e2, (e3 _ _ hc).1, (e3 _ _ hc).2, (e3 _ _ he).1, (e3 _ _ he).2, a.2, b.2, and_self, dite_true, Fin.eta]

/-- `C87_mass_checked` applies: two processes, degree 2, Simpson's rule, NURBS, two components. -/
example (g2 : Guess2) (g3 : Guess3) (J : Bsp.Junk ℝ) (hist : Nat → Hist) (pw : Nat → List Int → PWork ℝ) (w : Nat → List Int → Work ℝ) :
    ∃ (Ls : List (Layout ℝ)) (elt : List Int → Elt ℝ (PtData (exLines J).length 2 (nenOf ((exLines J).map Direction.ax)))),
    ∃ A, computeMatrix Ls hist 2 ⟨elt, pw, w⟩ (fun p A => .ok fun i => A i + massEntry 2 p i) = .ok A ∧
      PosDef (total ((exLines J).map Direction.ax) 2) fun i j => A (i, j) := by
  obtain ⟨Ls, S⟩ := exRealSetup g2 g3
  have S' : Setup g2 g3 false 2 [2,1] [exRealAx, exRealAx] ((exLines J).map Direction.ax) Ls := S
  have hok := exLines_ok J
  have hw := setup_facts S'
  have mem : Nat → Tab ℝ (exLines J).length Nat × PtOut (exLines J).length 2 (Fin (nenOf ((exLines J).map Direction.ax))) := fun _ =>
    (⟨fun _ => 0, fun _ _ => 0, fun _ _ _ => 0, fun _ _ _ _ => 0, fun _ _ _ _ _ => 0⟩,
     ⟨⟨fun _ => 0, fun _ _ => 0, fun _ _ _ => 0, fun _ _ _ _ => 0, fun _ _ _ _ _ => 0⟩,
      ⟨fun _ => 0, fun _ _ => 0, fun _ _ _ => 0, fun _ _ _ _ => 0, fun _ _ _ _ _ => 0⟩, 0,
      ⟨fun _ => 0, fun _ _ => 0, fun _ _ _ => 0, fun _ _ _ _ => 0, fun _ _ _ _ _ => 0⟩,
      ⟨fun _ => 0, fun _ _ => 0, fun _ _ _ => 0, fun _ _ _ _ => 0, fun _ _ _ _ _ => 0⟩, 0, fun _ => 0, 0⟩)
  have htab : ∀ e, InBox ((exLines J).map fun δ => δ.ax.nel) e →
      ∃ qs, tabulateElement (exPtIn J) ((exLines J).map Direction.B) e mem = .ok qs := fun e he =>
    tabulateElement_ok rfl hw.1 hw.2.1 (fun δ h => (hok δ h).1) (fun δ h => (hok δ h).2.1) hw.2.2 (exPtIn J) (.inl rfl) he mem
  choose! qs hqs using htab
  refine ⟨Ls, fun e => ⟨0, nenOf ((exLines J).map Direction.ax), nenOf ((exLines J).map Direction.ax), 2, ⟨[], []⟩, e,
    (exLines J).map fun δ => δ.ax.nel, fun _ _ => false, fun _ => qs e⟩, ?_⟩
  refine C87_mass_checked S' (fun δ h => (hok δ h).1) (fun δ h => (hok δ h).2.1) (fun δ h => (hok δ h).2.2.1) (c := fun _ => exPtIn J)
    (fun e W hW => ?_) (fun e => ⟨rfl, .inl rfl⟩) ⟨?_, ?_, ?_⟩ _ (massEntry 2) (fun _ => 1) (fills_self _ _) (massEntry_gram 2)
    (fun _ _ _ _ => one_pos) hist pw w
  · simp only [exPtIn, Option.some.injEq] at hW
    subst hW
    exact ⟨fun a => by positivity, fun δ h => (hok δ h).2.2.2⟩
  · intro e he
    exact ⟨⟨le_refl _, rfl, ⟨by simp, by simp⟩, ⟨by simp, by simp⟩⟩, rfl, rfl⟩
  · intro e he
    exact ⟨mem, hqs e he⟩
  · intro e he a b
    rfl

end PetIGA.Itg
