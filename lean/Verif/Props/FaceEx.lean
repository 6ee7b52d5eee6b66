import Verif.Props.Face
import Verif.Props.LaplaceEx

/-!
C119 continued: the theorems at work, and a legal knot vector for which prescribed boundary values are not taken.
-/
set_option linter.unusedSectionVars false

namespace PetIGA.Itg
open PetIGA.Quad PetIGA.Drv PetIGA.Spec PetIGA.Ax PetIGA.Lay PetIGA.Asm PetIGA.Rule PetIGA.Grid PetIGA.Part PetIGA.Ker PetIGA.PCA
open Polynomial

theorem tabulateFace_ok {nsd nen d : Nat} {ds : List (Direction Line)} (hd : ds.length = d) (h1 : 1 ≤ d) (h3 : d ≤ 3)
    (hT : ∀ δ ∈ ds, δ.Tabulated) (hs : ∀ δ ∈ ds, IsSpline δ) (hw : ∀ δ ∈ ds, WF δ.ax) (c : PtIn d nsd (Fin nen))
    (hc : c.geometry = none ∨ nsd ≠ d ∨ c.debug = false) {e : List Int}
    (he : InBox (ds.map fun δ => δ.ax.nel) e) (mem) {axis : Fin d} {side : Bool} {δ : Direction Line} (hδ : ds[(axis:Nat)]? = some δ)
    (ho : OpenEnds δ.ax) (hse : e[(axis:Nat)]? = some (sideElem δ.ax side)) :
    ∃ qs, tabulateFace c (ds.map Direction.B) (ds.map fun d => endPoints d.ax) e axis side mem = .ok qs ∧
      qs.length = (tensorPoints (faceLines ds e axis side)).length := by
  have key : ∀ N J m, ∃ o, Ker.tabulate (atSide c axis side) N J m = .ok o := by
    intro N J m
    unfold Ker.tabulate
    dsimp only
    cases hg : (atSide c axis side).geometry with
    | none => cases (atSide c axis side).boundary <;> exact ⟨_, rfl⟩
    | some C =>
      dsimp only
      by_cases h : nsd = d
      · rw [dif_pos h]
        have : (atSide c axis side).debug = false := by
          rcases hc with hc | hc | hc
          · change c.geometry = _ at hg; rw [hg] at hc; simp at hc
          · exact absurd h hc
          · exact hc
        rw [if_neg (by simp [this])]
        cases (atSide c axis side).boundary <;> exact ⟨_, rfl⟩
      · rw [dif_neg h]
        cases (atSide c axis side).boundary <;> exact ⟨_, rfl⟩
  unfold tabulateFace
  rw [facePoints_ok (by omega) hT hw he hδ ho hse]
  simp only [Res.bind]
  set f := fun qi : QP ℝ (List ℝ × List (Option Line)) × Nat =>
    tabulatePoint (atSide c axis side) ((ds.map Direction.B).map fun B => B.nen.toNat) (mem qi.2) qi.1 with hf
  have hall : ∀ qi ∈ ((tensorPoints (faceLines ds e axis side)).map fun pts =>
      (⟨(pts.map Pt.J).prod, (pts.map Pt.w).prod, (pts.map Pt.x, pts.map Pt.value)⟩ : QP ℝ (List ℝ × List (Option Line)))).zipIdx,
      ∃ q, f qi = .ok q := by
    rintro ⟨b, i⟩ hb
    rw [List.mk_mem_zipIdx_iff_getElem?, List.getElem?_map, Option.map_eq_some_iff] at hb
    obtain ⟨pts, hp, rfl⟩ := hb
    obtain ⟨sv, -⟩ := face_point hw he hδ ho hse (mem_tensorPoints (List.mem_of_getElem? hp))
    obtain ⟨N, -, n2⟩ := tabulatePoint_sees hd h1 h3 hT hs hw (atSide c axis side) he sv (mem i)
    obtain ⟨o, ho⟩ := key N (pts.map Pt.J).prod (mem i).2
    rw [ho] at n2
    exact ⟨_, n2⟩
  haveI : Nonempty (QP ℝ (PtData d nsd nen)) := ⟨⟨0, 0, ⟨[], ⟨fun _ => 0, fun _ _ => 0, fun _ _ _ => 0, fun _ _ _ _ => 0, fun _ _ _ _ _ => 0⟩, (mem 0).2⟩⟩⟩
  choose! v hv using hall
  exact ⟨_, Blk.sequence_ok f v _ hv, by simp⟩

theorem exRealAx_clamped (side : Bool) : ClampedAt exRealAx side := by
  cases side <;> simp [ClampedAt, exRealAx, knotAxis] <;> norm_num [exU]

/-- The theorems apply: on every element at every side of the mesh of `exRealSetup` there are three points, the coordinate across the side
is 0 or 3, and a field with the value 5 at the nodes of the side has the value 5 there; weights 1, 2, …, 9. -/
example (g2 : Guess2) (g3 : Guess3) (J : Bsp.Junk ℝ) (X : List Int → Nat → ℝ) (e : List Int) (he : InBox ((exLines J).map fun δ => δ.ax.nel) e)
    (axis : Fin (exLines J).length) (side : Bool) (hside : e[(axis:Nat)]? = some (if side then 2 else 0)) (mem) (u : List Int → Nat → ℝ)
    (hu : ∀ z, z[(axis:Nat)]? = some (if side then 4 else 0) → u z 0 = 5) :
    ∃ qs, tabulateFace (exPtS J X e) ((exLines J).map Direction.B) ((exLines J).map fun d => endPoints d.ax) e axis side mem = .ok qs ∧ qs.length = 3 ∧
      ∀ q ∈ qs, q.data.u[(axis:Nat)]? = some (if side then 3 else 0) ∧ combine ((exLines J).map Direction.ax) e q.data.shape.t0 u 0 = 5 := by
  obtain ⟨Ls, S⟩ := exRealSetup g2 g3
  have S' : Setup g2 g3 false 2 [2,1] [exRealAx, exRealAx] ((exLines J).map Direction.ax) Ls := S
  have hok := exLines_ok J
  have hw := setup_facts S'
  have hax : (exLines J)[axis].ax = exRealAx := by
    have : ∀ δ ∈ exLines J, δ.ax = exRealAx := by
      intro δ hδ
      simp only [exLines, List.mem_cons, List.not_mem_nil, or_false, or_self] at hδ
      subst hδ; rfl
    exact this _ (by simp)
  have hse : e[(axis:Nat)]? = some (sideElem (exLines J)[axis].ax side) := by
    rw [hside, hax]; simp [sideElem, exRealAx_nel]
  obtain ⟨qs, hqs, hlen⟩ := tabulateFace_ok rfl hw.1 hw.2.1 (fun δ h => (hok δ h).1) (fun δ h => (hok δ h).2.1) hw.2.2 (exPtS J X e)
    (.inr (.inl (by simp [exLines]))) he mem (show (exLines J)[(axis:Nat)]? = some (exLines J)[axis] by simp) (setup_open S' _ (by simp)) hse
  have hnn : exRealAx.nnp = 5 := (nnp_bounds exRealAx_wf).2.2.1 rfl
  refine ⟨qs, hqs, ?_, fun q hq => ⟨?_, ?_⟩⟩
  · rw [hlen, tensor_face (by rw [PetIGA.Grid.inBox_length he]; simp) (show (exLines J)[(axis:Nat)]? = some (exLines J)[axis] by simp) hse, List.length_map]
    match e, PetIGA.Grid.inBox_length he with
    | [a, b], _ =>
      obtain ⟨i, hi⟩ := axis
      simp only [exLines, List.length_cons, List.length_nil] at hi
      have : i = 0 ∨ i = 1 := by omega
      rcases this with rfl | rfl <;> simp [exLines, lines, tensorPoints, exLine]
  · rw [(C119_points S' (fun δ h => (hok δ h).1) (fun δ h => (hok δ h).2.1) (exPtS J X e) he axis side hse hqs q hq).2.1, hax]
    cases side <;> simp [sideEnd, domain, exRealAx, knotAxis] <;> norm_num [exU]
  · refine C119_constant S' (fun δ h => (hok δ h).1) (fun δ h => (hok δ h).2.1) (fun δ h => (hok δ h).2.2.2) (exPtS J X e)
      (fun W hW a => by simp only [exPtS, Option.some.injEq] at hW; subst hW; positivity) he axis side ?_ ?_ hse hqs u 0 5 ?_ q hq
    · rw [hax]; exact exRealAx_clamped side
    · rw [hax]; rfl
    · intro z hz
      refine hu z ?_
      rw [hz, hax]; simp [sideNode, hnn]

/-! ### A side that is not clamped -/

/-- Knots 0,1,…,7. -/
noncomputable def uniU : Int → ℝ := fun i => i

theorem uniU_legal : LegalKnots 2 7 uniU := by
  refine ⟨by omega, by omega, ?_, ?_⟩
  · intro i h0 h1
    simp [uniU]
  · intro i h0 h1
    simp [uniU]

noncomputable def uniAx : Axis ℝ := knotAxis false 2 7 uniU
theorem uniAx_wf : WF uniAx := ⟨⟨uniU_legal, rfl, rfl⟩, rfl⟩

/-- One direction with this axis and the midpoint rule. -/
noncomputable def uniLine (J : Bsp.Junk ℝ) : Direction Line :=
  let cb := fun (k : Int) (u : ℝ) => fun t r : Nat => Bsp.basis J k u 2 2 uniU t r
  ⟨uniAx, [0], [2], cb, ⟨1, 3, uniAx.span.map (mkElem cb 2 uniU 1 0 [0] [2]), (cb 2 (uniU 2), cb 4 (uniU 5))⟩⟩

theorem uniLine_tabulated (J) : (uniLine J).Tabulated := by
  have hr : Ready (exRule [0] [2]) [0] [2] := ⟨by simp [exRule], rfl, rfl, rfl, by simp [exRule]⟩
  exact ⟨0, .bspline, exRule [0] [2], exRule [0] [2], initQuadrature_std _ _ _ _ [0] [2] hr (by simp [exRule]), hr, by simp [exRule],
    fun w hw => by have : w = 2 := List.mem_singleton.1 hw
                   rw [this]; norm_num⟩

/-- **C119**, clamped sides only: with the legal uniform knots 0,1,…,7 and degree 2, a field with the value 1 at the node of the left
side (and 0 at the others) has the value 1/2 at the left end of the domain. -/
theorem C119_unclamped_refuted (g2 : Guess2) (g3 : Guess3) (J : Bsp.Junk ℝ) : ∃ Ls, Setup g2 g3 false 1 [1] [uniAx] ([uniLine J].map Direction.ax) Ls ∧
    (uniLine J).Tabulated ∧ IsSpline (uniLine J) ∧
    ∀ (c : PtIn 1 1 (Fin (nenOf ([uniLine J].map Direction.ax)))), c.geometry = none → c.rational = none → ∀ mem, ∃ qs,
      tabulateFace c ([uniLine J].map Direction.B) ([uniLine J].map fun d => endPoints d.ax) [0] 0 false mem = .ok qs ∧ qs ≠ [] ∧
      ∃ u : List Int → Nat → ℝ, (∀ z, z[0]? = some (sideNode uniAx false) → u z 0 = 1) ∧
        ∀ q ∈ qs, combine ([uniLine J].map Direction.ax) [0] q.data.shape.t0 u 0 = 1/2 := by
  have hend : uniAx.U uniAx.p < uniAx.U (uniAx.p+1) ∧ uniAx.U (uniAx.m-uniAx.p-1) < uniAx.U (uniAx.m-uniAx.p) := by
    constructor <;> simp [uniAx, knotAxis, uniU] <;> norm_num
  have hn1 : 1 ≤ uniAx.nel := face_nel_pos uniAx_wf hend
  obtain ⟨Ls, S⟩ := knot_setup g2 g3 1 [1] [uniAx] (by
      intro ax hax
      simp only [List.mem_singleton] at hax
      subst hax
      exact ⟨false, 2, 7, uniU, rfl, uniU_legal, by norm_num [uniU], by norm_num [uniU]⟩)
    (by simp) (by simp only [List.map_cons, List.map_nil, gridSize]; exact .cons (by simp; omega) .nil) rfl (by omega)
  have S' : Setup g2 g3 false 1 [1] [uniAx] ([uniLine J].map Direction.ax) Ls := S
  have hs : ∀ δ ∈ [uniLine J], IsSpline δ := by
    intro δ hδ
    rw [List.mem_singleton] at hδ
    subst hδ
    exact fun k u => ⟨J, rfl⟩
  have hT : ∀ δ ∈ [uniLine J], δ.Tabulated := by
    intro δ hδ
    rw [List.mem_singleton] at hδ
    subst hδ
    exact uniLine_tabulated J
  have hw : ∀ δ ∈ [uniLine J], WF δ.ax := (setup_facts S').2.2
  refine ⟨Ls, S', uniLine_tabulated J, hs _ (by simp), fun c hc hr mem => ?_⟩
  have he : InBox ([uniLine J].map fun δ => δ.ax.nel) [0] := .cons ⟨le_refl _, hn1⟩ .nil
  obtain ⟨qs, hqs, hlen⟩ := tabulateFace_ok (ds := [uniLine J]) (axis := 0) (side := false) (e := [0]) rfl (by simp) (by simp) hT hs hw c (.inl hc) he mem
    (δ := uniLine J) rfl hend rfl
  obtain ⟨u, hu0⟩ : ∃ u : List Int → Nat → ℝ, ∀ z k, u z k = if z[0]? = some 0 then 1 else 0 := ⟨_, fun _ _ => rfl⟩
  refine ⟨qs, hqs, ?_, u, ?_, fun q hq => ?_⟩
  · intro h0
    rw [h0] at hlen
    simp [faceLines, tensorPoints, lines] at hlen
  · intro z hz
    rw [hu0, if_pos]
    rw [hz]; rfl
  · obtain ⟨-, g2', -, g4⟩ := C119_points (ds := [uniLine J]) S' hT hs c he 0 false rfl hqs q hq
    have hsp : sp uniAx 0 = 2 := sp_first uniAx_wf.toPreWF hn1 hend.1
    have hnn : uniAx.nnp = 5 := (nnp_bounds uniAx_wf).2.2.1 rfl
    have hu : q.data.u = [2] := by
      have hl := (C119_points (ds := [uniLine J]) S' hT hs c he 0 false rfl hqs q hq).1
      have g3 : q.data.u[0]? = some (sideEnd uniAx false) := g2'
      match hq' : q.data.u, hl with
      | [x], _ =>
        rw [hq'] at g3
        simp [sideEnd, domain, uniAx, knotAxis, uniU] at g3
        rw [g3]
    have hidx : indices (nens ([uniLine J].map Direction.ax)) = [[0], [1], [2]] := rfl
    have hf := firstNode_gal uniAx_wf (e := 0) (le_refl _) hn1
    rw [hsp] at hf
    have hnode : ∀ t : Int, 0 ≤ t → t < 3 → nodeOf false ([uniLine J].map Direction.ax) [0] [t] = [t] := by
      intro t h0 h1
      show [(firstNode false uniAx 0 + t) % uniAx.nnp] = [t]
      rw [hf, hnn, show (2 - uniAx.p + t : Int) = t by show (2 - 2 + t : Int) = t; ring, Int.emod_eq_of_lt h0 (by omega)]
    have hlt := flat_lt_nen ([uniLine J].map Direction.ax) (t := [0]) (by rw [hidx]; simp)
    unfold combine
    rw [hidx]
    simp only [List.map_cons, List.map_nil, List.sum_cons, List.sum_nil]
    have k0 := hu0 (nodeOf false ([uniLine J].map Direction.ax) [0] [0]) 0
    have k1 := hu0 (nodeOf false ([uniLine J].map Direction.ax) [0] [1]) 0
    have k2 := hu0 (nodeOf false ([uniLine J].map Direction.ax) [0] [2]) 0
    rw [if_pos (by rw [hnode 0 (by omega) (by omega)]; rfl)] at k0
    rw [if_neg (by rw [hnode 1 (by omega) (by omega)]; simp)] at k1
    rw [if_neg (by rw [hnode 2 (by omega) (by omega)]; simp)] at k2
    simp only [List.map_cons, List.map_nil] at k0 k1 k2
    rw [k0, k1, k2]
    simp only [zero_mul, add_zero, one_mul]
    unfold ent
    have hg := g4 [0] (.cons ⟨le_refl _, by show (0:Int) < 2 + 1; omega⟩ .nil) ⟨_, hlt⟩ rfl hr
    refine Eq.trans (dif_pos hlt) (hg.trans ?_)
    refine Eq.trans (congrArg (evalProd _) hu) ?_
    show evalProd [bpoly uniAx 0 0] [2] = _
    unfold evalProd bpoly
    rw [hsp]
    show ([(piece uniU 2 2 (2 - 2 + (0:Nat))).eval 2] : List ℝ).prod = _
    simp only [List.prod_cons, List.prod_nil, mul_one, piece, Nat.cast_zero, sub_self, add_zero, Nat.cast_one]
    norm_num [uniU]

end PetIGA.Itg
