import Verif.Props.Face
import Verif.Props.FaceEx
import Verif.Props.BoundaryValue
import Verif.Props.LaplaceEx

/-!
C120: the solution of the assembled problem takes the values of `IGASetBoundaryValue` on the whole side of the domain.
-/
set_option linter.unusedSectionVars false

namespace PetIGA.Itg
open PetIGA.Quad PetIGA.Drv PetIGA.Spec PetIGA.Ax PetIGA.Lay PetIGA.Asm PetIGA.Rule PetIGA.Grid PetIGA.Part PetIGA.Ker PetIGA.PCA
open PetIGA.Fix hiding nens

variable {g2 : Guess2} {g3 : Guess3} {size : Int} {procs : List Int} {axes : List (Axis ℝ)} {Ls : List (Layout ℝ)}

/-- The value `IGASetBoundaryValue(iga,axis,side,field,v)` has put in force on a side after the calls `ops`. -/
def SideValue (ops : List (Form.Op ℝ)) (axis : Nat) (side : Bool) (field : Nat) : Option ℝ :=
  inForce (axis:Int) (if side then 1 else 0) (field:Int) (Form.valueEvents ops)

theorem sides_pairwise (dim : Nat) :
    (sides dim).Pairwise fun a b => a.1 < b.1 ∨ a.1 = b.1 ∧ a.2 = false ∧ b.2 = true := by
  unfold sides
  rw [List.pairwise_flatMap]
  refine ⟨fun i _ => by simp, ?_⟩
  refine List.Pairwise.imp ?_ List.pairwise_lt_range
  intro i j hij x hx y hy
  simp only [List.mem_cons, List.not_mem_nil, or_false] at hx hy
  left
  rcases hx with rfl | rfl <;> rcases hy with rfl | rfl <;> exact hij

theorem mem_sides {dim : Nat} {a : Nat} (h : a < dim) (s : Bool) : (a, s) ∈ sides dim := by
  unfold sides
  rw [List.mem_flatMap]
  exact ⟨a, List.mem_range.2 h, by cases s <;> simp⟩

theorem nodeDirs_open {axs : List (Axis ℝ)} (hw : ∀ ax ∈ axs, WF ax) (ho : ∀ ax ∈ axs, OpenEnds ax) :
    nodeDirs axs = axs.map fun ax => ⟨0, ax.m - ax.p - 1, ax.periodic⟩ := by
  unfold nodeDirs
  apply List.map_congr_left
  intro ax hax
  have := C36_sides (hw ax hax).toPreWF (ho ax hax).1 (ho ax hax).2
  unfold nodeDirs at this
  simpa using this

/-- Which nodes are on a side of the grid. -/
theorem onGridSide_iff {axs : List (Axis ℝ)} (hw : ∀ ax ∈ axs, WF ax) (ho : ∀ ax ∈ axs, OpenEnds ax) (z : List Int) (s : Nat × Bool) :
    OnGridSide (nodeDirs axs) z s = true ↔ ∃ ax, axs[s.1]? = some ax ∧ ax.periodic = false ∧ z[s.1]? = some (sideNode ax s.2) := by
  rw [nodeDirs_open hw ho]
  unfold OnGridSide
  rw [List.getElem?_map]
  cases h : axs[s.1]? with
  | none => simp
  | some ax =>
    have hm := List.mem_of_getElem? h
    have hb := nnp_bounds (hw ax hm)
    cases hz : z[s.1]? with
    | none => simp
    | some x =>
      simp only [Option.map_some]
      constructor
      · intro h1
        rw [Bool.and_eq_true, Bool.not_eq_true'] at h1
        refine ⟨ax, rfl, h1.1, ?_⟩
        have := hb.2.2.1 h1.1
        cases hs : s.2
        · rw [hs] at h1; simp only [Bool.false_eq_true, if_false, decide_eq_true_eq] at h1
          simp [sideNode, h1.2]
        · rw [hs] at h1; simp only [if_true, decide_eq_true_eq] at h1
          simp [sideNode, h1.2, this]
      · rintro ⟨ax', h1, h2, h3⟩
        rw [Option.some.injEq] at h1 h3
        subst h1
        have := hb.2.2.1 h2
        rw [Bool.and_eq_true, Bool.not_eq_true']
        refine ⟨h2, ?_⟩
        cases hs : s.2
        · rw [hs] at h3; simpa [sideNode] using h3
        · rw [hs] at h3; simpa [sideNode, this] using h3

/-- Every node of a side is constrained: by the value of the side, or by that of a side of a later direction it also lies on. -/
theorem side_prescribed {axs : List (Axis ℝ)} (hw : ∀ ax ∈ axs, WF ax) (ho : ∀ ax ∈ axs, OpenEnds ax) {z : List Int}
    {axis : Nat} {ax : Axis ℝ} (hax : axs[axis]? = some ax) (hper : ax.periodic = false) {side : Bool}
    (hz : z[axis]? = some (sideNode ax side)) {ops : List (Form.Op ℝ)} {k : Nat} {v : ℝ} (hv : SideValue ops axis side k = some v)
    (UG : Option (List Int → Int → ℝ)) :
    ∃ w, prescribedAt axs ops UG (z, (k:Int)) = some (fromTable UG z (k:Int) w) ∧
      (w = v ∨ ∃ a s ax', axis < a ∧ axs[a]? = some ax' ∧ ax'.periodic = false ∧ z[a]? = some (sideNode ax' s) ∧ SideValue ops a s k = some w) := by
  unfold prescribedAt nodePrescribed
  obtain ⟨f, hf⟩ : ∃ f : Nat × Bool → Option ℝ, f = fun s =>
    if OnGridSide (nodeDirs axs) z s = true then inForce (s.1:Int) (if s.2 = true then 1 else 0) (k:Int) (Form.valueEvents ops) else none := ⟨_, rfl⟩
  have hlen : (nodeDirs axs).length = axs.length := by unfold nodeDirs; simp
  have hlt : axis < axs.length := (List.getElem?_eq_some_iff.1 hax).1
  have hfa : f (axis, side) = some v := by
    rw [hf]
    dsimp only
    rw [if_pos ((onGridSide_iff hw ho z (axis, side)).2 ⟨ax, hax, hper, hz⟩)]
    exact hv
  have hmem : (axis, side) ∈ (sides (nodeDirs axs).length).reverse := by
    rw [List.mem_reverse, hlen]; exact mem_sides hlt side
  have hsome : ((sides (nodeDirs axs).length).reverse.findSome? f).isSome := by
    rw [List.findSome?_isSome_iff]
    exact ⟨_, hmem, by rw [hfa]; rfl⟩
  obtain ⟨w, hw'⟩ := Option.isSome_iff_exists.1 hsome
  refine ⟨w, ?_, ?_⟩
  · dsimp only
    rw [← hf, hw']; rfl
  · rw [List.findSome?_eq_some_iff] at hw'
    obtain ⟨l1, a, l2, hl, ha, hn⟩ := hw'
    have hp := (List.pairwise_reverse (R := fun b a : Nat × Bool => a.1 < b.1 ∨ a.1 = b.1 ∧ a.2 = false ∧ b.2 = true)).2 (sides_pairwise (nodeDirs axs).length)
    rw [hl] at hmem hp
    rw [List.mem_append, List.mem_cons] at hmem
    rcases hmem with h | h | h
    · rw [hn _ h] at hfa; cases hfa
    · left; rw [← h, hfa] at ha; exact (Option.some.inj ha).symm
    · right
      have hp' := (List.pairwise_cons.1 (List.pairwise_append.1 hp).2.1).1 _ h
      have hon : OnGridSide (nodeDirs axs) z a = true := by
        by_contra hc
        rw [hf] at ha; dsimp only at ha; rw [if_neg hc] at ha; cases ha
      have hval : SideValue ops a.1 a.2 k = some w := by
        rw [hf] at ha; dsimp only at ha; rw [if_pos hon] at ha; exact ha
      obtain ⟨ax', q1, q2, q3⟩ := (onGridSide_iff hw ho z a).1 hon
      refine ⟨a.1, a.2, ax', ?_, q1, q2, q3, hval⟩
      rcases hp' with hlt' | ⟨e1, e2, e3⟩
      · exact hlt'
      · exfalso
        dsimp only at e1 e2
        rw [← e1, hax] at q1
        cases q1
        rw [← e1, hz] at q3
        have hb := nnp_bounds (hw ax (List.mem_of_getElem? hax))
        have h1 := hb.2.2.1 hper
        have h2 := (hw ax (List.mem_of_getElem? hax)).legal.enough
        have h3 := (hw ax (List.mem_of_getElem? hax)).legal.degree
        rw [e2, e3] at q3
        simp only [sideNode, Bool.false_eq_true, if_false, if_true, Option.some.injEq] at q3
        omega

/-- At every point of a side the boundary callbacks visit – whatever the element, the weights (positive) and the geometry – the value
there of field `k` of the nodal field `u`, computed from the functions of the point, satisfies `P u`. -/
def AllOverSide (ds : List (Direction Line)) (axis : Fin ds.length) (side : Bool) (P : ((List Int → Nat → ℝ) → ℝ) → Prop) (k : Nat) : Prop :=
  ∀ (nsd : Nat) (c : PtIn ds.length nsd (Fin (nenOf (ds.map Direction.ax)))), PositiveWeights c →
    ∀ e, InBox (ds.map fun δ => δ.ax.nel) e → e[(axis:Nat)]? = some (sideElem ds[axis].ax side) →
    ∀ mem qs, tabulateFace c (ds.map Direction.B) (ds.map fun d => endPoints d.ax) e axis side mem = .ok qs →
    ∀ q ∈ qs, P fun u => combine (ds.map Direction.ax) e q.data.shape.t0 u k

variable {ds : List (Direction Line)} {ops : List (Form.Op ℝ)} {dof : Nat}

/-- The nodes of a side of a field with the prescribed values. -/
theorem side_node_value (S : Setup g2 g3 false size procs axes (ds.map Direction.ax) Ls) {UG : Option (List Int → Int → ℝ)}
    {u : List Int → Nat → ℝ} (hu : Satisfies (ds.map Direction.ax) ops dof UG u) (axis : Fin ds.length) (side : Bool)
    (hper : ds[axis].ax.periodic = false) {k : Nat} (hk : k < dof) {v : ℝ} (hv : SideValue ops axis side k = some v)
    {e : List Int} (he : InBox (ds.map fun δ => δ.ax.nel) e) {z : List Int}
    (hz : NodeOnSide (ds.map Direction.ax) e axis (sideNode ds[axis].ax side) z) :
    ∃ w, u z k = fromTable UG z (k:Int) w ∧ (w = v ∨ ∃ a s, (axis:Nat) < a ∧ SideValue ops a s k = some w) := by
  obtain ⟨h1, h3, hw⟩ := setup_facts S
  have hw' : ∀ ax ∈ ds.map Direction.ax, WF ax := by
    intro ax hax
    obtain ⟨δ, hδ, rfl⟩ := List.mem_map.1 hax
    exact hw δ hδ
  have ho' : ∀ ax ∈ ds.map Direction.ax, OpenEnds ax := by
    intro ax hax
    obtain ⟨δ, hδ, rfl⟩ := List.mem_map.1 hax
    exact setup_open S δ hδ
  obtain ⟨⟨t, ht, rfl⟩, hz2⟩ := hz
  have he' : InBox ((ds.map Direction.ax).map Axis.nel) e := by rw [List.map_map]; exact he
  have hin := nodeOf_inBox S he' ((mem_indices _ _).2 ht)
  obtain ⟨w, p1, p2⟩ := side_prescribed hw' ho' (z := nodeOf false (ds.map Direction.ax) e t) (axis := axis) (ax := ds[axis].ax) (by simp) hper hz2 hv UG
  refine ⟨w, hu _ k hin hk _ p1, ?_⟩
  rcases p2 with h | ⟨a, s, ax', a1, -, -, -, a2⟩
  · exact .inl h
  · exact .inr ⟨a, s, a1, a2⟩

/-- What solves the assembled problem has the values of the side all over the side. -/
theorem satisfies_side (S : Setup g2 g3 false size procs axes (ds.map Direction.ax) Ls)
    (hT : ∀ δ ∈ ds, δ.Tabulated) (hs : ∀ δ ∈ ds, IsSpline δ) (hX : PointsInside ds)
    {u : List Int → Nat → ℝ} (hu : Satisfies (ds.map Direction.ax) ops dof none u) (axis : Fin ds.length) (side : Bool)
    (hc : ClampedAt ds[axis].ax side) (hper : ds[axis].ax.periodic = false) {k : Nat} (hk : k < dof) {v : ℝ}
    (hv : SideValue ops axis side k = some v) {lo hi : ℝ} (hlo : lo ≤ v ∧ v ≤ hi)
    (hlater : ∀ a s w, (axis:Nat) < a → SideValue ops a s k = some w → lo ≤ w ∧ w ≤ hi) :
    AllOverSide ds axis side (fun val => lo ≤ val u ∧ val u ≤ hi) k := by
  intro nsd c hR e he hside mem qs h q hq
  refine (C119_trace S hT hs hX c hR he axis side hc hper hside h q hq u k).2 lo hi ?_
  intro z hz
  obtain ⟨w, w1, w2⟩ := side_node_value S hu axis side hper hk hv he hz
  rw [w1]
  rcases w2 with rfl | ⟨a, s, a1, a2⟩
  · exact hlo
  · exact hlater a s w a1 a2

theorem satisfies_table (S : Setup g2 g3 false size procs axes (ds.map Direction.ax) Ls)
    (hT : ∀ δ ∈ ds, δ.Tabulated) (hs : ∀ δ ∈ ds, IsSpline δ) (hX : PointsInside ds) {G : List Int → Int → ℝ}
    {u : List Int → Nat → ℝ} (hu : Satisfies (ds.map Direction.ax) ops dof (some G) u) (axis : Fin ds.length) (side : Bool)
    (hc : ClampedAt ds[axis].ax side) (hper : ds[axis].ax.periodic = false) {k : Nat} (hk : k < dof) {v : ℝ}
    (hv : SideValue ops axis side k = some v) :
    AllOverSide ds axis side (fun val => val u = val fun z c => G z c) k := by
  intro nsd c hR e he hside mem qs h q hq
  refine (C119_trace S hT hs hX c hR he axis side hc hper hside h q hq u k).1 _ ?_
  intro z hz
  obtain ⟨w, w1, -⟩ := side_node_value S hu axis side hper hk hv he hz
  rw [w1]; rfl

variable {P : Type} {elt : List Int → Elt ℝ P} {UG : Option (List Int → Int → ℝ)}

/-- `u` solves the assembled linear system `(A, b)`: the equation of every unknown holds. -/
def SolvesSystem (axs : List (Axis ℝ)) (dof : Nat) (a : List Int → Nat → List Int → Nat → ℝ) (f u : List Int → Nat → ℝ) : Prop :=
  ∀ z (c : Nat), InBox (axs.map Axis.nnp) z → c < dof →
    ((indices (axs.map Axis.nnp)).map fun y => ((List.range dof).map fun d => a z c y d * u y d).sum).sum = f z c

/-- **C120**, `IGAComputeSystem`: every solution `u` of the assembled system has, all over a clamped side, the value `v` set there with
`IGASetBoundaryValue`, provided the sides of later directions prescribe the same value or none (those win at common nodes; what
earlier directions prescribe does not matter).  In general the values stay between those of the side and of the later directions. -/
theorem C120_system (S : Setup g2 g3 false size procs axes (ds.map Direction.ax) Ls)
    (hT : ∀ δ ∈ ds, δ.Tabulated) (hs : ∀ δ ∈ ds, IsSpline δ) (hX : PointsInside ds)
    (hB : ∀ e, InBox ((ds.map Direction.ax).map Axis.nel) e → Built (ds.map Direction.ax) ops dof none e (elt e))
    (cb : P → (Int → ℝ) → (Int → ℝ) → Res ((Int → ℝ) × (Int → ℝ))) (k r : P → Int → ℝ)
    (hK : FillsSys (unknowns (ds.map Direction.ax) dof) (unknowns (ds.map Direction.ax) dof) cb k r) (hist) (pw) (w) :
    ∃ A b a f, computeSystem Ls hist dof ⟨elt, pw, w⟩ cb = .ok (A, b) ∧ RepresentsMat (ds.map Direction.ax) Ls dof A a ∧
      Represents (ds.map Direction.ax) Ls dof b f ∧
      ∀ u, SolvesSystem (ds.map Direction.ax) dof a f u →
      ∀ (axis : Fin ds.length) (side : Bool) (c : Nat) (v : ℝ), ClampedAt ds[axis].ax side → ds[axis].ax.periodic = false → c < dof →
        SideValue ops axis side c = some v →
        ((∀ a s w, (axis:Nat) < a → SideValue ops a s c = some w → w = v) → AllOverSide ds axis side (fun val => val u = v) c) ∧
        ∀ lo hi, lo ≤ v ∧ v ≤ hi → (∀ a s w, (axis:Nat) < a → SideValue ops a s c = some w → lo ≤ w ∧ w ≤ hi) →
          AllOverSide ds axis side (fun val => lo ≤ val u ∧ val u ≤ hi) c := by
  obtain ⟨A, b, a, f, h1, h2, h3, h4⟩ := C80_system S hB cb k r hK hist pw w
  refine ⟨A, b, a, f, h1, h2, h3, fun u hu axis side c v hc hper hcd hv => ?_⟩
  have hsat := ((h4 u).1 hu).1
  have key := fun lo hi => satisfies_side (lo := lo) (hi := hi) S hT hs hX hsat axis side hc hper hcd hv
  refine ⟨fun hl => ?_, fun lo hi h hl => key lo hi h hl⟩
  intro nsd c' hR e he hside mem qs h q hq
  have := key v v ⟨le_rfl, le_rfl⟩ (fun a s w h1 h2 => by rw [hl a s w h1 h2]; exact ⟨le_rfl, le_rfl⟩) nsd c' hR e he hside mem qs h q hq
  exact le_antisymm this.2 this.1

/-- **C120**, `IGAComputeFunction`: the same for every zero of the assembled nonlinear residual. -/
theorem C120_function (S : Setup g2 g3 false size procs axes (ds.map Direction.ax) Ls)
    (hT : ∀ δ ∈ ds, δ.Tabulated) (hs : ∀ δ ∈ ds, IsSpline δ) (hX : PointsInside ds)
    (hB : ∀ e, InBox ((ds.map Direction.ax).map Axis.nel) e → Built (ds.map Direction.ax) ops dof none e (elt e))
    (cb : P → List ℝ → (Int → ℝ) → Res (Int → ℝ)) (R : P → List ℝ → Int → ℝ)
    (hR : ∀ U, Fills (unknowns (ds.map Direction.ax) dof) (fun p => cb p U) (fun p => R p U)) (hist) (pw) (w) (vecU : Int → ℝ) (junk)
    (u : List Int → Nat → ℝ) (hu : Represents (ds.map Direction.ax) Ls dof vecU u) :
    ∃ F, computeFunction Ls hist dof ⟨elt, pw, w⟩ cb vecU junk = .ok F ∧ (Represents (ds.map Direction.ax) Ls dof F (fun _ _ => 0) →
      ∀ (axis : Fin ds.length) (side : Bool) (c : Nat) (v : ℝ), ClampedAt ds[axis].ax side → ds[axis].ax.periodic = false → c < dof →
        SideValue ops axis side c = some v → (∀ a s w, (axis:Nat) < a → SideValue ops a s c = some w → w = v) →
        AllOverSide ds axis side (fun val => val u = v) c) := by
  obtain ⟨F, h1, h2⟩ := C80_function S hB cb R hR hist pw w vecU junk u hu
  refine ⟨F, h1, fun h0 axis side c v hc hper hcd hv hl => ?_⟩
  intro nsd c' hR e he hside mem qs h q hq
  have := satisfies_side S hT hs hX (h2.1 h0).1 axis side hc hper hcd hv (lo := v) (hi := v) ⟨le_rfl, le_rfl⟩
    (fun a s w h1 h2 => by rw [hl a s w h1 h2]; exact ⟨le_rfl, le_rfl⟩) nsd c' hR e he hside mem qs h q hq
  exact le_antisymm this.2 this.1

/-- **C120**, `IGASetFixTable`: with a table, every solution of the assembled system equals the field of the table all over every clamped
side on which a value is set, corners and edges included (whatever the value and the other sides). -/
theorem C120_table (S : Setup g2 g3 false size procs axes (ds.map Direction.ax) Ls)
    (hT : ∀ δ ∈ ds, δ.Tabulated) (hs : ∀ δ ∈ ds, IsSpline δ) (hX : PointsInside ds) (G : List Int → Int → ℝ)
    (hB : ∀ e, InBox ((ds.map Direction.ax).map Axis.nel) e → Built (ds.map Direction.ax) ops dof (some G) e (elt e))
    (cb : P → (Int → ℝ) → (Int → ℝ) → Res ((Int → ℝ) × (Int → ℝ))) (k r : P → Int → ℝ)
    (hK : FillsSys (unknowns (ds.map Direction.ax) dof) (unknowns (ds.map Direction.ax) dof) cb k r) (hist) (pw) (w) :
    ∃ A b a f, computeSystem Ls hist dof ⟨elt, pw, w⟩ cb = .ok (A, b) ∧ RepresentsMat (ds.map Direction.ax) Ls dof A a ∧
      Represents (ds.map Direction.ax) Ls dof b f ∧
      ∀ u, SolvesSystem (ds.map Direction.ax) dof a f u →
      ∀ (axis : Fin ds.length) (side : Bool) (c : Nat), ClampedAt ds[axis].ax side → ds[axis].ax.periodic = false → c < dof →
        SideValue ops axis side c ≠ none → AllOverSide ds axis side (fun val => val u = val fun z c => G z c) c := by
  obtain ⟨A, b, a, f, h1, h2, h3, h4⟩ := C80_system S hB cb k r hK hist pw w
  refine ⟨A, b, a, f, h1, h2, h3, fun u hu axis side c hc hper hcd hv => ?_⟩
  obtain ⟨v, hv⟩ := Option.ne_none_iff_exists'.1 hv
  exact satisfies_table S hT hs hX ((h4 u).1 hu).1 axis side hc hper hcd hv

/-- The theorems apply to the mesh of `exRealSetup` (two processes) with the conditions of `exOpsR`: every solution of a system assembled
with any callback has first component 5 all over the low side of direction 0 and second component -2 all over the high side of direction 1. -/
example (g2 : Guess2) (g3 : Guess3) (J : Bsp.Junk ℝ) (qs)
    (cb : PtData (exLines J).length 2 (nenOf ((exLines J).map Direction.ax)) → (Int → ℝ) → (Int → ℝ) → Res ((Int → ℝ) × (Int → ℝ))) (k r)
    (hK : FillsSys (unknowns ((exLines J).map Direction.ax) 2) (unknowns ((exLines J).map Direction.ax) 2) cb k r) (hist) (pw) (w) :
    ∃ Ls A b a f, Setup g2 g3 false 2 [2,1] [exRealAx, exRealAx] ((exLines J).map Direction.ax) Ls ∧
      computeSystem Ls hist 2 ⟨exEltR J qs, pw, w⟩ cb = .ok (A, b) ∧ RepresentsMat ((exLines J).map Direction.ax) Ls 2 A a ∧
      Represents ((exLines J).map Direction.ax) Ls 2 b f ∧ ∀ u, SolvesSystem ((exLines J).map Direction.ax) 2 a f u →
        AllOverSide (exLines J) ⟨0, by simp [exLines]⟩ false (fun val => val u = 5) 0 ∧
        AllOverSide (exLines J) ⟨1, by simp [exLines]⟩ true (fun val => val u = -2) 1 := by
  obtain ⟨Ls, S⟩ := exRealSetup g2 g3
  have S' : Setup g2 g3 false 2 [2,1] [exRealAx, exRealAx] ((exLines J).map Direction.ax) Ls := S
  have hok := exLines_ok J
  obtain ⟨A, b, a, f, h1, h2, h3, h4⟩ := C120_system S' (fun δ h => (hok δ h).1) (fun δ h => (hok δ h).2.1) (fun δ h => (hok δ h).2.2.2)
    (exEltR_built J qs) cb k r hK hist pw w
  refine ⟨Ls, A, b, a, f, S', h1, h2, h3, fun u hu => ⟨?_, ?_⟩⟩
  · refine (h4 u hu ⟨0, by simp [exLines]⟩ false 0 5 (exRealAx_clamped false) rfl (by omega) ?_).1 ?_
    · simp [SideValue, exOpsR, Form.valueEvents, inForce, BCEvent.legal]
    · intro a s w ha hw
      have : (0:Nat) < a := ha
      simp [SideValue, exOpsR, Form.valueEvents, inForce, BCEvent.legal] at hw
      omega
  · refine (h4 u hu ⟨1, by simp [exLines]⟩ true 1 (-2) (exRealAx_clamped true) rfl (by omega) ?_).1 ?_
    · simp [SideValue, exOpsR, Form.valueEvents, inForce, BCEvent.legal]
    · intro a s w ha hw
      have : (1:Nat) < a := ha
      simp [SideValue, exOpsR, Form.valueEvents, inForce, BCEvent.legal] at hw
      omega

end PetIGA.Itg
