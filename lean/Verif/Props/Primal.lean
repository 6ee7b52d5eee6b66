import Verif.Model.Primal
import Verif.Props.BDDCSetup
import Verif.Props.Coords
import Verif.Props.Assemble

/-!
C116: the primal vertices handed to the BDDC preconditioner.
-/

set_option linter.unusedSectionVars false

namespace PetIGA.BDDC
open PetIGA.Lay PetIGA.Grid PetIGA.Spec PetIGA.Ax PetIGA.Part

variable {K : Type} [Field K] [LinearOrder K] [IsStrictOrderedRing K]

/-! ### Specification -/

/-- The node (in global coordinates of one direction, not reduced) in the middle of the overlap at the upper side of a
process: half of the nodes from the first one behind the owned ones to the last one of the ghosted box are above it. -/
def plane (d : Dir) : Int :=
  d.nodeGstart + d.nodeGwidth - 1 - (d.nodeGstart + d.nodeGwidth - (d.nodeLstart + d.nodeLwidth)) / 2

/-- One coordinate of a primal vertex of a process: its own plane, or the beginning of the domain. -/
def OnPlane (ax : Axis K) (r : Int) (d : Dir) (x : Int) : Prop :=
  x = plane d ∨ (ax.periodic = false ∧ r = 0 ∧ x = 0)

/-- A primal vertex of a process. -/
inductive Vertex : List (Axis K) → List Int → List Dir → List Int → Prop
  | nil : Vertex [] [] [] []
  | cons {ax : Axis K} {r : Int} {d : Dir} {x : Int} {as : List (Axis K)} {rs : List Int} {ds : List Dir} {xs : List Int} :
      OnPlane ax r d x → Vertex as rs ds xs → Vertex (ax :: as) (r :: rs) (d :: ds) (x :: xs)

/-! ### One direction -/

/-- What is known of the planes of the processes of one direction. -/
structure PlaneOK (ax : Axis K) (P r : Int) (d : Dir) : Prop where
  gal : GalOK ax P r d
  inside : d.nodeGstart ≤ plane d ∧ plane d < d.nodeGstart + d.nodeGwidth
  owned : d.nodeLstart + d.nodeLwidth - 1 ≤ plane d
  positive : 1 ≤ plane d

theorem gal_gend_lt {ax : Axis K} (h : WF ax) {P r : Int} (hP : 1 ≤ P) (hN : P ≤ ax.nel) (h0 : 0 ≤ r) (h1 : r + 1 < P) :
    (galDir ax P r).nodeGstart + (galDir ax P r).nodeGwidth < (galDir ax P (r+1)).nodeGstart + (galDir ax P (r+1)).nodeGwidth := by
  obtain ⟨a, b, c, d, e⟩ := bal_range hP hN h0 (show r < P by omega)
  obtain ⟨a', b', c', d', e'⟩ := bal_range hP hN (r := r+1) (by omega) h1
  have n := (C02_distribution_balanced P ax.nel hP (by omega)).next r h0 (by omega)
  dsimp only [galDir]
  have := sp_lt h.toPreWF (i := (dist1D P r ax.nel).2 + (dist1D P r ax.nel).1 - 1)
    (j := (dist1D P (r+1) ax.nel).2 + (dist1D P (r+1) ax.nel).1 - 1) (by omega) (by omega) (by omega)
  omega

theorem gal_overlap {ax : Axis K} (h : WF ax) {P r : Int} (hP : 1 ≤ P) (hN : P ≤ ax.nel) (h0 : 0 ≤ r) (h1 : r + 1 < P) :
    (galDir ax P r).nodeLstart + (galDir ax P r).nodeLwidth = (galDir ax P (r+1)).nodeLstart ∧
    (galDir ax P r).nodeLstart + (galDir ax P r).nodeLwidth + 1 ≤ (galDir ax P r).nodeGstart + (galDir ax P r).nodeGwidth ∧
    (galDir ax P r).nodeGstart + (galDir ax P r).nodeGwidth ≤ (galDir ax P r).nodeLstart + (galDir ax P r).nodeLwidth + ax.p := by
  obtain ⟨a, b, c, d, e⟩ := bal_range hP hN h0 (show r < P by omega)
  have n := (C02_distribution_balanced P ax.nel hP (by omega)).next r h0 (by omega)
  have d' := d (by omega)
  have s1 := PetIGA.Crd.sp_step h.toPreWF (e := (dist1D P r ax.nel).2 + (dist1D P r ax.nel).1 - 1) (by omega) (by omega)
  have s2 := sp_lt h.toPreWF (i := (dist1D P r ax.nel).2 + (dist1D P r ax.nel).1 - 1) (j := (dist1D P r ax.nel).2 + (dist1D P r ax.nel).1)
    (by omega) (by omega) (by omega)
  rw [show (dist1D P r ax.nel).2 + (dist1D P r ax.nel).1 - 1 + 1 = (dist1D P r ax.nel).2 + (dist1D P r ax.nel).1 by ring] at s1
  dsimp only [galDir]
  rw [if_neg (by omega), if_pos (by omega), n]
  refine ⟨by omega, by omega, by omega⟩

/-- The last process of a direction: the ghosted box ends with the last basis function. -/
theorem gal_last {ax : Axis K} (h : WF ax) (hc : Condition false ax) {P : Int} (hP : 1 ≤ P) (hN : P ≤ ax.nel) :
    (galDir ax P (P-1)).nodeGstart + (galDir ax P (P-1)).nodeGwidth = ax.m - ax.p ∧
    (galDir ax P (P-1)).nodeLstart + (galDir ax P (P-1)).nodeLwidth = ax.nnp := by
  obtain ⟨a, b, c, d, e⟩ := bal_range hP hN (r := P-1) (by omega) (by omega)
  have e' := e rfl
  obtain ⟨c1, c2⟩ := hc.1 rfl
  have hlast := sp_last h.toPreWF (by omega) c2
  dsimp only [galDir]
  rw [show (dist1D P (P-1) ax.nel).2 + (dist1D P (P-1) ax.nel).1 - 1 = ax.nel - 1 by omega, hlast, if_pos rfl]
  exact ⟨by ring, by ring⟩

theorem gal_gend_first {ax : Axis K} (h : WF ax) {P r : Int} (hP : 1 ≤ P) (hN : P ≤ ax.nel) (h0 : 0 ≤ r) (h1 : r < P) :
    ax.p + 1 ≤ (galDir ax P r).nodeGstart + (galDir ax P r).nodeGwidth := by
  obtain ⟨a, b, c, d, e⟩ := bal_range hP hN h0 h1
  have := (sp_elem h.toPreWF (i := (dist1D P r ax.nel).2 + (dist1D P r ax.nel).1 - 1) (by omega) (by omega)).1
  dsimp only [galDir]
  omega

theorem gal_plane {ax : Axis K} (h : WF ax) (hc : Condition false ax) {P r : Int} (hP : 1 ≤ P) (hN : P ≤ ax.nel) (h0 : 0 ≤ r)
    (h1 : r < P) : PlaneOK ax P r (galDir ax P r) ∧ ax.p ≤ 2 * plane (galDir ax P r) := by
  have g := gal_ok h hc hP hN h0 h1
  have hp := h.legal.degree
  have hm := h.legal.enough
  obtain ⟨n1, n2, n3, n4⟩ := nnp_bounds h
  obtain ⟨g1, g2, g3, g4, -, -, -⟩ := g
  have k : ax.p ≤ 2 * plane (galDir ax P r) ∧ 1 ≤ plane (galDir ax P r) := by
    by_cases hr : r + 1 < P
    · have o := gal_overlap h hP hN h0 hr
      have f := gal_gend_first h hP hN h0 h1
      unfold plane
      omega
    · have hr' : r = P - 1 := by omega
      obtain ⟨l1, l2⟩ := gal_last h hc hP hN
      rw [← hr'] at l1 l2
      unfold plane
      omega
  refine ⟨⟨gal_ok h hc hP hN h0 h1, ?_, ?_, k.2⟩, k.1⟩ <;> unfold plane <;> omega

/-- **C116**, one direction: the planes of the processes of a direction lie strictly behind each other; each is also in the
box of the next process; in a direction that is not periodic the last one is the end of the domain, in a periodic one the last
one, going round, is before the first one. -/
theorem planes {ax : Axis K} (h : WF ax) (hc : Condition false ax) {P : Int} (hP : 1 ≤ P) (hN : P ≤ ax.nel) :
    (∀ r, 0 ≤ r → r + 1 < P → plane (galDir ax P r) < plane (galDir ax P (r+1)) ∧
      (galDir ax P (r+1)).nodeLstart ≤ plane (galDir ax P r) ∧
      plane (galDir ax P r) < (galDir ax P (r+1)).nodeGstart + (galDir ax P (r+1)).nodeGwidth) ∧
    (ax.periodic = false → plane (galDir ax P (P-1)) = ax.nnp - 1) ∧
    (ax.periodic = true → plane (galDir ax P (P-1)) < plane (galDir ax P 0) + ax.nnp) := by
  have hp := h.legal.degree
  have hm := h.legal.enough
  obtain ⟨n1, n2, n3, n4⟩ := nnp_bounds h
  obtain ⟨l1, l2⟩ := gal_last h hc hP hN
  refine ⟨?_, ?_, ?_⟩
  · intro r h0 h1
    have o := gal_overlap h hP hN h0 h1
    have e := gal_gend_lt h hP hN h0 h1
    have g := gal_ok h hc hP hN h0 (show r < P by omega)
    have g' := gal_ok h hc hP hN (r := r+1) (by omega) h1
    have := g'.pos
    have := g'.same
    unfold plane
    refine ⟨by omega, by omega, by omega⟩
  · intro hper
    have := n3 hper
    unfold plane
    omega
  · intro hper
    have := n4 hper
    have k := (gal_plane h hc hP hN (r := 0) (by omega) (by omega)).2
    by_cases hP1 : P = 1
    · subst hP1
      rw [show (1:Int) - 1 = 0 by ring]
      omega
    · have e : plane (galDir ax P (P-1)) = ax.m - ax.p - 1 - (ax.m - ax.p - ax.nnp) / 2 := by
        unfold plane
        omega
      omega

theorem planes_lt {ax : Axis K} (h : WF ax) (hc : Condition false ax) {P : Int} (hP : 1 ≤ P) (hN : P ≤ ax.nel) {r r' : Int}
    (h0 : 0 ≤ r) (hr : r < r') (h1 : r' < P) : plane (galDir ax P r) < plane (galDir ax P r') := by
  obtain ⟨n, hn⟩ : ∃ n : Nat, r' = r + 1 + n := ⟨(r' - r - 1).toNat, by omega⟩
  subst hn
  clear hr
  induction n with
  | zero =>
    simpa using ((planes h hc hP hN).1 r h0 (by simpa using h1)).1
  | succ n ih =>
    have a := ih (by push_cast at h1; omega)
    have b := ((planes h hc hP hN).1 (r + 1 + n) (by omega) (by push_cast at h1; omega)).1
    push_cast
    rw [show r + 1 + ((n:Int) + 1) = r + 1 + n + 1 by ring]
    omega

/-- Two processes with different coordinates in a direction have no primal node of that direction in common. -/
theorem planes_ne {ax : Axis K} (h : WF ax) (hc : Condition false ax) {P : Int} (hP : 1 ≤ P) (hN : P ≤ ax.nel) {r r' x x' : Int}
    (h0 : 0 ≤ r) (h1 : r < P) (h0' : 0 ≤ r') (h1' : r' < P) (hr : r < r') (hx : OnPlane ax r (galDir ax P r) x)
    (hx' : OnPlane ax r' (galDir ax P r') x') : x % ax.nnp ≠ x' % ax.nnp := by
  obtain ⟨n1, n2, n3, n4⟩ := nnp_bounds h
  have hm := h.legal.enough
  have lt := planes_lt h hc hP hN h0 hr h1'
  obtain ⟨-, last, per⟩ := planes h hc hP hN
  have le_last : plane (galDir ax P r') ≤ plane (galDir ax P (P-1)) := by
    by_cases e : r' = P - 1
    · rw [e]
    · exact (planes_lt h hc hP hN h0' (show r' < P - 1 by omega) (by omega)).le
  have ge_first : plane (galDir ax P 0) ≤ plane (galDir ax P r) := by
    by_cases e : r = 0
    · rw [e]
    · exact (planes_lt h hc hP hN (le_refl 0) (show 0 < r by omega) h1).le
  have pos := (gal_plane h hc hP hN h0 h1).1.positive
  have hx'' : x' = plane (galDir ax P r') := by
    rcases hx' with hx' | ⟨-, e, -⟩
    · exact hx'
    · omega
  have hlt : x < x' := by
    rcases hx with hx | ⟨-, -, e⟩ <;> omega
  have hdiff : x' - x < ax.nnp ∧ 0 ≤ x := by
    cases hper : ax.periodic with
    | false =>
      have := last hper
      rcases hx with hx | ⟨-, -, e⟩ <;> omega
    | true =>
      have := per hper
      rcases hx with hx | ⟨e, -, -⟩
      · omega
      · rw [hper] at e; simp at e
  intro he
  have d := Int.emod_eq_emod_iff_emod_sub_eq_zero.1 he.symm
  rw [Int.emod_eq_of_lt (by omega) hdiff.1] at d
  omega

/-! ### All directions -/

/-- The local indices of the primal nodes of one direction. -/
def choices (ax : Axis K) (r : Int) (d : Dir) : List Int :=
  if r > 0 ∨ ax.periodic = true then [corner d] else [0, corner d]

/-- All combinations, the first list in the outermost loop. -/
def combos : List (List Int) → List (List Int)
  | [] => [[]]
  | l :: ls => l.flatMap fun a => (combos ls).map fun x => a :: x

/-- The choices of all directions. -/
def choicesAll : List (Axis K) → List Int → List Dir → List (List Int)
  | ax :: as, r :: rs, d :: ds => choices ax r d :: choicesAll as rs ds
  | _, _, _ => []

theorem mem_combos : ∀ (ls : List (List Int)) (x : List Int), x ∈ combos ls ↔ List.Forall₂ (fun a l => a ∈ l) x ls := by
  intro ls
  induction ls with
  | nil => intro x; simp [combos]
  | cons l ls ih =>
    intro x
    simp only [combos, List.mem_flatMap, List.mem_map]
    constructor
    · rintro ⟨a, ha, y, hy, rfl⟩
      exact .cons ha ((ih y).1 hy)
    · intro h
      cases h with
      | cons h1 h2 => exact ⟨_, h1, _, (ih _).2 h2, rfl⟩

theorem nodup_combos : ∀ {ls : List (List Int)}, (∀ l ∈ ls, l.Nodup) → (combos ls).Nodup := by
  intro ls
  induction ls with
  | nil => intro _; simp [combos]
  | cons l ls ih =>
    intro h
    rw [combos, List.nodup_flatMap]
    refine ⟨fun a _ => (ih fun l hl => h l (by simp [hl])).map (fun x y e => by simpa using e), ?_⟩
    refine (h l (by simp)).imp ?_
    intro a b hab x hx hy
    obtain ⟨y, -, rfl⟩ := List.mem_map.1 hx
    obtain ⟨z, -, e⟩ := List.mem_map.1 hy
    simp only [List.cons.injEq] at e
    exact hab e.1.symm

theorem corner_plane {ax : Axis K} {P r : Int} {d : Dir} (h : PlaneOK ax P r d) : corner d = plane d - d.nodeGstart := by
  have := h.gal.le
  have := h.gal.same
  unfold corner plane
  dsimp only
  rw [Int.tdiv_eq_ediv_of_nonneg (by omega)]
  ring

theorem corner_range {ax : Axis K} {P r : Int} {d : Dir} (h : PlaneOK ax P r d) : 0 ≤ corner d ∧ corner d < d.nodeGwidth ∧
    (r = 0 → 1 ≤ corner d) := by
  have := corner_plane h
  have := h.inside
  have := h.positive
  have := h.gal.first
  refine ⟨by omega, by omega, fun hr => ?_⟩
  have := this.2 hr
  omega

theorem index3_nonneg {N0 N1 i j k : Int} (h0 : 0 ≤ N0) (h1 : 0 ≤ N1) (hi : 0 ≤ i) (hj : 0 ≤ j) (hk : 0 ≤ k) : 0 ≤ index3 N0 N1 i j k := by
  have a := mul_nonneg hj h0
  have b := mul_nonneg (mul_nonneg hk h0) h1
  unfold index3
  omega

theorem flat1 (N0 i : Int) : flat [N0] [i] = index3 N0 1 i 0 0 := by simp [flat, index3]
theorem flat2 (N0 N1 i j : Int) : flat [N0, N1] [i, j] = index3 N0 N1 i j 0 := by simp only [flat, index3]; ring
theorem flat3 (N0 N1 N2 i j k : Int) : flat [N0, N1, N2] [i, j, k] = index3 N0 N1 i j k := by simp only [flat, index3]; ring

theorem table_eq {L : Layout K} (hC : Coords PlaneOK L.axes L.procs L.ranks L.dir) (hd : 1 ≤ L.dir.length ∧ L.dir.length ≤ 3) :
    (table L).filter (fun v => v ≥ 0) = (combos (choicesAll L.axes L.ranks L.dir)).map (flat (L.dir.map Dir.nodeGwidth)) := by
  obtain ⟨axes, procs, ranks, dir⟩ := L
  dsimp only at hC hd ⊢
  cases hC with
  | nil => simp at hd
  | @cons ax P r d as Ps rs ds h1 hC =>
    have k1 := corner_range h1
    have w1 : 0 ≤ d.nodeGwidth := by omega
    cases hC with
    | nil =>
      by_cases c1 : r > 0 ∨ ax.periodic = true <;>
        simp [table, vertex, choicesAll, choices, combos, c1, flat1, index3_nonneg, k1.1, w1]
    | @cons ax2 P2 r2 d2 as Ps rs ds h2 hC =>
      have k2 := corner_range h2
      have w2 : 0 ≤ d2.nodeGwidth := by omega
      cases hC with
      | nil =>
        by_cases c1 : r > 0 ∨ ax.periodic = true <;> by_cases c2 : r2 > 0 ∨ ax2.periodic = true <;>
          simp [table, vertex, choicesAll, choices, combos, c1, c2, flat2, index3_nonneg, k1.1, k2.1, w1, w2]
      | @cons ax3 P3 r3 d3 as Ps rs ds h3 hC =>
        have k3 := corner_range h3
        cases hC with
        | nil =>
          by_cases c1 : r > 0 ∨ ax.periodic = true <;> by_cases c2 : r2 > 0 ∨ ax2.periodic = true <;>
          by_cases c3 : r3 > 0 ∨ ax3.periodic = true <;>
          simp [table, vertex, choicesAll, choices, combos, c1, c2, c3, flat3, index3_nonneg, k1.1, k2.1, k3.1, w1, w2]
        | cons h4 hC => exact absurd hd.2 (by simp)

/-- A vertex in local indices. -/
theorem vertex_local {as : List (Axis K)} {Ps rs : List Int} {ds : List Dir} (h : Coords PlaneOK as Ps rs ds) (y : List Int) :
    y ∈ combos (choicesAll as rs ds) ↔ ∃ x, Vertex as rs ds x ∧ rel (ds.map Dir.nodeGstart) x = y := by
  rw [mem_combos]
  induction h generalizing y with
  | nil =>
    constructor
    · intro h; cases h; exact ⟨[], .nil, rfl⟩
    · rintro ⟨x, hx, rfl⟩; cases hx; exact .nil
  | @cons ax P r d as Ps rs ds h1 h2 ih =>
    have key : ∀ a, a ∈ choices ax r d ↔ OnPlane ax r d (a + d.nodeGstart) := by
      intro a
      have cp := corner_plane h1
      have f := h1.gal.first
      have rg := h1.gal.range
      unfold choices OnPlane
      by_cases c : r > 0 ∨ ax.periodic = true
      · rw [if_pos c, List.mem_singleton]
        constructor
        · intro e; left; omega
        · rintro (e | ⟨e1, e2, -⟩)
          · omega
          · rcases c with c | c
            · omega
            · rw [e1] at c; simp at c
      · rw [if_neg c]
        have hr : r = 0 := by by_contra hne; exact c (.inl (by omega))
        have hp : ax.periodic = false := by
          cases e : ax.periodic with
          | false => rfl
          | true => exact absurd (.inr e) c
        have g0 := f.2 hr
        simp only [List.mem_cons, List.not_mem_nil, or_false]
        constructor
        · rintro (e | e)
          · right; exact ⟨hp, hr, by omega⟩
          · left; omega
        · rintro (e | ⟨-, -, e⟩)
          · right; omega
          · left; omega
    constructor
    · intro h
      cases h with
      | @cons a _ y _ ha hy =>
        obtain ⟨x, hx, rfl⟩ := (ih _).1 hy
        exact ⟨(a + d.nodeGstart) :: x, .cons ((key a).1 ha) hx, by simp [rel]⟩
    · rintro ⟨x, hx, rfl⟩
      cases hx with
      | @cons _ _ _ x _ _ _ xs hx1 hx2 =>
        have : rel ((d :: ds).map Dir.nodeGstart) (x :: xs) = (x - d.nodeGstart) :: rel (ds.map Dir.nodeGstart) xs := rfl
        rw [this]
        exact .cons ((key _).2 (by rw [sub_add_cancel]; exact hx1)) ((ih _).2 ⟨xs, hx2, rfl⟩)

theorem vertex_inBlock {as : List (Axis K)} {Ps rs : List Int} {ds : List Dir} (h : Coords PlaneOK as Ps rs ds) {x : List Int}
    (hx : Vertex as rs ds x) : InBlock (ds.map Dir.nodeGstart) (ds.map Dir.nodeGwidth) x := by
  induction h generalizing x with
  | nil => cases hx; exact .nil
  | @cons ax P r d as Ps rs ds h1 h2 ih =>
    cases hx with
    | cons a b =>
      refine .cons ?_ (ih b)
      have := h1.inside
      have := h1.gal.first
      have g1 := h1.gal.pos
      have g2 := h1.gal.le
      rcases a with rfl | ⟨-, e, rfl⟩
      · exact h1.inside
      · have := this.2 e
        omega

theorem nodup_choices {as : List (Axis K)} {Ps rs : List Int} {ds : List Dir} (h : Coords PlaneOK as Ps rs ds) :
    ∀ l ∈ choicesAll as rs ds, l.Nodup := by
  induction h with
  | nil => intro l hl; simp [choicesAll] at hl
  | @cons ax P r d as Ps rs ds h1 h2 ih =>
    intro l hl
    rcases List.mem_cons.1 hl with rfl | hl
    · unfold choices
      split_ifs with c
      · simp
      · have rg := h1.gal.range
        have : r = 0 := by by_contra hne; exact c (.inl (by omega))
        have := (corner_range h1).2.2 this
        simp only [List.nodup_cons, List.mem_singleton, List.not_mem_nil, not_false_iff, List.nodup_nil, and_true]
        omega
    · exact ih l hl

/-- **C116** (Galerkin discretisations whose first and last knot interval is not empty): on every process, the list of primal
vertices is strictly increasing and consists of the local numbers of the nodes of the process all of whose coordinates are
the middle of the overlap at the upper side of the process or, on the first process of a direction that is not periodic, the
beginning of the domain; the index set contains exactly all unknowns of these nodes. -/
theorem C116_list_partial (g2 : Guess2) (g3 : Guess3) (size rank : Int) (procs : List Int) (axes : List (Axis K)) (L : Layout K)
    (hr : ∀ ax ∈ axes, Reached ax) (h : stage1 g2 g3 false size rank procs axes = .ok L) (hc : ∀ ax ∈ L.axes, Condition false ax)
    (hd : 1 ≤ axes.length ∧ axes.length ≤ 3) (dof : Nat) :
    (primal L).Pairwise (· < ·) ∧
    (∀ v, v ∈ primal L ↔ ∃ x, Vertex L.axes L.ranks L.dir x ∧ v = flat (L.dir.map Dir.nodeGwidth) (rel (L.dir.map Dir.nodeGstart) x)) ∧
    (∀ x, Vertex L.axes L.ranks L.dir x → InBlock (L.dir.map Dir.nodeGstart) (L.dir.map Dir.nodeGwidth) x) ∧
    (∀ u, u ∈ primalIS dof L ↔ ∃ v ∈ primal L, ∃ c : Int, 0 ≤ c ∧ c < dof ∧ u = dof * v + c) := by
  have hC : Coords PlaneOK L.axes L.procs L.ranks L.dir :=
    coords_stage1 (colloc := false) (Q := Condition false) (fun ax P r hw hq hP hN h0 h1 => (gal_plane hw hq hP hN h0 h1).1) hr h hc
  have hl : 1 ≤ L.dir.length ∧ L.dir.length ≤ 3 := by
    have e1 := (coords_get hC).1
    have e2 : L.axes.length = axes.length := by
      simp only [stage1, Res.bind_eq_ok] at h
      obtain ⟨axs, ha, _, -, _, -, _, -, hL⟩ := h
      simp only [Res.ok.injEq] at hL
      subst hL
      exact Asm.setUpAxes_length ha
    omega
  have hb := fun x hx => vertex_inBlock hC (x := x) hx
  have inj : ∀ x ∈ combos (choicesAll L.axes L.ranks L.dir), InBox (L.dir.map Dir.nodeGwidth) x := by
    intro x hx
    obtain ⟨y, hy, rfl⟩ := (vertex_local hC x).1 hx
    exact rel_inBox (hb y hy)
  have hmem : ∀ v, v ∈ primal L ↔ ∃ x, Vertex L.axes L.ranks L.dir x ∧
      v = flat (L.dir.map Dir.nodeGwidth) (rel (L.dir.map Dir.nodeGstart) x) := by
    intro v
    unfold primal
    rw [List.mem_insertionSort, table_eq hC hl, List.mem_map]
    constructor
    · rintro ⟨y, hy, rfl⟩
      obtain ⟨x, hx, rfl⟩ := (vertex_local hC y).1 hy
      exact ⟨x, hx, rfl⟩
    · rintro ⟨x, hx, rfl⟩
      exact ⟨_, (vertex_local hC _).2 ⟨x, hx, rfl⟩, rfl⟩
  refine ⟨?_, hmem, hb, ?_⟩
  · have nd : (primal L).Nodup := by
      unfold primal
      rw [(List.perm_insertionSort _ _).nodup_iff, table_eq hC hl]
      exact List.Nodup.map_on (fun x hx y hy e => flat_inj (inj x hx) (inj y hy) e) (nodup_combos (nodup_choices hC))
    have so : (primal L).Pairwise (· ≤ ·) := List.pairwise_insertionSort _ _
    exact (so.and nd).imp (fun h => lt_of_le_of_ne h.1 h.2)
  · intro u
    unfold primalIS
    simp only [List.mem_flatMap, List.mem_map, List.mem_range]
    constructor
    · rintro ⟨v, hv, c, hc, rfl⟩
      exact ⟨v, hv, c, by omega, by omega, rfl⟩
    · rintro ⟨v, hv, c, h0, h1, rfl⟩
      exact ⟨v, hv, c.toNat, by omega, by rw [Int.toNat_of_nonneg h0]⟩

/-- What links the layout of a direction with its axis. -/
structure GalAt (ax : Axis K) (P r : Int) (d : Dir) : Prop where
  wf : WF ax
  cond : Condition false ax
  parts : 1 ≤ P ∧ P ≤ ax.nel
  range : 0 ≤ r ∧ r < P
  eq : d = galDir ax P r

theorem galAt_stage1 {g2 : Guess2} {g3 : Guess3} {size rank : Int} {procs : List Int} {axes : List (Axis K)} {L : Layout K}
    (hr : ∀ ax ∈ axes, Reached ax) (h : stage1 g2 g3 false size rank procs axes = .ok L) (hc : ∀ ax ∈ L.axes, Condition false ax) :
    Coords GalAt L.axes L.procs L.ranks L.dir :=
  coords_stage1 (colloc := false) (Q := Condition false) (fun _ _ _ hw hq hP hN h0 h1 => ⟨hw, hq, ⟨hP, hN⟩, ⟨h0, h1⟩, rfl⟩) hr h hc

/-- Two processes of the same set-up have the same axes and processor grid, and different coordinates. -/
theorem two_ranks {g2 : Guess2} {g3 : Guess3} {colloc : Bool} {size rank rank' : Int} {procs : List Int} {axes : List (Axis K)} {L L' : Layout K}
    (hr : ∀ ax ∈ axes, Reached ax) (h : stage1 g2 g3 colloc size rank procs axes = .ok L)
    (h' : stage1 g2 g3 colloc size rank' procs axes = .ok L') :
    L'.axes = L.axes ∧ L'.procs = L.procs ∧ (rank ≠ rank' → L.ranks ≠ L'.ranks) := by
  obtain ⟨-, -, -, hall, huniq⟩ := stage1_all hr h
  obtain ⟨r0, r1⟩ := stage1_range h
  obtain ⟨r0', r1'⟩ := stage1_range h'
  obtain ⟨c, hb, hs⟩ := hall rank r0 r1
  obtain ⟨c', hb', hs'⟩ := hall rank' r0' r1'
  rw [h] at hs
  rw [h'] at hs'
  simp only [Res.ok.injEq] at hs hs'
  have a1 : L'.axes = L.axes := by rw [hs']
  have a2 : L'.procs = L.procs := by rw [hs']
  have a3 : L.ranks = c := by rw [hs]
  have a4 : L'.ranks = c' := by rw [hs']
  refine ⟨a1, a2, fun hne he => hne ?_⟩
  obtain ⟨q, -, hq⟩ := huniq c hb
  have e1 := hq rank r0 r1 ⟨_, by rw [h]; congr 1⟩
  have e2 := hq rank' r0' r1' ⟨_, by rw [h']; rw [← a3, he, a4]; congr 1⟩
  omega

theorem vertex_ne {as : List (Axis K)} {Ps rs : List Int} {ds : List Dir} (h : Coords GalAt as Ps rs ds) :
    ∀ {rs' : List Int} {ds' : List Dir} {x x' : List Int}, Coords GalAt as Ps rs' ds' → rs ≠ rs' → Vertex as rs ds x → Vertex as rs' ds' x' →
      List.zipWith (fun i (ax : Axis K) => i % ax.nnp) x as ≠ List.zipWith (fun i (ax : Axis K) => i % ax.nnp) x' as := by
  induction h with
  | nil =>
    intro rs' ds' x x' h' hne
    cases h'
    exact absurd rfl hne
  | @cons ax P r d as Ps rs ds h1 h2 ih =>
    intro rs' ds' x x' h' hne hx hx'
    cases h' with
    | @cons _ _ r' d' _ _ rs' ds' h1' h2' =>
      cases hx with
      | @cons _ _ _ x _ _ _ xs a b =>
        cases hx' with
        | @cons _ _ _ x' _ _ _ xs' a' b' =>
          simp only [List.zipWith_cons_cons, ne_eq, List.cons.injEq, not_and]
          intro e
          obtain ⟨w, c, ⟨p1, p2⟩, ⟨q1, q2⟩, rfl⟩ := h1
          obtain ⟨-, -, -, ⟨q1', q2'⟩, rfl⟩ := h1'
          rcases lt_trichotomy r r' with hlt | rfl | hlt
          · exact absurd e (planes_ne w c p1 p2 q1 q2 q1' q2' hlt a a')
          · exact ih h2' (fun he => hne (by rw [he])) b b'
          · exact absurd e.symm (planes_ne w c p1 p2 q1' q2' q1 q2 hlt a' a)

/-- **C116** (as `C116_list_partial`): no two processes list the same node as a primal vertex. -/
theorem C116_once_partial (g2 : Guess2) (g3 : Guess3) (size rank rank' : Int) (procs : List Int) (axes : List (Axis K)) (L L' : Layout K)
    (hr : ∀ ax ∈ axes, Reached ax) (h : stage1 g2 g3 false size rank procs axes = .ok L)
    (h' : stage1 g2 g3 false size rank' procs axes = .ok L') (hc : ∀ ax ∈ L.axes, Condition false ax) (hne : rank ≠ rank')
    (x x' : List Int) (hx : Vertex L.axes L.ranks L.dir x) (hx' : Vertex L'.axes L'.ranks L'.dir x') :
    List.zipWith (fun i (ax : Axis K) => i % ax.nnp) x L.axes ≠ List.zipWith (fun i (ax : Axis K) => i % ax.nnp) x' L.axes := by
  obtain ⟨e1, e2, e3⟩ := two_ranks hr h h'
  have hC := galAt_stage1 hr h hc
  have hC' := galAt_stage1 hr h' (by rw [e1]; exact hc)
  rw [e1, e2] at hC'
  rw [e1] at hx'
  exact vertex_ne hC hC' (e3 hne) hx hx'

theorem galAt_get {as : List (Axis K)} {Ps rs : List Int} {ds : List Dir} (h : Coords GalAt as Ps rs ds) {i : Nat} {r : Int} {d : Dir}
    (h1 : rs[i]? = some r) (h2 : ds[i]? = some d) : ∃ ax P, as[i]? = some ax ∧ Ps[i]? = some P ∧ GalAt ax P r d := by
  obtain ⟨ax, P, r', a, b, c, g⟩ := (coords_get h).2 i d h2
  rw [h1] at c
  simp only [Option.some.injEq] at c
  subst c
  exact ⟨ax, P, a, b, g⟩

/-- **C116** (as `C116_list_partial`): with the beginning of the domain, the planes of the processes divide a direction into as
many parts as there are processes.  They increase strictly; the plane at the upper side of a process also lies in the box of
the next process, above its first owned node; the plane of the last process is the end of the domain if the direction is not
periodic; and every plane is in the box of its process, not below its last owned node. -/
theorem C116_planes_partial (g2 : Guess2) (g3 : Guess3) (size rank rank' : Int) (procs : List Int) (axes : List (Axis K)) (L L' : Layout K)
    (hr : ∀ ax ∈ axes, Reached ax) (h : stage1 g2 g3 false size rank procs axes = .ok L)
    (h' : stage1 g2 g3 false size rank' procs axes = .ok L') (hc : ∀ ax ∈ L.axes, Condition false ax)
    (i : Nat) (r r' : Int) (d d' : Dir) (h1 : L.ranks[i]? = some r) (h2 : L.dir[i]? = some d) (h1' : L'.ranks[i]? = some r')
    (h2' : L'.dir[i]? = some d') :
    ∃ ax P, L.axes[i]? = some ax ∧ L.procs[i]? = some P ∧
      (d.nodeLstart + d.nodeLwidth - 1 ≤ plane d ∧ plane d < d.nodeGstart + d.nodeGwidth ∧ 1 ≤ plane d) ∧
      (r < r' → plane d < plane d') ∧
      (r' = r + 1 → d'.nodeLstart ≤ plane d ∧ plane d < d'.nodeGstart + d'.nodeGwidth) ∧
      (r = P - 1 → ax.periodic = false → plane d = ax.nnp - 1) ∧
      (ax.periodic = true → plane d' < plane d + ax.nnp) := by
  obtain ⟨e1, e2, -⟩ := two_ranks hr h h'
  have hC := galAt_stage1 hr h hc
  have hC' := galAt_stage1 hr h' (by rw [e1]; exact hc)
  rw [e1, e2] at hC'
  obtain ⟨ax, P, a1, a2, w, c, ⟨p1, p2⟩, ⟨q1, q2⟩, rfl⟩ := galAt_get hC h1 h2
  obtain ⟨ax', P', a1', a2', -, -, -, ⟨q1', q2'⟩, rfl⟩ := galAt_get hC' h1' h2'
  rw [a1] at a1'
  rw [a2] at a2'
  simp only [Option.some.injEq] at a1' a2'
  subst a1' a2'
  have ok := (gal_plane w c p1 p2 q1 q2).1
  have pl := planes w c p1 p2
  refine ⟨ax, P, a1, a2, ⟨ok.owned, ok.inside.2, ok.positive⟩, fun hlt => planes_lt w c p1 p2 q1 hlt q2', ?_, ?_, ?_⟩
  · rintro rfl
    exact (pl.1 r q1 q2').2
  · rintro rfl hper
    exact pl.2.1 hper
  · intro hper
    have k := pl.2.2 hper
    have a : plane (galDir ax P r') ≤ plane (galDir ax P (P-1)) := by
      by_cases e : r' = P - 1
      · rw [e]
      · exact (planes_lt w c p1 p2 q1' (show r' < P - 1 by omega) (by omega)).le
    have b : plane (galDir ax P 0) ≤ plane (galDir ax P r) := by
      by_cases e : r = 0
      · rw [e]
      · exact (planes_lt w c p1 p2 (le_refl 0) (show 0 < r by omega) q2).le
    omega

/-! ### Concrete cases -/

/-- What the examples show of a process: coordinates, ghosted box, primal vertices, index set for two fields. -/
def pdata : Res (Layout K) → Option (List Int × List (Int × Int) × List Int × List Int)
  | .ok L => some (L.ranks, L.dir.map fun d => (d.nodeGstart, d.nodeGwidth), primal L, primalIS 2 L)
  | _ => none

theorem pdata_ok {x : Res (Layout K)} {d} (h : pdata x = some d) : ∃ L, x = .ok L ∧ L.ranks = d.1 ∧
    L.dir.map (fun d => (d.nodeGstart, d.nodeGwidth)) = d.2.1 ∧ primal L = d.2.2.1 ∧ primalIS 2 L = d.2.2.2 := by
  cases x with
  | ok L =>
    simp only [pdata, Option.some.injEq] at h
    subst h
    exact ⟨L, rfl, rfl, rfl, rfl, rfl⟩
  | err e => simp [pdata] at h
  | ub => simp [pdata] at h

/-- The hypotheses are met: four processes on a periodic direction of 6 elements of degree 2 and a direction of 2 elements of
degree 1.  The first process lists nodes (3,0) and (3,1) of its box, the last one the node (3,1) of its box, which is node
(0,2) of the grid. -/
example : ∃ L L', (∀ ax ∈ [exAx0, exAx1], Reached ax) ∧ stage1 exactGuess2 exactGuess3 false 4 0 [2,2] [exAx0, exAx1] = .ok L ∧
    stage1 exactGuess2 exactGuess3 false 4 3 [2,2] [exAx0, exAx1] = .ok L' ∧ (∀ ax ∈ L.axes, Condition false ax) ∧
    primal L = [3, 8] ∧ primalIS 2 L = [6, 7, 16, 17] ∧ primal L' = [8] ∧ L'.dir.map (fun d => (d.nodeGstart, d.nodeGwidth)) = [(3, 5), (1, 2)] := by
  obtain ⟨L, h, -, -, a, b⟩ := pdata_ok (x := stage1 exactGuess2 exactGuess3 false 4 0 [2,2] [exAx0, exAx1])
    (d := ([0, 0], [(0, 5), (0, 2)], [3, 8], [6, 7, 16, 17])) (by decide +kernel)
  obtain ⟨L', h', -, c, e, -⟩ := pdata_ok (x := stage1 exactGuess2 exactGuess3 false 4 3 [2,2] [exAx0, exAx1])
    (d := ([1, 1], [(3, 5), (1, 2)], [8], [16, 17])) (by decide +kernel)
  obtain ⟨Ls, S⟩ := Asm.exSetup exactGuess2 exactGuess3
  have := Asm.stage1_axes h S.set
  exact ⟨L, L', exAx_reached, h, h', by rw [this]; exact S.cond, a, b, e, c⟩

/-- **C116** fails with collocation: of three processes with one node each, the second and the third both list the last node
of the grid (both boxes are nodes 1 and 2, both lists are their second node). -/
theorem C116_collocation_refuted : ∃ L L', Reached exAx1 ∧ stage1 exactGuess2 exactGuess3 true 3 1 [3] [exAx1] = .ok L ∧
    stage1 exactGuess2 exactGuess3 true 3 2 [3] [exAx1] = .ok L' ∧
    L.dir.map (fun d => (d.nodeGstart, d.nodeGwidth)) = [(1, 2)] ∧ L'.dir.map (fun d => (d.nodeGstart, d.nodeGwidth)) = [(1, 2)] ∧
    primal L = [1] ∧ primal L' = [1] := by
  obtain ⟨L, h, -, b, a, -⟩ := pdata_ok (x := stage1 exactGuess2 exactGuess3 true 3 1 [3] [exAx1])
    (d := ([1], [(1, 2)], [1], [2, 3])) (by decide +kernel)
  obtain ⟨L', h', -, b', a', -⟩ := pdata_ok (x := stage1 exactGuess2 exactGuess3 true 3 2 [3] [exAx1])
    (d := ([2], [(1, 2)], [1], [2, 3])) (by decide +kernel)
  exact ⟨L, L', exAx_reached _ (by simp), h, h', b, b', a, a'⟩

end PetIGA.BDDC
