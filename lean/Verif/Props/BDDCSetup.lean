import Verif.Props.BDDC
import Verif.Props.GridSetup

/-! C54 and C55 for the arguments that `IGAPreparePCBDDC` computes after the setup. -/
set_option linter.unusedSectionVars false
namespace PetIGA.BDDC
open PetIGA.Spec PetIGA.Grid PetIGA.Part PetIGA.Lay PetIGA.Ax

variable {K : Type} [Field K] [LinearOrder K] [IsStrictOrderedRing K]

/-- One direction: its axis, the processes in it, the coordinate of this process and the layout. -/
inductive Coords (R : Axis K → Int → Int → Dir → Prop) : List (Axis K) → List Int → List Int → List Dir → Prop
  | nil : Coords R [] [] [] []
  | cons {ax : Axis K} {P r : Int} {d : Dir} {as : List (Axis K)} {Ps rs : List Int} {ds : List Dir} : R ax P r d → Coords R as Ps rs ds →
      Coords R (ax :: as) (P :: Ps) (r :: rs) (d :: ds)

theorem coords_mkDirs (colloc : Bool) {Q : Axis K → Prop} {R : Axis K → Int → Int → Dir → Prop}
    (hR : ∀ ax P r, WF ax → Q ax → 1 ≤ P → P ≤ gridSize colloc ax → 0 ≤ r → r < P → R ax P r (dirAt colloc ax P r)) :
    ∀ {axes : List (Axis K)} {Ps cs : List Int}, (∀ ax ∈ axes, WF ax ∧ Q ax) →
      Fits (axes.map (gridSize colloc)) Ps → InBox Ps cs → Coords R axes Ps cs (mkDirs colloc axes Ps cs)
  | [], _, _, _, hf, hb => by cases hf; cases hb; exact .nil
  | ax :: axes, _, _, hw, hf, hb => by
    rw [List.map_cons] at hf
    cases hf with
    | cons f1 f2 =>
      cases hb with
      | cons b1 b2 =>
        exact .cons (hR _ _ _ (hw ax (by simp)).1 (hw ax (by simp)).2 f1.1 f1.2 b1.1 b1.2)
          (coords_mkDirs colloc hR (fun a ha => hw a (by simp [ha])) f2 b2)

theorem coords_stage1 {g2 : Guess2} {g3 : Guess3} {colloc : Bool} {size rank : Int} {procs : List Int}
    {axes : List (Axis K)} {L : Layout K} {Q : Axis K → Prop} {R : Axis K → Int → Int → Dir → Prop}
    (hR : ∀ ax P r, WF ax → Q ax → 1 ≤ P → P ≤ gridSize colloc ax → 0 ≤ r → r < P → R ax P r (dirAt colloc ax P r))
    (hr : ∀ ax ∈ axes, Reached ax) (h : stage1 g2 g3 colloc size rank procs axes = .ok L) (hQ : ∀ ax ∈ L.axes, Q ax) :
    Coords R L.axes L.procs L.ranks L.dir := by
  obtain ⟨hw, hf, hp, hall, -⟩ := stage1_all hr h
  obtain ⟨r0, r1⟩ := stage1_range h
  obtain ⟨c, hb, hs⟩ := hall rank r0 r1
  rw [h] at hs
  simp only [Res.ok.injEq] at hs
  have e1 : L.ranks = c := by rw [hs]
  have e2 : L.dir = mkDirs colloc L.axes L.procs c := by
    conv_lhs => rw [hs]
  rw [e1, e2]
  exact coords_mkDirs colloc hR (fun ax ha => ⟨hw ax ha, hQ ax ha⟩) hf hb

/-- What the boundary and the colouring need from one direction. -/
structure GalOK (ax : Axis K) (P r : Int) (d : Dir) : Prop where
  same : d.nodeLstart = d.nodeGstart
  pos : 1 ≤ d.nodeLwidth
  le : d.nodeLwidth ≤ d.nodeGwidth
  gstart : 0 ≤ d.nodeGstart
  first : d.nodeGstart = 0 ↔ r = 0
  last : ax.periodic = false → (d.nodeGstart + d.nodeGwidth ≤ ax.nnp ∧ (d.nodeGstart + d.nodeGwidth = ax.nnp ↔ r = P - 1))
  range : 0 ≤ r ∧ r < P

theorem dist_start {P N r : Int} (hP : 1 ≤ P) (hN : P ≤ N) (h0 : 0 ≤ r) (h1 : r < P) :
    ((dist1D P r N).2 = 0 ↔ r = 0) := by
  have B := C02_distribution_balanced P N hP (by omega)
  constructor
  · intro h
    by_contra hne
    have h2 := B.next (r-1) (by omega) (by omega)
    have h3 := bal_range (N := N) hP hN (r := r-1) (by omega) (by omega)
    rw [show r - 1 + 1 = r by ring] at h2
    omega
  · rintro rfl; exact B.first

theorem gal_ok {ax : Axis K} (h : WF ax) (hc : Condition false ax) {P r : Int} (hP : 1 ≤ P) (hN : P ≤ ax.nel) (h0 : 0 ≤ r) (h1 : r < P) :
    GalOK ax P r (galDir ax P r) := by
  obtain ⟨a, b, c, d, e⟩ := bal_range hP hN h0 h1
  have hp := h.legal.degree
  have hm := h.legal.enough
  obtain ⟨n1, n2, n3, _⟩ := nnp_bounds h
  obtain ⟨c1, c2⟩ := hc.1 rfl
  have hlast := sp_last h.toPreWF (by omega) c2
  have hfirst := sp_first h.toPreWF (by omega) c1
  have hds := dist_start hP hN h0 h1
  obtain ⟨e1, e2, e3⟩ := sp_elem h.toPreWF (i := (dist1D P r ax.nel).2) a (by omega)
  have gh := (gal_ghost h hP hN h0 h1 c2).owned
  have tl := (gal_node_tiles h hP hN c1).pos r h0 h1
  have f1 : (dist1D P r ax.nel).2 ≠ 0 → ax.p < sp ax (dist1D P r ax.nel).2 := by
    intro hne
    have := sp_lt h.toPreWF (i := 0) (j := (dist1D P r ax.nel).2) (by omega) (by omega) (by omega)
    omega
  have l1 : (dist1D P r ax.nel).2 + (dist1D P r ax.nel).1 - 1 < ax.nel - 1 →
      sp ax ((dist1D P r ax.nel).2 + (dist1D P r ax.nel).1 - 1) < ax.m - ax.p - 1 := by
    intro hne
    have := sp_lt h.toPreWF (i := (dist1D P r ax.nel).2 + (dist1D P r ax.nel).1 - 1) (j := ax.nel-1) (by omega) (by omega) (by omega)
    omega
  refine ⟨rfl, tl, by have := gh.2; dsimp only [galDir] at this ⊢; omega, by dsimp only [galDir]; omega, ?_, ?_, h0, h1⟩
  · dsimp only [galDir]
    rw [← hds]
    constructor
    · intro h; by_contra hne; have := f1 hne; omega
    · intro h; rw [h, hfirst]; omega
  · intro hper
    have n := n3 hper
    dsimp only [galDir]
    by_cases hr : r = P - 1
    · have e' := e hr
      rw [show (dist1D P r ax.nel).2 + (dist1D P r ax.nel).1 - 1 = ax.nel - 1 by omega, hlast]
      exact ⟨by omega, by omega⟩
    · have d' := d (by omega)
      have := l1 (by omega)
      exact ⟨by omega, by omega⟩

theorem coords_get {R : Axis K → Int → Int → Dir → Prop} {as : List (Axis K)} {Ps rs : List Int} {ds : List Dir} (h : Coords R as Ps rs ds) :
    as.length = ds.length ∧ ∀ (i : Nat) (d : Dir), ds[i]? = some d → ∃ ax P r, as[i]? = some ax ∧ Ps[i]? = some P ∧ rs[i]? = some r ∧ R ax P r d := by
  induction h with
  | nil => exact ⟨rfl, by simp⟩
  | cons h1 h2 ih =>
    refine ⟨by simp [ih.1], ?_⟩
    intro i d hd
    cases i with
    | zero =>
      simp only [List.getElem?_cons_zero, Option.some.injEq] at hd
      subst hd
      exact ⟨_, _, _, rfl, rfl, rfl, h1⟩
    | succ i =>
      simp only [List.getElem?_cons_succ] at hd
      exact ih.2 i d hd

theorem coords_imp {R R' : Axis K → Int → Int → Dir → Prop} (hRR : ∀ ax P r d, R ax P r d → R' ax P r d) {as : List (Axis K)} {Ps rs : List Int}
    {ds : List Dir} (h : Coords R as Ps rs ds) : Coords R' as Ps rs ds := by
  induction h with
  | nil => exact .nil
  | cons h1 h2 ih => exact .cons (hRR _ _ _ _ h1) ih

theorem rel_surj : ∀ {ss ws y : List Int}, ss.length = ws.length → InBox ws y → ∃ x, InBlock ss ws x ∧ rel ss x = y
  | [], [], _, _, h => by cases h; exact ⟨[], .nil, rfl⟩
  | s :: ss, w :: ws, _, hl, h => by
    cases h with
    | @cons _ i _ y h1 h2 =>
      obtain ⟨x, hx, e⟩ := rel_surj (ss := ss) (by simpa using hl) h2
      refine ⟨(i + s) :: x, .cons (by omega) hx, ?_⟩
      unfold rel at e ⊢
      rw [List.zipWith_cons_cons, e, Int.add_sub_cancel]

theorem rel_get : ∀ {ss ws x : List Int}, InBlock ss ws x → ∀ (i : Nat) (s w : Int), ss[i]? = some s → ws[i]? = some w →
    ∃ k, x[i]? = some k ∧ (rel ss x)[i]? = some (k - s) ∧ s ≤ k ∧ k < s + w := by
  intro ss ws x h
  induction h with
  | nil => intro i s w h; simp at h
  | @cons s l k ss ls is h1 h2 ih =>
    intro i s' w hs hw
    cases i with
    | zero =>
      simp only [List.getElem?_cons_zero, Option.some.injEq] at hs hw
      subst hs hw
      exact ⟨k, rfl, rfl, h1⟩
    | succ i =>
      simp only [List.getElem?_cons_succ] at hs hw
      exact ih i s' w hs hw

/-- Field `c` of node `x` of the grid has a value condition on a side of a non-periodic direction. -/
def Constrained (axs : List (Axis K)) (value : Nat → Nat → List Int) (x : List Int) (c : Int) : Prop :=
  ∃ (dir side : Nat) (ax : Axis K), axs[dir]? = some ax ∧ ax.periodic = false ∧
    (side = 0 ∧ x[dir]? = some 0 ∨ side = 1 ∧ x[dir]? = some (ax.nnp - 1)) ∧ c ∈ value dir side

/-- Node `x` of the grid lies on the boundary of the domain. -/
def AtBoundary (axs : List (Axis K)) (x : List Int) : Prop :=
  ∃ (dir side : Nat) (ax : Axis K), axs[dir]? = some ax ∧ ax.periodic = false ∧
    (side = 0 ∧ x[dir]? = some 0 ∨ side = 1 ∧ x[dir]? = some (ax.nnp - 1))

theorem side_iff {L : Layout K} (hC : Coords GalOK L.axes L.procs L.ranks L.dir) {x : List Int}
    (hx : InBlock (L.dir.map Dir.nodeGstart) (L.dir.map Dir.nodeGwidth) x) (dir side : Nat) :
    (dir < (L.dir.map Dir.nodeGwidth).length ∧ atbnd L dir side = true ∧
        OnSide (L.dir.map Dir.nodeGwidth) (rel (L.dir.map Dir.nodeGstart) x) dir side) ↔
      ∃ ax, L.axes[dir]? = some ax ∧ ax.periodic = false ∧ (side = 0 ∧ x[dir]? = some 0 ∨ side = 1 ∧ x[dir]? = some (ax.nnp - 1)) := by
  obtain ⟨hl, hg⟩ := coords_get hC
  rw [List.length_map]
  by_cases hd : dir < L.dir.length
  · obtain ⟨ax, P, r, e1, e2, e3, ok⟩ := hg dir _ (List.getElem?_eq_getElem hd)
    generalize hdd : L.dir[dir] = d at ok
    have ed : L.dir[dir]? = some d := by rw [List.getElem?_eq_getElem hd, hdd]
    have es : (L.dir.map Dir.nodeGstart)[dir]? = some d.nodeGstart := by rw [List.getElem?_map, ed]; rfl
    have ew : (L.dir.map Dir.nodeGwidth)[dir]? = some d.nodeGwidth := by rw [List.getElem?_map, ed]; rfl
    obtain ⟨k, k1, k2, k3, k4⟩ := rel_get hx dir _ _ es ew
    have ea : atbnd L dir side = atbnd1 ax.periodic P r side := by
      unfold atbnd; rw [e1, e2, e3]
    unfold OnSide
    rw [ea, k1, k2, ew]
    simp only [e1, Option.some.injEq, exists_eq_left', hd, true_and]
    unfold atbnd1
    have hfi := ok.first
    have hg0 := ok.gstart
    have hrr := ok.range
    cases hper : ax.periodic
    · have hla := ok.last hper
      simp only [Bool.not_false, Bool.true_and, decide_eq_true_eq, true_and]
      constructor
      · rintro ⟨h1, ⟨rfl, h2⟩ | ⟨rfl, h2⟩⟩
        · simp only [if_true] at h1
          left; exact ⟨rfl, by omega⟩
        · simp only [one_ne_zero, if_false] at h1
          right; exact ⟨rfl, by omega⟩
      · rintro (⟨rfl, h2⟩ | ⟨rfl, h2⟩)
        · simp only [if_true]
          refine ⟨by omega, Or.inl ⟨trivial, by omega⟩⟩
        · simp only [one_ne_zero, if_false]
          refine ⟨by omega, Or.inr ⟨trivial, by omega⟩⟩
    · simp
  · constructor
    · rintro ⟨h, _⟩; exact absurd h hd
    · rintro ⟨ax, h, _⟩
      have := (List.getElem?_eq_some_iff.1 h).1
      omega

/-- **C54** at the interface, Galerkin discretisations whose first and last knot interval is not empty: on every process, the
lists handed to the preconditioner consist of the local numbers of exactly the unknowns of this process (owned and ghosted) with
a value condition on a side of the domain, and of exactly the other unknowns on the boundary of the domain. -/
theorem C54_after_setup_partial (g2 : Guess2) (g3 : Guess3) (size rank : Int) (procs : List Int)
    (axes : List (Axis K)) (L : Layout K) (hr : ∀ ax ∈ axes, Reached ax) (h : stage1 g2 g3 false size rank procs axes = .ok L)
    (hc : ∀ ax ∈ L.axes, Condition false ax) (dof : Nat) (value : Nat → Nat → List Int)
    (hv : ∀ dir side, ∀ c ∈ value dir side, 0 ≤ c ∧ c < dof) :
    ∃ D N : List Int, prepareBoundary dof L value = Res.ok (D, N) ∧ D.Pairwise (· < ·) ∧ N.Pairwise (· < ·) ∧
      (∀ i : Int, i ∈ D ↔ ∃ (x : List Int) (c : Int), InBlock (L.dir.map Dir.nodeGstart) (L.dir.map Dir.nodeGwidth) x ∧ 0 ≤ c ∧ c < dof ∧
        i = dof * flat (L.dir.map Dir.nodeGwidth) (rel (L.dir.map Dir.nodeGstart) x) + c ∧ Constrained L.axes value x c) ∧
      (∀ i : Int, i ∈ N ↔ ∃ (x : List Int) (c : Int), InBlock (L.dir.map Dir.nodeGstart) (L.dir.map Dir.nodeGwidth) x ∧ 0 ≤ c ∧ c < dof ∧
        i = dof * flat (L.dir.map Dir.nodeGwidth) (rel (L.dir.map Dir.nodeGstart) x) + c ∧ AtBoundary L.axes x ∧ ¬ Constrained L.axes value x c) := by
  have hC : Coords GalOK L.axes L.procs L.ranks L.dir :=
    coords_stage1 (colloc := false) (Q := Condition false) (fun ax P r hw hq hP hN h0 h1 => gal_ok hw hq hP hN h0 h1) hr h hc
  have hpos : ∀ n ∈ L.dir.map Dir.nodeGwidth, 0 ≤ n := by
    intro n hn
    obtain ⟨d, hd, rfl⟩ := List.mem_map.1 hn
    obtain ⟨i, hi⟩ := List.getElem?_of_mem hd
    obtain ⟨ax, P, r, -, -, -, ok⟩ := (coords_get hC).2 i d hi
    have := ok.pos; have := ok.le
    omega
  obtain ⟨D, N, e, s1, s2, hD, hN⟩ := C54_boundary dof (L.dir.map Dir.nodeGwidth) hpos (atbnd L) value (fun dir side _ => hv dir side)
  have hF : ∀ x, InBlock (L.dir.map Dir.nodeGstart) (L.dir.map Dir.nodeGwidth) x → ∀ c,
      (Fixed (L.dir.map Dir.nodeGwidth) (atbnd L) value (rel (L.dir.map Dir.nodeGstart) x) c ↔ Constrained L.axes value x c) := by
    intro x hx c
    constructor
    · rintro ⟨dir, side, h1, h2, h3, h4⟩
      obtain ⟨ax, a1, a2, a3⟩ := (side_iff hC hx dir side).1 ⟨h1, h2, h3⟩
      exact ⟨dir, side, ax, a1, a2, a3, h4⟩
    · rintro ⟨dir, side, ax, a1, a2, a3, h4⟩
      obtain ⟨h1, h2, h3⟩ := (side_iff hC hx dir side).2 ⟨ax, a1, a2, a3⟩
      exact ⟨dir, side, h1, h2, h3, h4⟩
  have hB : ∀ x, InBlock (L.dir.map Dir.nodeGstart) (L.dir.map Dir.nodeGwidth) x →
      (OnBoundary (L.dir.map Dir.nodeGwidth) (atbnd L) (rel (L.dir.map Dir.nodeGstart) x) ↔ AtBoundary L.axes x) := by
    intro x hx
    constructor
    · rintro ⟨dir, side, h1, h2, h3⟩
      obtain ⟨ax, a1, a2, a3⟩ := (side_iff hC hx dir side).1 ⟨h1, h2, h3⟩
      exact ⟨dir, side, ax, a1, a2, a3⟩
    · rintro ⟨dir, side, ax, a1, a2, a3⟩
      obtain ⟨h1, h2, h3⟩ := (side_iff hC hx dir side).2 ⟨ax, a1, a2, a3⟩
      exact ⟨dir, side, h1, h2, h3⟩
  refine ⟨D, N, e, s1, s2, ?_, ?_⟩
  · intro i
    rw [hD]
    constructor
    · rintro ⟨y, c, hy, c0, c1, rfl, hf⟩
      obtain ⟨x, hx, rfl⟩ := rel_surj (ss := L.dir.map Dir.nodeGstart) (by simp) hy
      exact ⟨x, c, hx, c0, c1, rfl, (hF x hx c).1 hf⟩
    · rintro ⟨x, c, hx, c0, c1, rfl, hf⟩
      exact ⟨_, c, rel_inBox hx, c0, c1, rfl, (hF x hx c).2 hf⟩
  · intro i
    rw [hN]
    constructor
    · rintro ⟨y, c, hy, c0, c1, rfl, hb, hf⟩
      obtain ⟨x, hx, rfl⟩ := rel_surj (ss := L.dir.map Dir.nodeGstart) (by simp) hy
      exact ⟨x, c, hx, c0, c1, rfl, (hB x hx).1 hb, fun hh => hf ((hF x hx c).2 hh)⟩
    · rintro ⟨x, c, hx, c0, c1, rfl, hb, hf⟩
      exact ⟨_, c, rel_inBox hx, c0, c1, rfl, (hB x hx).2 hb, fun hh => hf ((hF x hx c).1 hh)⟩

/-! ### Colours -/

/-- In every direction split between processes, `x` and `y` are equal or both owned by this process. -/
inductive SameOwned : List Int → List Dir → List Int → List Int → Prop
  | nil : SameOwned [] [] [] []
  | cons {P : Int} {d : Dir} {i j : Int} {Ps : List Int} {ds : List Dir} {x y : List Int} :
      (1 < P → i = j ∨ (d.nodeLstart ≤ i ∧ i < d.nodeLstart + d.nodeLwidth) ∧ (d.nodeLstart ≤ j ∧ j < d.nodeLstart + d.nodeLwidth)) →
      SameOwned Ps ds x y → SameOwned (P :: Ps) (d :: ds) (i :: x) (j :: y)

theorem cdirs_ok {as : List (Axis K)} {Ps rs : List Int} {ds : List Dir} (h : Coords GalOK as Ps rs ds) :
    (∀ d ∈ cdirs as Ps ds, Inside d) ∧ (cdirs as Ps ds).map CDir.shape = ds.map Dir.nodeGwidth ∧
    ∀ x y, InBlock (ds.map Dir.nodeGstart) (ds.map Dir.nodeGwidth) x → InBlock (ds.map Dir.nodeGstart) (ds.map Dir.nodeGwidth) y →
      (SameCell (cdirs as Ps ds) (rel (ds.map Dir.nodeGstart) x) (rel (ds.map Dir.nodeGstart) y) ↔ SameOwned Ps ds x y) := by
  induction h with
  | nil =>
    refine ⟨by simp [cdirs], rfl, ?_⟩
    intro x y hx hy
    cases hx; cases hy
    exact ⟨fun _ => .nil, fun _ => .nil⟩
  | @cons ax P r d as Ps rs ds h1 h2 ih =>
    obtain ⟨i1, i2, i3⟩ := ih
    have g := h1.same; have g1 := h1.pos; have g2 := h1.le; have g3 := h1.gstart; have g4 := h1.first; have g5 := h1.range
    refine ⟨?_, ?_, ?_⟩
    · intro c hc
      simp only [cdirs, List.mem_cons] at hc
      rcases hc with rfl | hc
      · unfold cdir Inside
        split_ifs with hP
        · dsimp only; omega
        · dsimp only; omega
      · exact i1 c hc
    · simp only [cdirs, List.map_cons, i2]
      unfold cdir
      split_ifs <;> rfl
    · intro x y hx hy
      simp only [List.map_cons] at hx hy ⊢
      cases hx with
      | @cons _ _ i _ _ x x1 x2 =>
        cases hy with
        | @cons _ _ j _ _ y y1 y2 =>
          have ih := i3 x y x2 y2
          have key : SameLayer (cdir P ax.periodic d) (i - d.nodeGstart) (j - d.nodeGstart) ↔
              (1 < P → i = j ∨ (d.nodeLstart ≤ i ∧ i < d.nodeLstart + d.nodeLwidth) ∧ (d.nodeLstart ≤ j ∧ j < d.nodeLstart + d.nodeLwidth)) := by
            unfold cdir SameLayer
            split_ifs with hP
            · dsimp only
              constructor
              · intro h _; omega
              · intro h; have := h hP; omega
            · dsimp only
              constructor
              · intro _ hh; omega
              · intro _; left; omega
          simp only [rel, List.zipWith_cons_cons, cdirs] at ih ⊢
          constructor
          · intro h
            cases h with
            | cons a b => exact .cons (key.1 a) (ih.1 b)
          · intro h
            cases h with
            | cons a b => exact .cons (key.2 a) (ih.2 b)

/-- **C55** at the interface, Galerkin discretisations whose first and last knot interval is not empty: two nodes of a process
(owned or ghosted) have the same colour exactly if, in every direction split between processes, they are equal or both owned. -/
theorem C55_after_setup_partial (g2 : Guess2) (g3 : Guess3) (size rank : Int) (procs : List Int)
    (axes : List (Axis K)) (L : Layout K) (hr : ∀ ax ∈ axes, Reached ax) (h : stage1 g2 g3 false size rank procs axes = .ok L)
    (hc : ∀ ax ∈ L.axes, Condition false ax) (x y : List Int)
    (hx : InBlock (L.dir.map Dir.nodeGstart) (L.dir.map Dir.nodeGwidth) x) (hy : InBlock (L.dir.map Dir.nodeGstart) (L.dir.map Dir.nodeGwidth) y) :
    color (cdirs L.axes L.procs L.dir) (rel (L.dir.map Dir.nodeGstart) x) = color (cdirs L.axes L.procs L.dir) (rel (L.dir.map Dir.nodeGstart) y) ↔
      SameOwned L.procs L.dir x y := by
  have hC : Coords GalOK L.axes L.procs L.ranks L.dir :=
    coords_stage1 (colloc := false) (Q := Condition false) (fun ax P r hw hq hP hN h0 h1 => gal_ok hw hq hP hN h0 h1) hr h hc
  obtain ⟨a, b, c⟩ := cdirs_ok hC
  rw [C55_colour_partial _ a _ _ (by rw [b]; exact rel_inBox hx) (by rw [b]; exact rel_inBox hy), c x y hx hy]

/-- Data of a layout that can be compared. -/
def cdata : Res (Layout K) → Option (List (Int × Int × Int × Bool) × List (Bool × Int) × List Int × List (Int × Int × Int × Int) × Res (List Int × List Int))
  | .ok L => some ((cdirs L.axes L.procs L.dir).map fun (c : CDir) => (c.shape, c.start, c.width, c.wrap),
      L.axes.map fun ax => (ax.periodic, ax.nnp), L.procs, L.dir.map fun d => (d.nodeGstart, d.nodeGwidth, d.nodeLstart, d.nodeLwidth),
      prepareBoundary 2 L (fun _ side => if side = 1 then [1] else []))
  | _ => none

theorem cdata_ok {x : Res (Layout K)} {d} (h : cdata x = some d) : ∃ L, x = .ok L ∧
    (cdirs L.axes L.procs L.dir).map (fun (c : CDir) => (c.shape, c.start, c.width, c.wrap)) = d.1 ∧
    L.axes.map (fun ax => (ax.periodic, ax.nnp)) = d.2.1 ∧ L.procs = d.2.2.1 ∧
    L.dir.map (fun d => (d.nodeGstart, d.nodeGwidth, d.nodeLstart, d.nodeLwidth)) = d.2.2.2.1 ∧
    prepareBoundary 2 L (fun _ side => if side = 1 then [1] else []) = d.2.2.2.2 := by
  cases x with
  | ok L => simp only [cdata, Option.some.injEq] at h; subst h; exact ⟨L, rfl, rfl, rfl, rfl, rfl, rfl⟩
  | err e => simp [cdata] at h
  | ub => simp [cdata] at h

/-- Non-trivial case of `C54_after_setup_partial` and `C55_after_setup_partial`: the last of 4 processes. -/
example (g2 : Guess2) (g3 : Guess3) : ∃ L, stage1 g2 g3 false 4 3 [2,2] [exAx0, exAx1] = .ok L ∧ (∀ ax ∈ L.axes, Condition false ax) ∧
    prepareBoundary 2 L (fun _ side => if side = 1 then [1] else []) = .ok ([11, 13, 15, 17, 19], [10, 12, 14, 16, 18]) ∧
    color (cdirs L.axes L.procs L.dir) [0,0] = color (cdirs L.axes L.procs L.dir) [2,1] ∧
    color (cdirs L.axes L.procs L.dir) [0,0] ≠ color (cdirs L.axes L.procs L.dir) [3,1] := by
  refine ⟨⟨[(Ax.setUp exAx0).2, (Ax.setUp exAx1).2], [2,2], [1,1], _⟩, rfl, ?_, by decide +kernel, by decide +kernel, by decide +kernel⟩
  intro ax h
  simp only [List.mem_cons, List.not_mem_nil, or_false] at h
  refine ⟨fun _ => ?_, by simp⟩
  rcases h with rfl | rfl <;> decide +kernel

theorem inBlock_of {ds : List Dir} {l : List (Int × Int × Int × Int)} (h : ds.map (fun d => (d.nodeGstart, d.nodeGwidth, d.nodeLstart, d.nodeLwidth)) = l) :
    ds.map Dir.nodeGstart = l.map (fun q => q.1) ∧ ds.map Dir.nodeGwidth = l.map (fun q => q.2.1) := by
  subst h
  rw [List.map_map, List.map_map]
  exact ⟨rfl, rfl⟩

set_option synthInstance.maxSize 2000 in
set_option synthInstance.maxHeartbeats 200000 in
/-- **C54** at the interface fails with collocation: on the second of three processes of a grid with 3 nodes, the ghosted last
node is on the boundary and is in neither list. -/
theorem C54_collocation_refuted : ∃ L, (∀ ax ∈ [exAx0, exAx1], Reached ax) ∧ stage1 exactGuess2 exactGuess3 true 3 1 [1,3] [exAx0, exAx1] = .ok L ∧
    ∃ x, InBlock (L.dir.map Dir.nodeGstart) (L.dir.map Dir.nodeGwidth) x ∧ AtBoundary L.axes x ∧
      Constrained L.axes (fun _ side => if side = 1 then [1] else []) x 1 ∧
      prepareBoundary 2 L (fun _ side => if side = 1 then [1] else []) = .ok ([], []) := by
  obtain ⟨L, h, -, h2, -, h4, h5⟩ := cdata_ok (x := stage1 exactGuess2 exactGuess3 true 3 1 [1,3] [exAx0, exAx1])
    (d := ([(8, -1, 8, true), (2, 0, 1, false)], [(true, 6), (false, 3)], [1,3], [(-1, 8, 0, 6), (1, 2, 1, 1)], .ok ([], []))) (by decide +kernel)
  obtain ⟨b1, b2⟩ := inBlock_of h4
  have hax : ∃ ax, L.axes[1]? = some ax ∧ ax.periodic = false ∧ ax.nnp = 3 := by
    have := congrArg (fun l => l[1]?) h2
    simp only [List.getElem?_map] at this
    obtain ⟨ax, ha, e⟩ := Option.map_eq_some_iff.1 this
    simp only [Prod.mk.injEq] at e
    exact ⟨ax, ha, e⟩
  obtain ⟨ax, ha, hp, hn⟩ := hax
  refine ⟨L, exAx_reached, h, [0, 2], ?_, ⟨1, 1, ax, ha, hp, Or.inr ⟨rfl, by rw [hn]; rfl⟩⟩,
    ⟨1, 1, ax, ha, hp, Or.inr ⟨rfl, by rw [hn]; rfl⟩, by simp⟩, h5⟩
  rw [b1, b2]
  exact .cons (by decide) (.cons (by decide) .nil)

set_option synthInstance.maxSize 2000 in
set_option synthInstance.maxHeartbeats 200000 in
/-- **C55** fails with collocation and a periodic direction that is not split: on the first of two processes, the nodes with local
indices `(7,0)` and `(0,2)` have the same colour; the first is owned, the second belongs to the other process. -/
theorem C55_collocation_refuted : ∃ L, (∀ ax ∈ [exAx0, exAx1], Reached ax) ∧ stage1 exactGuess2 exactGuess3 true 2 0 [1,2] [exAx0, exAx1] = .ok L ∧
    ∃ x y, InBlock (L.dir.map Dir.nodeGstart) (L.dir.map Dir.nodeGwidth) x ∧ InBlock (L.dir.map Dir.nodeGstart) (L.dir.map Dir.nodeGwidth) y ∧
      color (cdirs L.axes L.procs L.dir) (rel (L.dir.map Dir.nodeGstart) x) = color (cdirs L.axes L.procs L.dir) (rel (L.dir.map Dir.nodeGstart) y) ∧
      ¬ SameOwned L.procs L.dir x y := by
  obtain ⟨L, h, h1, -, h3, h4, -⟩ := cdata_ok (x := stage1 exactGuess2 exactGuess3 true 2 0 [1,2] [exAx0, exAx1])
    (d := ([(8, -1, 8, true), (3, 0, 2, false)], [(true, 6), (false, 3)], [1,2], [(-1, 8, 0, 6), (0, 3, 0, 2)], .ok ([], [0,1,2,3,4,5,6,7,8,9,10,11,12,13,14,15]))) (by decide +kernel)
  obtain ⟨b1, b2⟩ := inBlock_of h4
  have hc : cdirs L.axes L.procs L.dir = [⟨8, -1, 8, true⟩, ⟨3, 0, 2, false⟩] := by
    have inj : Function.Injective (fun (c : CDir) => (c.shape, c.start, c.width, c.wrap)) := by
      rintro ⟨a, b, c, d⟩ ⟨a', b', c', d'⟩ hh
      simp only [Prod.mk.injEq] at hh
      obtain ⟨rfl, rfl, rfl, rfl⟩ := hh
      rfl
    exact List.map_injective_iff.2 inj h1
  refine ⟨L, exAx_reached, h, [6, 0], [-1, 2], ?_, ?_, ?_, ?_⟩
  · rw [b1, b2]; exact .cons (by decide) (.cons (by decide) .nil)
  · rw [b1, b2]; exact .cons (by decide) (.cons (by decide) .nil)
  · rw [hc, b1]; decide +kernel
  · rw [h3]
    obtain ⟨d0, d1, hd⟩ : ∃ d0 d1, L.dir = [d0, d1] := by
      have := congrArg List.length h4
      simp only [List.length_map, List.length_cons, List.length_nil] at this
      exact List.length_eq_two.1 this
    rw [hd] at h4 ⊢
    simp only [List.map_cons, List.map_nil, List.cons.injEq, Prod.mk.injEq] at h4
    intro hs
    cases hs with
    | cons _ hs =>
      cases hs with
      | cons h _ =>
        have := h (by decide)
        omega

end PetIGA.BDDC
