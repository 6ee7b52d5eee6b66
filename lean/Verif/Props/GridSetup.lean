import Verif.Props.Grid
/-! The hypotheses of C26–C28 hold after the setup. -/
set_option linter.unusedSectionVars false
namespace PetIGA.Grid
open PetIGA.Spec PetIGA.Part PetIGA.Lay PetIGA.Ax

variable {K : Type} [Field K] [LinearOrder K] [IsStrictOrderedRing K]

/-- With collocation: the first and the last collocation point lie in the first and last span of the domain. -/
def EndSpans (ax : Axis K) : Prop :=
  grevSpan ax ((ax.m - ax.p - ax.nnp) / 2) = .ok ax.p ∧
  grevSpan ax (ax.nnp - 1 + (ax.m - ax.p - ax.nnp) / 2) = .ok (ax.m - ax.p - 1)

/-- What the axes have to satisfy for C26–C28.  Galerkin: the first and the last interval of the domain are not empty
(they never are on axes built by `IGAAxisInitUniform/InitBreaks`).  Collocation: at most
half a turn of ghosts; always true on a non-periodic axis,
see `C28_condition`. -/
def Condition (colloc : Bool) (ax : Axis K) : Prop :=
  (colloc = false → ax.U ax.p < ax.U (ax.p+1) ∧ ax.U (ax.m-ax.p-1) < ax.U (ax.m-ax.p)) ∧
  (colloc = true → (ax.m - ax.p - ax.nnp) / 2 ≤ ax.nnp)

theorem tdiv_shift {ax : Axis K} (h : WF ax) :
    Int.tdiv (ax.m - ax.p - 1 + 1 - ax.nnp) 2 = (ax.m - ax.p - ax.nnp) / 2 := by
  obtain ⟨n1, n2, n3, _⟩ := nnp_bounds h
  rw [Int.tdiv_eq_ediv_of_nonneg (by omega)]; congr 1; ring

theorem gsp_of_ok {ax : Axis K} {i k : Int} (h : grevSpan ax i = .ok k) : gsp ax i = k := by
  unfold grevSpan at h
  rw [Res.ofOption_eq_ok] at h
  unfold gsp; rw [h]; rfl

/-- The owned natural entries of a direction lie in the shifted ghosted range. -/
theorem dir_cover (colloc : Bool) {ax : Axis K} (h : WF ax) {P r : Int} (hP : 1 ≤ P) (hN : P ≤ gridSize colloc ax)
    (h0 : 0 ≤ r) (h1 : r < P) (hc : colloc = true → EndSpans ax) :
    (dirAt colloc ax P r).nodeShift + (dirAt colloc ax P r).nodeGstart ≤ (dirAt colloc ax P r).geomLstart ∧
    (dirAt colloc ax P r).geomLstart + (dirAt colloc ax P r).geomLwidth ≤
      (dirAt colloc ax P r).nodeShift + (dirAt colloc ax P r).nodeGstart + (dirAt colloc ax P r).nodeGwidth := by
  have hp := h.legal.degree
  have hm := h.legal.enough
  obtain ⟨n1, n2, n3, _⟩ := nnp_bounds h
  cases colloc
  · obtain ⟨a, b, c, d, e⟩ := bal_range (N := ax.nel) hP hN h0 h1
    show (galDir ax P r).nodeShift + (galDir ax P r).nodeGstart ≤ (galDir ax P r).geomLstart ∧ (galDir ax P r).geomLstart + (galDir ax P r).geomLwidth ≤
      (galDir ax P r).nodeShift + (galDir ax P r).nodeGstart + (galDir ax P r).nodeGwidth
    dsimp only [galDir]
    refine ⟨by omega, ?_⟩
    by_cases hr : (dist1D P r ax.nel).2 + (dist1D P r ax.nel).1 - 1 < ax.nel - 1
    · rw [if_pos hr]
      have := gal_next_le h.toPreWF (e := (dist1D P r ax.nel).2 + (dist1D P r ax.nel).1 - 1) (by omega) (by omega)
      rw [show (dist1D P r ax.nel).2 + (dist1D P r ax.nel).1 - 1 + 1 = (dist1D P r ax.nel).2 + (dist1D P r ax.nel).1 by ring] at this
      omega
    · rw [if_neg hr]; omega
  · obtain ⟨a, b, c, d, e⟩ := bal_range (N := ax.nnp) hP hN h0 h1
    have F := (C02_distribution_balanced P ax.nnp hP (by omega)).first
    obtain ⟨s1, s2, s3⟩ := shift_bounds h
    obtain ⟨G1, G2⟩ := gsp_spec h.toPreWF
    obtain ⟨E1, E2⟩ := hc rfl
    rw [← tdiv_shift h] at E1 E2
    have E1 := gsp_of_ok E1
    have E2 := gsp_of_ok E2
    have A := G1 ((dist1D P r ax.nnp).2 + Int.tdiv (ax.m - ax.p - 1 + 1 - ax.nnp) 2) (by omega) (by omega)
    have B := G1 ((dist1D P r ax.nnp).2 + (dist1D P r ax.nnp).1 - 1 + Int.tdiv (ax.m - ax.p - 1 + 1 - ax.nnp) 2) (by omega) (by omega)
    show (colDir ax P r).nodeShift + (colDir ax P r).nodeGstart ≤ (colDir ax P r).geomLstart ∧ (colDir ax P r).geomLstart + (colDir ax P r).geomLwidth ≤
      (colDir ax P r).nodeShift + (colDir ax P r).nodeGstart + (colDir ax P r).nodeGwidth
    dsimp only [colDir]
    have hA : r = 0 → gsp ax ((dist1D P r ax.nnp).2 + Int.tdiv (ax.m - ax.p - 1 + 1 - ax.nnp) 2) = ax.p := by
      rintro rfl; rw [F, zero_add]; exact E1
    have hB : r = P - 1 → gsp ax ((dist1D P r ax.nnp).2 + (dist1D P r ax.nnp).1 - 1 + Int.tdiv (ax.m - ax.p - 1 + 1 - ax.nnp) 2) = ax.m - ax.p - 1 := by
      intro hr; rw [e hr]; exact E2
    split_ifs <;> omega

/-- The layouts of all processes. -/
def AllRanks (g2 : Guess2) (g3 : Guess3) (colloc : Bool) (size : Int) (procs : List Int) (axes : List (Axis K))
    (Ls : List (Layout K)) : Prop :=
  (Ls.length : Int) = size ∧ ∀ (r : Nat) Lr, Ls[r]? = some Lr → stage1 g2 g3 colloc size r procs axes = .ok Lr

theorem mkDirs_all (colloc : Bool) {Q : Axis K → Prop} {R : Axis K → Dir → Prop}
    (hR : ∀ ax P r, WF ax → Q ax → 1 ≤ P → P ≤ gridSize colloc ax → 0 ≤ r → r < P → R ax (dirAt colloc ax P r)) :
    ∀ {axes : List (Axis K)} {Ps cs : List Int}, (∀ ax ∈ axes, WF ax ∧ Q ax) →
      Fits (axes.map (gridSize colloc)) Ps → InBox Ps cs → List.Forall₂ R axes (mkDirs colloc axes Ps cs)
  | [], _, _, _, hf, hb => by cases hf; cases hb; exact .nil
  | ax :: axes, _, _, hw, hf, hb => by
    rw [List.map_cons] at hf
    cases hf with
    | cons f1 f2 =>
      cases hb with
      | cons b1 b2 =>
        exact .cons (hR _ _ _ (hw ax (by simp)).1 (hw ax (by simp)).2 f1.1 f1.2 b1.1 b1.2)
          (mkDirs_all colloc hR (fun a ha => hw a (by simp [ha])) f2 b2)

theorem forall2_map {α β : Type} {R : α → β → Prop} {f : α → Int} {g : β → Int} (h : ∀ a b, R a b → g b = f a) :
    ∀ {l : List α} {l' : List β}, List.Forall₂ R l l' → l'.map g = l.map f
  | _, _, .nil => rfl
  | _, _, .cons h1 h2 => by rw [List.map_cons, List.map_cons, h _ _ h1, forall2_map h h2]

/-- What is needed of each direction. -/
structure DirOK (colloc : Bool) (ax : Axis K) (d : Dir) : Prop where
  ghost : GhostOK colloc ax d
  size : d.nodeSize = ax.nnp
  gsize : d.geomSize = ax.m - ax.p
  shift : d.nodeShift = if colloc then (ax.m - ax.p - ax.nnp) / 2 else 0
  width : 1 ≤ d.nodeLwidth ∧ 1 ≤ d.geomLwidth

theorem dirOK (colloc : Bool) (ax : Axis K) (P r : Int) (h : WF ax) (hc : Condition colloc ax) (hP : 1 ≤ P)
    (hN : P ≤ gridSize colloc ax) (h0 : 0 ≤ r) (h1 : r < P) : DirOK colloc ax (dirAt colloc ax P r) := by
  refine ⟨?_, ?_, ?_, ?_, ?_⟩
  · cases colloc
    · exact gal_ghost h hP hN h0 h1 (hc.1 rfl).2
    · exact col_ghost h hP hN h0 h1 (hc.2 rfl)
  · cases colloc <;> rfl
  · cases colloc
    · have hl := sp_last h.toPreWF (by simp [gridSize] at hN; omega) (hc.1 rfl).2
      show (galDir ax P r).geomSize = _
      dsimp only [galDir]
      omega
    · show ax.m - ax.p - 1 + 1 = ax.m - ax.p; ring
  · cases colloc
    · rfl
    · show Int.tdiv (ax.m - ax.p - 1 + 1 - ax.nnp) 2 = _
      rw [tdiv_shift h]; rfl
  · exact ⟨(node_tiles colloc h hP hN (fun e => (hc.1 e).1)).pos r h0 h1,
      (geom_tiles colloc h hP hN (fun e => hc.1 e)).pos r h0 h1⟩

theorem wrap_inBox (colloc : Bool) : ∀ {axes : List (Axis K)} {ds : List Dir} {y : List Int},
    List.Forall₂ (DirOK colloc) axes ds → InBlock (ds.map Dir.nodeGstart) (ds.map Dir.nodeGwidth) y →
    InBox (axes.map Axis.nnp) (wrapAll (axes.map Axis.nnp) y)
  | _, _, _, .nil, hy => by cases hy; exact .nil
  | _, _, _, .cons h1 h2, hy => by
    simp only [List.map_cons] at hy ⊢
    cases hy with
    | cons b1 b2 =>
      unfold wrapAll
      rw [List.zipWith_cons_cons]
      have := h1.ghost.wrapped _ b1.1 b1.2
      exact .cons ⟨this.1, this.2.1⟩ (wrap_inBox colloc h2 b2)

theorem shift_inBox (colloc : Bool) : ∀ {axes : List (Axis K)} {ds : List Dir} {x : List Int}, (∀ ax ∈ axes, WF ax) →
    List.Forall₂ (DirOK colloc) axes ds → InBox (axes.map Axis.nnp) x →
    InBox (axes.map fun ax => ax.m - ax.p) (shiftBy (ds.map Dir.nodeShift) x)
  | _, _, _, _, .nil, hy => by cases hy; exact .nil
  | ax :: axes, _, _, hw, .cons h1 h2, hy => by
    simp only [List.map_cons] at hy ⊢
    cases hy with
    | cons b1 b2 =>
      unfold shiftBy
      rw [List.zipWith_cons_cons]
      obtain ⟨n1, n2, _⟩ := nnp_bounds (hw ax (by simp))
      refine .cons ?_ (shift_inBox colloc (fun a ha => hw a (by simp [ha])) h2 b2)
      rw [h1.shift]
      split_ifs <;> omega

/-- The grid handed to C26 and C27 by the setup: from the axes of a successful setup, all processes together satisfy
the hypotheses of those theorems, with `Ns` the numbers of nodes. -/
theorem C26_after_setup_partial (g2 : Guess2) (g3 : Guess3) (colloc : Bool) (size : Int) (procs : List Int)
    (axes : List (Axis K)) (L : Layout K) (rank : Int) (hr : ∀ ax ∈ axes, Reached ax)
    (h : stage1 g2 g3 colloc size rank procs axes = .ok L) (hc : ∀ ax ∈ L.axes, Condition colloc ax)
    (Ls : List (Layout K)) (hL : AllRanks g2 g3 colloc size procs axes Ls) :
    Decomposed (L.axes.map Axis.nnp) (world (appWorld Ls)) ∧ GhostWraps (L.axes.map Axis.nnp) (world (appWorld Ls)) ∧
    OwnedGhosted (world (appWorld Ls)) ∧ (∀ n ∈ L.axes.map Axis.nnp, 1 ≤ n) ∧
    (∀ r, r < Ls.length → ∀ w ∈ ghoWidth (world (appWorld Ls)) r, 0 ≤ w) := by
  obtain ⟨hw, hf, hp, hall, huniq⟩ := stage1_all hr h
  obtain ⟨hlen, hget⟩ := hL
  have hdirs : ∀ (r : Nat) Lr, Ls[r]? = some Lr → List.Forall₂ (DirOK colloc) L.axes Lr.dir := by
    intro r Lr hr'
    have hlt := (List.getElem?_eq_some_iff.1 hr').1
    obtain ⟨c, hb, hs⟩ := hall r (by omega) (by omega)
    rw [hget r Lr hr'] at hs
    simp only [Res.ok.injEq] at hs
    rw [hs]
    exact mkDirs_all colloc (fun ax P r a b => dirOK colloc ax P r a b) (fun ax ha => ⟨hw ax ha, hc ax ha⟩) hf hb
  have N := C20_owned_nodes_partition_partial g2 g3 colloc size rank procs axes L hr h
    (fun e ax ha => ((hc ax ha).1 e).1)
  have wget : ∀ (r : Nat) Lr, Ls[r]? = some Lr → (appWorld Ls)[r]? = some (Lr.dir.map adir) ∧
      (world (appWorld Ls))[r]? = some (Lr.dir.map gdir) := by
    intro r Lr hr'
    have e1 : (appWorld Ls)[r]? = some (Lr.dir.map adir) := by
      unfold appWorld; rw [List.getElem?_map, hr']; rfl
    refine ⟨e1, ?_⟩
    rw [world_get e1, List.map_map]; rfl
  have wlen : (world (appWorld Ls)).length = Ls.length := by simp [world, appWorld]
  have alen : (appWorld Ls).length = Ls.length := by simp [appWorld]
  have lget : ∀ r, r < Ls.length → ∃ Lr, Ls[r]? = some Lr := fun r hr' => ⟨Ls[r], by simp [hr']⟩
  have memA : ∀ a ∈ appWorld Ls, ∃ (r : Nat) (Lr : Layout K), Ls[r]? = some Lr ∧ a = Lr.dir.map adir := by
    intro a ha
    unfold appWorld at ha
    rw [List.mem_map] at ha
    obtain ⟨Lr, hm, rfl⟩ := ha
    obtain ⟨r, hr'⟩ := List.getElem?_of_mem hm
    exact ⟨r, Lr, hr', rfl⟩
  have memW : ∀ g ∈ world (appWorld Ls), ∃ (r : Nat) (Lr : Layout K), Ls[r]? = some Lr ∧ g = Lr.dir.map gdir := by
    intro g hg
    unfold world at hg
    rw [List.mem_map] at hg
    obtain ⟨a, ha, rfl⟩ := hg
    obtain ⟨r, Lr, h1, rfl⟩ := memA a ha
    exact ⟨r, Lr, h1, by rw [List.map_map]; rfl⟩
  have part : ∀ (st ln : Dir → Int) (sz : Axis K → Int),
      ((∀ r, 0 ≤ r → r < size → ∃ Lr, stage1 g2 g3 colloc size r procs axes = .ok Lr ∧ Lr.axes = L.axes ∧
        Lr.procs = L.procs ∧ Blocks (L.axes.map sz) (Lr.dir.map st) (Lr.dir.map ln)) ∧
      ∀ x, InBox (L.axes.map sz) x →
        ∃ r, (0 ≤ r ∧ r < size ∧ ∃ Lr, stage1 g2 g3 colloc size r procs axes = .ok Lr ∧
              InBlock (Lr.dir.map st) (Lr.dir.map ln) x) ∧
          ∀ r', (0 ≤ r' ∧ r' < size ∧ ∃ Lr, stage1 g2 g3 colloc size r' procs axes = .ok Lr ∧
              InBlock (Lr.dir.map st) (Lr.dir.map ln) x) → r' = r) →
      ∀ (s l : Nat → List Int), (∀ (r : Nat) (Lr : Layout K), Ls[r]? = some Lr → s r = Lr.dir.map st ∧ l r = Lr.dir.map ln) →
      Partitions (L.axes.map sz) Ls.length s l := by
    rintro st ln sz ⟨a1, a2⟩ s l hsl
    constructor
    · intro r hr'
      obtain ⟨Lr, e⟩ := lget r hr'
      obtain ⟨Lr', b1, -, -, b2⟩ := a1 r (by omega) (by omega)
      rw [hget r Lr e] at b1
      simp only [Res.ok.injEq] at b1
      subst b1
      rw [(hsl r Lr e).1, (hsl r Lr e).2]; exact b2
    · intro x hx
      obtain ⟨r, ⟨r0, r1, Lr, b1, b2⟩, hu⟩ := a2 x hx
      obtain ⟨q, rfl⟩ : ∃ q : Nat, r = q := ⟨r.toNat, by omega⟩
      obtain ⟨Lq, e⟩ := lget q (by omega)
      rw [hget q Lq e] at b1
      simp only [Res.ok.injEq] at b1
      subst b1
      refine ⟨q, ⟨by omega, by rw [(hsl q Lq e).1, (hsl q Lq e).2]; exact b2⟩, ?_⟩
      intro r' hr' hb'
      obtain ⟨L', e'⟩ := lget r' hr'
      rw [(hsl r' L' e').1, (hsl r' L' e').2] at hb'
      have := hu r' ⟨by omega, by omega, L', hget r' L' e', hb'⟩
      omega
  have D : Decomposed (L.axes.map Axis.nnp) (world (appWorld Ls)) := by
    constructor
    · intro g hg
      obtain ⟨r, Lr, h1, rfl⟩ := memW g hg
      unfold sizes
      rw [List.map_map]
      exact forall2_map (fun a b hab => hab.size) (hdirs r Lr h1)
    · rw [wlen]
      apply part Dir.nodeLstart Dir.nodeLwidth Axis.nnp N
      intro r Lr e
      rw [(own_get (wget r Lr e).2).1, (own_get (wget r Lr e).2).2.1, List.map_map, List.map_map]
      exact ⟨rfl, rfl⟩
  have gho : ∀ (r : Nat) (Lr : Layout K), Ls[r]? = some Lr → ghoStart (world (appWorld Ls)) r = Lr.dir.map Dir.nodeGstart ∧
      ghoWidth (world (appWorld Ls)) r = Lr.dir.map Dir.nodeGwidth := by
    intro r Lr e
    rw [(own_get (wget r Lr e).2).2.2.1, (own_get (wget r Lr e).2).2.2.2, List.map_map, List.map_map]
    exact ⟨rfl, rfl⟩
  refine ⟨D, ?_, ?_, ?_, ?_⟩
  · intro r y hr' hy
    rw [wlen] at hr'
    obtain ⟨Lr, e⟩ := lget r hr'
    rw [(gho r Lr e).1, (gho r Lr e).2] at hy
    exact wrap_inBox colloc (hdirs r Lr e) hy
  · intro g hg
    obtain ⟨r, Lr, e, rfl⟩ := memW g hg
    have := hdirs r Lr e
    unfold Sub lbox gbox
    rw [List.map_map, List.map_map, List.forall₂_map_left_iff, List.forall₂_map_right_iff]
    revert this
    generalize Lr.dir = ds
    generalize L.axes = axs
    intro this
    induction this with
    | nil => exact .nil
    | cons h1 h2 ih =>
      refine .cons ?_ ih
      have := h1.ghost.owned
      have := h1.width
      simp only [gdir, Function.comp_apply]
      omega
  · intro n hn
    rw [List.mem_map] at hn
    obtain ⟨ax, ha, rfl⟩ := hn
    obtain ⟨n1, n2, _⟩ := nnp_bounds (hw ax ha)
    have := (hw ax ha).legal.enough
    have := (hw ax ha).legal.degree
    omega
  · intro r hr' w hw'
    obtain ⟨Lr, e⟩ := lget r hr'
    rw [(gho r Lr e).2, List.mem_map] at hw'
    obtain ⟨d, hd, rfl⟩ := hw'
    have := hdirs r Lr e
    have key : ∀ (axs : List (Axis K)) (ds : List Dir), List.Forall₂ (DirOK colloc) axs ds → ∀ d ∈ ds, 0 ≤ d.nodeGwidth := by
      intro axs ds hf
      induction hf with
      | nil => simp
      | cons h1 h2 ih =>
        intro d hd
        rcases List.mem_cons.1 hd with rfl | hd
        · have := h1.ghost.owned; have := h1.width; omega
        · exact ih d hd
    exact key _ _ this d hd

/-- The grids handed to C26–C28 by the setup: from the axes of a successful setup, all processes together satisfy
the hypotheses of those theorems, with `Ns` the numbers of nodes, `Gs` the numbers of control points. -/
theorem C28_after_setup_partial (g2 : Guess2) (g3 : Guess3) (colloc : Bool) (size : Int) (procs : List Int)
    (axes : List (Axis K)) (L : Layout K) (rank : Int) (hr : ∀ ax ∈ axes, Reached ax)
    (h : stage1 g2 g3 colloc size rank procs axes = .ok L) (hc : ∀ ax ∈ L.axes, Condition colloc ax)
    (hE : colloc = true → ∀ ax ∈ L.axes, EndSpans ax)
    (Ls : List (Layout K)) (hL : AllRanks g2 g3 colloc size procs axes Ls) :
    AppGrid (L.axes.map Axis.nnp) (L.axes.map fun ax => ax.m - ax.p)
      (L.axes.map fun ax => if colloc then (ax.m - ax.p - ax.nnp) / 2 else 0) (appWorld Ls) ∧
    OwnedGhosted (world (appWorld Ls)) ∧ (∀ n ∈ L.axes.map Axis.nnp, 1 ≤ n) ∧
    (∀ r, r < Ls.length → ∀ w ∈ ghoWidth (world (appWorld Ls)) r, 0 ≤ w) := by
  obtain ⟨D, hWr, hOG, hpos, hgw⟩ := C26_after_setup_partial g2 g3 colloc size procs axes L rank hr h hc Ls hL
  obtain ⟨hw, hf, hp, hall, huniq⟩ := stage1_all hr h
  obtain ⟨hlen, hget⟩ := hL
  have hdirs : ∀ (r : Nat) Lr, Ls[r]? = some Lr → List.Forall₂ (DirOK colloc) L.axes Lr.dir := by
    intro r Lr hr'
    have hlt := (List.getElem?_eq_some_iff.1 hr').1
    obtain ⟨c, hb, hs⟩ := hall r (by omega) (by omega)
    rw [hget r Lr hr'] at hs
    simp only [Res.ok.injEq] at hs
    rw [hs]
    exact mkDirs_all colloc (fun ax P r a b => dirOK colloc ax P r a b) (fun ax ha => ⟨hw ax ha, hc ax ha⟩) hf hb
  have hcov : ∀ (r : Nat) Lr, Ls[r]? = some Lr → List.Forall₂ (fun (_ : Axis K) (d : Dir) =>
      1 ≤ d.geomLwidth ∧ d.nodeShift + d.nodeGstart ≤ d.geomLstart ∧
      d.geomLstart + d.geomLwidth ≤ d.nodeShift + d.nodeGstart + d.nodeGwidth) L.axes Lr.dir := by
    intro r Lr hr'
    have hlt := (List.getElem?_eq_some_iff.1 hr').1
    obtain ⟨c, hb, hs⟩ := hall r (by omega) (by omega)
    rw [hget r Lr hr'] at hs
    simp only [Res.ok.injEq] at hs
    rw [hs]
    exact mkDirs_all colloc (Q := fun ax => Condition colloc ax ∧ (colloc = true → EndSpans ax))
      (fun ax P r a b c d e f => ⟨(dirOK colloc ax P r a b.1 c d e f).width.2, dir_cover colloc a c d e f b.2⟩)
      (fun ax ha => ⟨hw ax ha, hc ax ha, fun e => hE e ax ha⟩) hf hb
  have G := C20_owned_geometry_partition_partial g2 g3 colloc size rank procs axes L hr h
    (fun e ax ha => (hc ax ha).1 e)
  have wget : ∀ (r : Nat) Lr, Ls[r]? = some Lr → (appWorld Ls)[r]? = some (Lr.dir.map adir) ∧
      (world (appWorld Ls))[r]? = some (Lr.dir.map gdir) := by
    intro r Lr hr'
    have e1 : (appWorld Ls)[r]? = some (Lr.dir.map adir) := by
      unfold appWorld; rw [List.getElem?_map, hr']; rfl
    refine ⟨e1, ?_⟩
    rw [world_get e1, List.map_map]; rfl
  have wlen : (world (appWorld Ls)).length = Ls.length := by simp [world, appWorld]
  have alen : (appWorld Ls).length = Ls.length := by simp [appWorld]
  have lget : ∀ r, r < Ls.length → ∃ Lr, Ls[r]? = some Lr := fun r hr' => ⟨Ls[r], by simp [hr']⟩
  have memA : ∀ a ∈ appWorld Ls, ∃ (r : Nat) (Lr : Layout K), Ls[r]? = some Lr ∧ a = Lr.dir.map adir := by
    intro a ha
    unfold appWorld at ha
    rw [List.mem_map] at ha
    obtain ⟨Lr, hm, rfl⟩ := ha
    obtain ⟨r, hr'⟩ := List.getElem?_of_mem hm
    exact ⟨r, Lr, hr', rfl⟩
  have memW : ∀ g ∈ world (appWorld Ls), ∃ (r : Nat) (Lr : Layout K), Ls[r]? = some Lr ∧ g = Lr.dir.map gdir := by
    intro g hg
    unfold world at hg
    rw [List.mem_map] at hg
    obtain ⟨a, ha, rfl⟩ := hg
    obtain ⟨r, Lr, h1, rfl⟩ := memA a ha
    exact ⟨r, Lr, h1, by rw [List.map_map]; rfl⟩
  have part : ∀ (st ln : Dir → Int) (sz : Axis K → Int),
      ((∀ r, 0 ≤ r → r < size → ∃ Lr, stage1 g2 g3 colloc size r procs axes = .ok Lr ∧ Lr.axes = L.axes ∧
        Lr.procs = L.procs ∧ Blocks (L.axes.map sz) (Lr.dir.map st) (Lr.dir.map ln)) ∧
      ∀ x, InBox (L.axes.map sz) x →
        ∃ r, (0 ≤ r ∧ r < size ∧ ∃ Lr, stage1 g2 g3 colloc size r procs axes = .ok Lr ∧
              InBlock (Lr.dir.map st) (Lr.dir.map ln) x) ∧
          ∀ r', (0 ≤ r' ∧ r' < size ∧ ∃ Lr, stage1 g2 g3 colloc size r' procs axes = .ok Lr ∧
              InBlock (Lr.dir.map st) (Lr.dir.map ln) x) → r' = r) →
      ∀ (s l : Nat → List Int), (∀ (r : Nat) (Lr : Layout K), Ls[r]? = some Lr → s r = Lr.dir.map st ∧ l r = Lr.dir.map ln) →
      Partitions (L.axes.map sz) Ls.length s l := by
    rintro st ln sz ⟨a1, a2⟩ s l hsl
    constructor
    · intro r hr'
      obtain ⟨Lr, e⟩ := lget r hr'
      obtain ⟨Lr', b1, -, -, b2⟩ := a1 r (by omega) (by omega)
      rw [hget r Lr e] at b1
      simp only [Res.ok.injEq] at b1
      subst b1
      rw [(hsl r Lr e).1, (hsl r Lr e).2]; exact b2
    · intro x hx
      obtain ⟨r, ⟨r0, r1, Lr, b1, b2⟩, hu⟩ := a2 x hx
      obtain ⟨q, rfl⟩ : ∃ q : Nat, r = q := ⟨r.toNat, by omega⟩
      obtain ⟨Lq, e⟩ := lget q (by omega)
      rw [hget q Lq e] at b1
      simp only [Res.ok.injEq] at b1
      subst b1
      refine ⟨q, ⟨by omega, by rw [(hsl q Lq e).1, (hsl q Lq e).2]; exact b2⟩, ?_⟩
      intro r' hr' hb'
      obtain ⟨L', e'⟩ := lget r' hr'
      rw [(hsl r' L' e').1, (hsl r' L' e').2] at hb'
      have := hu r' ⟨by omega, by omega, L', hget r' L' e', hb'⟩
      omega
  refine ⟨⟨D, hWr, ?_, ?_, ?_, ?_, ?_⟩, hOG, hpos, hgw⟩
  · intro a ha
    obtain ⟨r, Lr, e, rfl⟩ := memA a ha
    rw [List.map_map]
    exact forall2_map (fun a b hab => hab.gsize) (hdirs r Lr e)
  · intro a ha
    obtain ⟨r, Lr, e, rfl⟩ := memA a ha
    rw [List.map_map]
    exact forall2_map (fun a b hab => hab.shift) (hdirs r Lr e)
  · rw [alen]
    apply part Dir.geomLstart Dir.geomLwidth _ G
    intro r Lr e
    rw [(app_get (wget r Lr e).1).1, (app_get (wget r Lr e).1).2, List.map_map, List.map_map]
    exact ⟨rfl, rfl⟩
  · intro x hx
    obtain ⟨Lr, e⟩ := lget 0 (by have := stage1_range h; omega)
    have := shift_inBox colloc hw (hdirs 0 Lr e) hx
    rw [forall2_map (f := fun ax : Axis K => if colloc then (ax.m - ax.p - ax.nnp) / 2 else 0) (fun a b hab => hab.shift) (hdirs 0 Lr e)] at this
    exact this
  · intro a ha
    obtain ⟨r, Lr, e, rfl⟩ := memA a ha
    rw [List.map_map, List.map_map]
    have := hcov r Lr e
    clear e
    unfold Sub
    rw [List.forall₂_map_left_iff, List.forall₂_map_right_iff]
    revert this
    generalize Lr.dir = ds
    generalize L.axes = axs
    intro this
    induction this with
    | nil => exact .nil
    | cons h1 h2 ih =>
      refine .cons ?_ ih
      simp only [adir, gdir, Function.comp_apply]
      omega

/-- Such a list of layouts exists. -/
theorem allRanks_exists (g2 : Guess2) (g3 : Guess3) (colloc : Bool) (size : Int) (procs : List Int)
    (axes : List (Axis K)) (L : Layout K) (rank : Int) (hr : ∀ ax ∈ axes, Reached ax)
    (h : stage1 g2 g3 colloc size rank procs axes = .ok L) : ∃ Ls, AllRanks g2 g3 colloc size procs axes Ls := by
  obtain ⟨hw, hf, hp, hall, huniq⟩ := stage1_all hr h
  have hs := stage1_range h
  have : ∀ n : Nat, (n:Int) ≤ size → ∃ Ls : List (Layout K), Ls.length = n ∧
      ∀ (r : Nat) Lr, Ls[r]? = some Lr → stage1 g2 g3 colloc size r procs axes = .ok Lr := by
    intro n
    induction n with
    | zero => intro _; exact ⟨[], rfl, by simp⟩
    | succ n ih =>
      intro hn
      push_cast at hn
      obtain ⟨Ls, l1, l2⟩ := ih (by omega)
      obtain ⟨c, _, hc⟩ := hall n (by omega) (by omega)
      refine ⟨Ls ++ [{ axes := L.axes, procs := L.procs, ranks := c, dir := mkDirs colloc L.axes L.procs c }], by simp [l1], ?_⟩
      intro r Lr hr'
      by_cases hlt : r < Ls.length
      · rw [List.getElem?_append_left hlt] at hr'
        exact l2 r Lr hr'
      · rw [List.getElem?_append_right (by omega)] at hr'
        have : r - Ls.length = 0 := by
          by_contra hne
          rw [List.getElem?_eq_none (by simp; omega)] at hr'
          simp at hr'
        rw [this] at hr'
        simp only [List.getElem?_cons_zero, Option.some.injEq] at hr'
        rw [← hr', show r = n by omega]
        exact hc
  obtain ⟨Ls, l1, l2⟩ := this size.toNat (by omega)
  exact ⟨Ls, by omega, l2⟩

/-- For collocation the condition holds on every axis that is not periodic. -/
theorem C28_condition (ax : Axis K) (h : WF ax) (hper : ax.periodic = false) :
    (ax.m - ax.p - ax.nnp) / 2 ≤ ax.nnp ∧ EndSpans ax := by
  obtain ⟨n1, n2, n3, _⟩ := nnp_bounds h
  have e := n3 hper
  have hp := h.legal.degree
  have hm := h.legal.enough
  obtain ⟨G1, G2⟩ := gsp_spec h.toPreWF
  refine ⟨by omega, ?_, ?_⟩
  · rw [show (ax.m - ax.p - ax.nnp) / 2 = 0 by omega]
    obtain ⟨a, b, c, d, e⟩ := G1 0 (by omega) (by omega)
    rw [a, show gsp ax 0 = ax.p by omega]
  · rw [show ax.nnp - 1 + (ax.m - ax.p - ax.nnp) / 2 = ax.m - ax.p - 1 by omega]
    obtain ⟨a, b, c, d, e⟩ := G1 (ax.m - ax.p - 1) (by omega) (by omega)
    rw [a, show gsp ax (ax.m - ax.p - 1) = ax.m - ax.p - 1 by omega]

/-- The four-process example of C20 meets all hypotheses, and so the transfers round-trip on it. -/
example (g2 : Guess2) (g3 : Guess3) (gvec nvec gvec' : Int → Rat) : ∃ Ls,
    AllRanks g2 g3 false 4 [2,2] [exAx0, exAx1] Ls ∧ AppGrid [6,3] [8,3] [0,0] (appWorld Ls) ∧
    OwnedGhosted (world (appWorld Ls)) ∧
    ∃ n', globalToNatural (appWorld Ls) 2 gvec nvec = .ok n' ∧
      ∀ i, 0 ≤ i → i < 36 → naturalToGlobal (appWorld Ls) 2 n' gvec' i = gvec i := by
  have hL : stage1 g2 g3 false 4 3 [2,2] [exAx0, exAx1] =
    .ok ⟨[(Ax.setUp exAx0).2, (Ax.setUp exAx1).2], [2,2], [1,1], _⟩ := rfl
  obtain ⟨Ls, h⟩ := allRanks_exists g2 g3 false 4 [2,2] _ _ 3 exAx_reached hL
  have H := C28_after_setup_partial g2 g3 false 4 [2,2] _ _ 3 exAx_reached hL (by
    intro ax h
    simp only [List.mem_cons, List.not_mem_nil, or_false] at h
    refine ⟨fun _ => ?_, by simp⟩
    rcases h with rfl | rfl <;> decide +kernel) (by simp) Ls h
  have e1 : (List.map Axis.nnp [(Ax.setUp exAx0).2, (Ax.setUp exAx1).2]) = [6,3] := by decide +kernel
  have e2 : (List.map (fun ax : Axis Rat => ax.m - ax.p) [(Ax.setUp exAx0).2, (Ax.setUp exAx1).2]) = [8,3] := by
    decide +kernel
  dsimp only at H
  rw [e1, e2] at H
  exact ⟨Ls, h, H.1, H.2.1, C28_global_round_trip _ _ _ _ H.1 H.2.2.1 2 gvec nvec gvec'⟩

/-- The condition for collocation holds on that periodic axis too. -/
example : Condition true (Ax.setUp exAx0).2 ∧ EndSpans (Ax.setUp exAx0).2 :=
  ⟨⟨by simp, fun _ => by decide +kernel⟩, by decide +kernel, by decide +kernel⟩

/-- The breaks `0 1 2 3 6 7` of the counterexample below: the last interval but one is longer than the last. -/
def exBreaks (i : Int) : Rat := if i ≤ 3 then i else i + 2

/-- A periodic cubic axis over them, of maximal continuity. -/
def exShort : Axis Rat := (Ax.step (Ax.step (Ax.step (Ax.create fun _ => 0) (.setPeriodic true)).2 (.setDegree 3)).2
  (.initBreaks (fun _ => 0) 6 exBreaks 2)).2

theorem exShort_reached : Reached exShort :=
  .step _ _ (.step _ _ (.step _ _ (.create _) (by decide +kernel)) (by decide +kernel)) (by decide +kernel)

/-- **C28** is false for collocation on some periodic axes: the setup succeeds, and the index arrays from which the
global -> natural transfer is built are not filled completely, so it reads uninitialised memory. -/
theorem C28_collocation_refuted {V : Type} (gvec nvec : Int → V) :
    Reached exShort ∧ ∃ L, stage1 exactGuess2 exactGuess3 true 1 0 [-1] [exShort] = .ok L ∧
      AllRanks exactGuess2 exactGuess3 true 1 [-1] [exShort] [L] ∧
      globalToNatural (appWorld [L]) 1 gvec nvec = .ub := by
  refine ⟨exShort_reached, ?_⟩
  obtain ⟨L, e, hd, ha⟩ := summary_ok (x := stage1 exactGuess2 exactGuess3 true 1 0 [-1] [exShort])
    (d := [⟨5, 0, 5, 8, 0, 8, 0, 8, 1, 5, 0, 5, -1, 7⟩]) (a := [(3, 11, 5)]) (by decide +kernel)
  refine ⟨L, e, ⟨rfl, ?_⟩, ?_⟩
  · intro r Lr hr
    have : r = 0 := by
      by_contra hne
      rw [List.getElem?_eq_none (by simp; omega)] at hr
      simp at hr
    subst this
    simp only [List.getElem?_cons_zero, Option.some.injEq] at hr
    rw [← hr]; exact e
  · unfold appWorld
    rw [List.map_cons, hd]
    rfl

end PetIGA.Grid
