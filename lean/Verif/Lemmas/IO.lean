import Verif.Model.IO
import Verif.Lemmas.Assemble
/-! Lemmas on the grid of control points and the files written through it. -/
set_option linter.unusedSectionVars false
namespace PetIGA.IO
open PetIGA.Ax PetIGA.Lay PetIGA.Grid PetIGA.Spec PetIGA.Part PetIGA.Asm

variable {K V : Type} [Field K] [LinearOrder K] [IsStrictOrderedRing K]

/-- What the files rely on: the boxes of control points owned by the processes partition the grid `Gs`, and each
process stores a larger box inside the grid. -/
structure IOGrid (Gs : List Int) (W : Grid.World) : Prop where
  D : Decomposed Gs W
  inside : ∀ r y, r < W.length → InBlock (ghoStart W r) (ghoWidth W r) y → InBox Gs y
  owned : OwnedGhosted W
  pos : ∀ n ∈ Gs, 1 ≤ n
  ne : 1 ≤ W.length
  wid : ∀ r, r < W.length → ∀ w ∈ ghoWidth W r, 0 ≤ w

/-- One direction of the grid of control points. -/
structure GeomDir (ax : Axis K) (d : Dir) : Prop where
  lo : 0 ≤ d.geomGstart
  hi : d.geomGstart + d.geomGwidth ≤ ax.m - ax.p
  sub : d.geomGstart ≤ d.geomLstart ∧ d.geomLstart + d.geomLwidth ≤ d.geomGstart + d.geomGwidth
  size : d.geomSize = ax.m - ax.p
  pos : 1 ≤ d.geomLwidth

theorem geomDir (colloc : Bool) (ax : Axis K) (P r : Int) (h : WF ax)
    (hc : Condition colloc ax ∧ (colloc = true → EndSpans ax)) (hP : 1 ≤ P)
    (hN : P ≤ gridSize colloc ax) (h0 : 0 ≤ r) (h1 : r < P) : GeomDir ax (dirAt colloc ax P r) := by
  have O := dirOK colloc ax P r h hc.1 hP hN h0 h1
  have C := dir_cover colloc h hP hN h0 h1 hc.2
  have hp := h.legal.degree
  have hm := h.legal.enough
  obtain ⟨n1, n2, n3, _⟩ := nnp_bounds h
  have key : 0 ≤ (dirAt colloc ax P r).geomGstart ∧
      (dirAt colloc ax P r).geomGstart + (dirAt colloc ax P r).geomGwidth ≤ ax.m - ax.p ∧
      (dirAt colloc ax P r).geomGstart ≤ (dirAt colloc ax P r).nodeShift + (dirAt colloc ax P r).nodeGstart ∧
      (dirAt colloc ax P r).nodeShift + (dirAt colloc ax P r).nodeGstart + (dirAt colloc ax P r).nodeGwidth ≤
        (dirAt colloc ax P r).geomGstart + (dirAt colloc ax P r).geomGwidth := by
    cases colloc
    · obtain ⟨a, b, c, d, e⟩ := bal_range (N := ax.nel) hP hN h0 h1
      have A := sp_elem h.toPreWF (i := (dist1D P r ax.nel).2) (by omega) (by omega)
      have B := sp_elem h.toPreWF (i := (dist1D P r ax.nel).2 + (dist1D P r ax.nel).1 - 1) (by omega) (by omega)
      obtain ⟨A1, A2, -⟩ := A
      obtain ⟨B1, B2, -⟩ := B
      show 0 ≤ (galDir ax P r).geomGstart ∧ (galDir ax P r).geomGstart + (galDir ax P r).geomGwidth ≤ ax.m - ax.p ∧
        (galDir ax P r).geomGstart ≤ (galDir ax P r).nodeShift + (galDir ax P r).nodeGstart ∧
        (galDir ax P r).nodeShift + (galDir ax P r).nodeGstart + (galDir ax P r).nodeGwidth ≤
        (galDir ax P r).geomGstart + (galDir ax P r).geomGwidth
      dsimp only [galDir]
      omega
    · obtain ⟨a, b, c, d, e⟩ := bal_range (N := ax.nnp) hP hN h0 h1
      obtain ⟨s1, s2, s3⟩ := shift_bounds h
      obtain ⟨G1, G2⟩ := gsp_spec h.toPreWF
      have A := G1 ((dist1D P r ax.nnp).2 + Int.tdiv (ax.m - ax.p - 1 + 1 - ax.nnp) 2) (by omega) (by omega)
      have B := G1 ((dist1D P r ax.nnp).2 + (dist1D P r ax.nnp).1 - 1 + Int.tdiv (ax.m - ax.p - 1 + 1 - ax.nnp) 2) (by omega) (by omega)
      show 0 ≤ (colDir ax P r).geomGstart ∧ (colDir ax P r).geomGstart + (colDir ax P r).geomGwidth ≤ ax.m - ax.p ∧
        (colDir ax P r).geomGstart ≤ (colDir ax P r).nodeShift + (colDir ax P r).nodeGstart ∧
        (colDir ax P r).nodeShift + (colDir ax P r).nodeGstart + (colDir ax P r).nodeGwidth ≤
        (colDir ax P r).geomGstart + (colDir ax P r).geomGwidth
      dsimp only [colDir]
      split_ifs <;> omega
  obtain ⟨k1, k2, k3, k4⟩ := key
  exact ⟨k1, k2, ⟨by omega, by omega⟩, O.gsize, O.width.2⟩

variable {g2 : Guess2} {g3 : Guess3} {colloc : Bool} {size : Int} {procs : List Int} {axes axs : List (Axis K)}
  {Ls : List (Layout K)}

theorem setup_geomDir (S : Setup g2 g3 colloc size procs axes axs Ls) (hE : colloc = true → ∀ ax ∈ axs, EndSpans ax)
    {r : Nat} {L : Layout K} (h : Ls[r]? = some L) : List.Forall₂ GeomDir axs L.dir := by
  have h1 := S.ranks.2 r L h
  have h2 := stage1_axes h1 S.set
  obtain ⟨hw, hf, hp, hall, huniq⟩ := stage1_all S.reached h1
  have hlt := (List.getElem?_eq_some_iff.1 h).1
  have hlen := S.ranks.1
  obtain ⟨c, hb, hs⟩ := hall r (by omega) (by omega)
  rw [h1] at hs
  simp only [Res.ok.injEq] at hs
  have hd : L.dir = mkDirs colloc L.axes L.procs c := by
    have := congrArg Layout.dir hs
    simpa using this
  rw [hd]
  rw [h2] at hw hf ⊢
  exact mkDirs_all colloc (fun ax P r a b => geomDir colloc ax P r a b)
    (fun ax ha => ⟨hw ax ha, S.cond ax ha, fun e => hE e ax ha⟩) hf hb

theorem ioWorld_get {r : Nat} {L : Layout K} (h : Ls[r]? = some L) : (ioWorld Ls)[r]? = some (L.dir.map iodir) := by
  unfold ioWorld; rw [List.getElem?_map, h]; rfl

theorem ioWorld_length : (ioWorld Ls).length = Ls.length := by simp [ioWorld]

/-- Start and width of the control points stored by rank `r`. -/
theorem ioWorld_gho {r : Nat} {L : Layout K} (h : Ls[r]? = some L) :
    ghoStart (ioWorld Ls) r = L.dir.map Dir.geomGstart ∧ ghoWidth (ioWorld Ls) r = L.dir.map Dir.geomGwidth := by
  obtain ⟨-, -, h3, h4⟩ := own_get (ioWorld_get h)
  rw [h3, h4, List.map_map, List.map_map]
  exact ⟨rfl, rfl⟩

theorem forall2_mem_right {α β : Type} {R : α → β → Prop} {l : List α} {l' : List β} (h : List.Forall₂ R l l') :
    ∀ b ∈ l', ∃ a ∈ l, R a b := by
  induction h with
  | nil => simp
  | cons h1 h2 ih =>
    intro b hb
    rcases List.mem_cons.1 hb with rfl | hb
    · exact ⟨_, by simp, h1⟩
    · obtain ⟨a, ha, hr⟩ := ih b hb
      exact ⟨a, by simp [ha], hr⟩

theorem geom_inBox : ∀ {axs : List (Axis K)} {ds : List Dir} {y : List Int}, List.Forall₂ GeomDir axs ds →
    InBlock (ds.map Dir.geomGstart) (ds.map Dir.geomGwidth) y → InBox (axs.map fun ax => ax.m - ax.p) y
  | _, _, _, .nil, hy => by cases hy; exact .nil
  | _, _, _, .cons h1 h2, hy => by
    rw [List.map_cons, List.map_cons] at hy
    cases hy with
    | cons a b =>
      have := h1.lo; have := h1.hi
      exact .cons ⟨by omega, by dsimp only; omega⟩ (geom_inBox h2 b)

/-- The set-up provides the grid of control points. -/
theorem io_grid (S : Setup g2 g3 colloc size procs axes axs Ls) (hE : colloc = true → ∀ ax ∈ axs, EndSpans ax) :
    IOGrid (axs.map fun ax => ax.m - ax.p) (ioWorld Ls) := by
  have hlen := S.ranks.1
  have hne := S.nonempty
  obtain ⟨L, hL⟩ : ∃ L, Ls[0]? = some L := ⟨Ls[0]'(by omega), by simp⟩
  obtain ⟨h1, h2, -, -⟩ := S.get hL
  obtain ⟨H, -, -, -⟩ := C28_after_setup_partial g2 g3 colloc size procs axes L _ S.reached h1 (by rw [h2]; exact S.cond)
    (by rw [h2]; exact hE) Ls S.ranks
  rw [h2] at H
  have mem : ∀ g ∈ ioWorld Ls, ∃ (r : Nat) (L : Layout K), Ls[r]? = some L ∧ g = L.dir.map iodir := by
    intro g hg
    unfold ioWorld at hg
    rw [List.mem_map] at hg
    obtain ⟨Lr, hm, rfl⟩ := hg
    obtain ⟨r, hr'⟩ := List.getElem?_of_mem hm
    exact ⟨r, Lr, hr', rfl⟩
  have lget : ∀ r, r < Ls.length → ∃ Lr, Ls[r]? = some Lr := fun r hr' => ⟨Ls[r], by simp [hr']⟩
  have own : ∀ (r : Nat) (L : Layout K), Ls[r]? = some L → ownStart (ioWorld Ls) r = appStart (appWorld Ls) r ∧
      ownWidth (ioWorld Ls) r = appWidth (appWorld Ls) r := by
    intro r L h
    have e1 : (appWorld Ls)[r]? = some (L.dir.map adir) := by
      unfold appWorld; rw [List.getElem?_map, h]; rfl
    rw [(own_get (ioWorld_get h)).1, (own_get (ioWorld_get h)).2.1, (app_get e1).1, (app_get e1).2, List.map_map, List.map_map,
      List.map_map, List.map_map]
    exact ⟨rfl, rfl⟩
  have alen : (appWorld Ls).length = Ls.length := by simp [appWorld]
  refine ⟨⟨?_, ?_, ?_⟩, ?_, ?_, ?_, ?_, ?_⟩
  · intro g hg
    obtain ⟨r, L, e, rfl⟩ := mem g hg
    have := H.sizes (L.dir.map adir) (by unfold appWorld; exact List.mem_map.2 ⟨L, List.mem_of_getElem? e, rfl⟩)
    rw [← this]
    unfold sizes
    rw [List.map_map, List.map_map]; rfl
  · intro r hr
    rw [ioWorld_length] at hr
    obtain ⟨L, e⟩ := lget r hr
    rw [(own r L e).1, (own r L e).2]
    exact H.part.inside r (by omega)
  · intro x hx
    obtain ⟨r, ⟨hr, hb⟩, hu⟩ := H.part.owner x hx
    rw [alen] at hr hu
    obtain ⟨L, e⟩ := lget r hr
    refine ⟨r, ⟨by rw [ioWorld_length]; exact hr, by rw [(own r L e).1, (own r L e).2]; exact hb⟩, ?_⟩
    intro r' hr' hb'
    rw [ioWorld_length] at hr'
    obtain ⟨L', e'⟩ := lget r' hr'
    rw [(own r' L' e').1, (own r' L' e').2] at hb'
    exact hu r' hr' hb'
  · intro r y hr hy
    rw [ioWorld_length] at hr
    obtain ⟨L, e⟩ := lget r hr
    rw [(ioWorld_gho e).1, (ioWorld_gho e).2] at hy
    exact geom_inBox (setup_geomDir S hE e) hy
  · intro g hg
    obtain ⟨r, L, e, rfl⟩ := mem g hg
    have F := setup_geomDir S hE e
    clear e
    unfold lbox gbox Grid.Sub
    rw [List.map_map, List.map_map, List.forall₂_map_left_iff, List.forall₂_map_right_iff]
    have : ∀ d ∈ L.dir, d.geomGstart ≤ d.geomLstart ∧ 0 ≤ d.geomLwidth ∧ d.geomLstart + d.geomLwidth ≤ d.geomGstart + d.geomGwidth := by
      intro d hd
      obtain ⟨a, -, h⟩ := forall2_mem_right F d hd
      have := h.sub; have := h.pos
      omega
    revert this
    generalize L.dir = ds
    clear F
    induction ds with
    | nil => intro _; exact .nil
    | cons d ds ih =>
      intro this
      refine .cons ?_ (ih fun d' hd' => this d' (by simp [hd']))
      have := this d (by simp)
      simp only [Function.comp_apply, iodir]
      omega
  · intro n hn
    have := H.part.inside 0 (by omega)
    exact (blocks_pos this).2 n hn
  · rw [ioWorld_length]; omega
  · intro r hr w hw
    rw [ioWorld_length] at hr
    obtain ⟨L, e⟩ := lget r hr
    rw [(ioWorld_gho e).2, List.mem_map] at hw
    obtain ⟨d, hd, rfl⟩ := hw
    obtain ⟨a, -, h⟩ := forall2_mem_right (setup_geomDir S hE e) d hd
    have := h.sub; have := h.pos
    omega

end PetIGA.IO
