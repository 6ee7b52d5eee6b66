import Verif.Lemmas.Layout
import Verif.Model.Grid
/-! Property theorems about the ownership of nodes and control points (C20, C21). -/
set_option linter.unusedSectionVars false
namespace PetIGA.Lay
open PetIGA.Ax PetIGA.Part PetIGA.Spec PetIGA.Grid

variable {K : Type} [Field K] [LinearOrder K] [IsStrictOrderedRing K]

theorem elem_tiles (colloc : Bool) {ax : Axis K} {P : Int} (hP : 1 ≤ P) (hN : P ≤ gridSize colloc ax) :
    Tiles P (gridSize colloc ax) (fun r => (dirAt colloc ax P r).elemStart) (fun r => (dirAt colloc ax P r).elemWidth) := by
  have B := C02_distribution_balanced P (gridSize colloc ax) hP (by omega)
  cases colloc
  · exact ⟨B.first, B.next, B.last, B.full hN⟩
  · exact ⟨B.first, B.next, B.last, B.full hN⟩

theorem gal_node_tiles {ax : Axis K} (h : WF ax) {P : Int} (hP : 1 ≤ P) (hN : P ≤ ax.nel)
    (hf : ax.U ax.p < ax.U (ax.p+1)) :
    Tiles P ax.nnp (fun r => (galDir ax P r).nodeLstart) (fun r => (galDir ax P r).nodeLwidth) := by
  have B := C02_distribution_balanced P ax.nel hP (by omega)
  obtain ⟨n1, n2, _⟩ := nnp_bounds h
  constructor
  · dsimp only [galDir]
    rw [B.first, sp_first h.toPreWF (by omega) hf]; ring
  · intro r h0 h1
    obtain ⟨a, b, c, d, e⟩ := bal_range hP hN h0 (r := r) (by omega)
    have := d (by omega)
    have nx := B.next r h0 h1
    dsimp only [galDir]
    rw [if_neg (by omega), if_pos (by omega), nx]
    ring
  · dsimp only [galDir]
    rw [if_pos rfl]; ring
  · intro r h0 h1
    obtain ⟨a, b, c, d, e⟩ := bal_range hP hN h0 h1
    dsimp only [galDir]
    by_cases hr : r = P - 1
    · rw [if_pos hr]
      have := (sp_elem h.toPreWF (i := (dist1D P r ax.nel).2) a (by omega)).2.1
      omega
    · rw [if_neg hr]
      have := d (by omega)
      rw [if_pos (by omega)]
      have := sp_lt h.toPreWF (i := (dist1D P r ax.nel).2) (j := (dist1D P r ax.nel).2 + (dist1D P r ax.nel).1) a (by omega) (by omega)
      omega

theorem gal_geom_tiles {ax : Axis K} (h : WF ax) {P : Int} (hP : 1 ≤ P) (hN : P ≤ ax.nel)
    (hf : ax.U ax.p < ax.U (ax.p+1)) (hl : ax.U (ax.m-ax.p-1) < ax.U (ax.m-ax.p)) :
    Tiles P (ax.m - ax.p) (fun r => (galDir ax P r).geomLstart) (fun r => (galDir ax P r).geomLwidth) := by
  have B := C02_distribution_balanced P ax.nel hP (by omega)
  constructor
  · dsimp only [galDir]
    rw [B.first, sp_first h.toPreWF (by omega) hf]; ring
  · intro r h0 h1
    obtain ⟨a, b, c, d, e⟩ := bal_range hP hN h0 (r := r) (by omega)
    have := d (by omega)
    have nx := B.next r h0 h1
    dsimp only [galDir]
    rw [if_pos (by omega), nx]
    ring
  · have hlast := B.last
    dsimp only [galDir]
    rw [if_neg (by omega), hlast, sp_last h.toPreWF (by omega) hl]; ring
  · intro r h0 h1
    obtain ⟨a, b, c, d, e⟩ := bal_range hP hN h0 h1
    have := h.legal.degree
    dsimp only [galDir]
    by_cases hr : (dist1D P r ax.nel).2 + (dist1D P r ax.nel).1 - 1 < ax.nel - 1
    · rw [if_pos hr]
      have := sp_lt h.toPreWF (i := (dist1D P r ax.nel).2) (j := (dist1D P r ax.nel).2 + (dist1D P r ax.nel).1) a (by omega) (by omega)
      omega
    · rw [if_neg hr]
      have := sp_le h.toPreWF (i := (dist1D P r ax.nel).2) (j := (dist1D P r ax.nel).2 + (dist1D P r ax.nel).1 - 1) a (by omega) (by omega)
      omega

theorem col_node_tiles {ax : Axis K} {P : Int} (hP : 1 ≤ P) (hN : P ≤ ax.nnp) :
    Tiles P ax.nnp (fun r => (colDir ax P r).nodeLstart) (fun r => (colDir ax P r).nodeLwidth) := by
  have B := C02_distribution_balanced P ax.nnp hP (by omega)
  exact ⟨B.first, B.next, B.last, B.full hN⟩

theorem col_geom_tiles {ax : Axis K} (h : WF ax) {P : Int} (hP : 1 ≤ P) (hN : P ≤ ax.nnp) :
    Tiles P (ax.m - ax.p) (fun r => (colDir ax P r).geomLstart) (fun r => (colDir ax P r).geomLwidth) := by
  have B := C02_distribution_balanced P ax.nnp hP (by omega)
  obtain ⟨s1, s2, s3⟩ := shift_bounds h
  have hf := B.first
  have hl := B.last
  constructor
  · dsimp only [colDir]
    rw [if_pos rfl, B.first]; ring
  · intro r h0 h1
    have nx := B.next r h0 h1
    dsimp only [colDir]
    rw [if_neg (by omega : ¬ r + 1 = 0), if_neg (by omega : ¬ r = P - 1), nx]
    split_ifs <;> ring
  · dsimp only [colDir]
    rw [if_pos rfl]
    ring
  · intro r h0 h1
    obtain ⟨a, b, c, d, e⟩ := bal_range hP hN h0 h1
    dsimp only [colDir]
    split_ifs <;> omega

theorem node_tiles (colloc : Bool) {ax : Axis K} (h : WF ax) {P : Int} (hP : 1 ≤ P) (hN : P ≤ gridSize colloc ax)
    (hf : colloc = false → ax.U ax.p < ax.U (ax.p+1)) :
    Tiles P ax.nnp (fun r => (dirAt colloc ax P r).nodeLstart) (fun r => (dirAt colloc ax P r).nodeLwidth) := by
  cases colloc
  · exact gal_node_tiles h hP hN (hf rfl)
  · exact col_node_tiles hP hN

theorem geom_tiles (colloc : Bool) {ax : Axis K} (h : WF ax) {P : Int} (hP : 1 ≤ P) (hN : P ≤ gridSize colloc ax)
    (hf : colloc = false → ax.U ax.p < ax.U (ax.p+1) ∧ ax.U (ax.m-ax.p-1) < ax.U (ax.m-ax.p)) :
    Tiles P (ax.m - ax.p) (fun r => (dirAt colloc ax P r).geomLstart) (fun r => (dirAt colloc ax P r).geomLwidth) := by
  cases colloc
  · exact gal_geom_tiles h hP hN (hf rfl).1 (hf rfl).2
  · exact col_geom_tiles h hP hN

theorem lift {g2 : Guess2} {g3 : Guess3} {colloc : Bool} {size rank : Int} {procs : List Int}
    {axes : List (Axis K)} {L : Layout K} (hr : ∀ ax ∈ axes, Reached ax)
    (h : stage1 g2 g3 colloc size rank procs axes = .ok L) (st ln : Dir → Int) (sz : Axis K → Int)
    (ht : ∀ ax ∈ L.axes, ∀ P, 1 ≤ P → P ≤ gridSize colloc ax →
      Tiles P (sz ax) (fun r => st (dirAt colloc ax P r)) (fun r => ln (dirAt colloc ax P r))) :
    (∀ r, 0 ≤ r → r < size → ∃ Lr, stage1 g2 g3 colloc size r procs axes = .ok Lr ∧ Lr.axes = L.axes ∧
      Lr.procs = L.procs ∧ Blocks (L.axes.map sz) (Lr.dir.map st) (Lr.dir.map ln)) ∧
    ∀ x, InBox (L.axes.map sz) x →
      ∃ r, (0 ≤ r ∧ r < size ∧ ∃ Lr, stage1 g2 g3 colloc size r procs axes = .ok Lr ∧
            InBlock (Lr.dir.map st) (Lr.dir.map ln) x) ∧
        ∀ r', (0 ≤ r' ∧ r' < size ∧ ∃ Lr, stage1 g2 g3 colloc size r' procs axes = .ok Lr ∧
            InBlock (Lr.dir.map st) (Lr.dir.map ln) x) → r' = r := by
  obtain ⟨hw, hf, hp, hall, huniq⟩ := stage1_all hr h
  constructor
  · intro r h0 h1
    obtain ⟨c, hb, hs⟩ := hall r h0 h1
    refine ⟨_, hs, rfl, rfl, ?_⟩
    dsimp only
    clear hs hall huniq hp h hw
    obtain ⟨axs, Ps, rs, ds⟩ := L
    dsimp only at *
    clear rs ds
    induction axs generalizing Ps c with
    | nil => cases hf; cases hb; exact .nil
    | cons a as ih =>
      cases hf with
      | cons e1 e2 =>
        cases hb with
        | cons f1 f2 =>
          refine .cons ?_ (ih _ _ (fun b hb => ht b (by simp [hb])) e2 f2)
          have := tiles_range (ht a (by simp) _ e1.1 e1.2) f1.1 f1.2
          exact this
  · intro x hx
    obtain ⟨c, ⟨hb, hbl⟩, hu⟩ := box_owner colloc st ln sz hf ht hx
    obtain ⟨r, ⟨h0, h1, hs⟩, hur⟩ := huniq c hb
    refine ⟨r, ⟨h0, h1, _, hs, hbl⟩, ?_⟩
    rintro r' ⟨h0', h1', Lr, hs', hbl'⟩
    obtain ⟨c', hb', hs''⟩ := hall r' h0' h1'
    rw [hs''] at hs'
    simp only [Res.ok.injEq] at hs'
    subst hs'
    have := hu c' hb' hbl'
    subst this
    exact hur r' h0' h1' ⟨_, hs''⟩

/-- **C20** for the nodes, provided the first knot interval of the domain is not empty (needed in the Galerkin
case only; see `C20_first_interval_refuted`).  On every process the setup succeeds, the owned block is non-empty
and inside the node grid, and every node of the grid is owned by exactly one process. -/
theorem C20_owned_nodes_partition_partial (g2 : Guess2) (g3 : Guess3) (colloc : Bool) (size rank : Int)
    (procs : List Int) (axes : List (Axis K)) (L : Layout K) (hr : ∀ ax ∈ axes, Reached ax)
    (h : stage1 g2 g3 colloc size rank procs axes = .ok L)
    (hfirst : colloc = false → ∀ ax ∈ L.axes, ax.U ax.p < ax.U (ax.p+1)) :
    (∀ r, 0 ≤ r → r < size → ∃ Lr, stage1 g2 g3 colloc size r procs axes = .ok Lr ∧ Lr.axes = L.axes ∧
      Lr.procs = L.procs ∧ Blocks (L.axes.map Axis.nnp) (Lr.dir.map Dir.nodeLstart) (Lr.dir.map Dir.nodeLwidth)) ∧
    ∀ x, InBox (L.axes.map Axis.nnp) x →
      ∃ r, (0 ≤ r ∧ r < size ∧ ∃ Lr, stage1 g2 g3 colloc size r procs axes = .ok Lr ∧
            InBlock (Lr.dir.map Dir.nodeLstart) (Lr.dir.map Dir.nodeLwidth) x) ∧
        ∀ r', (0 ≤ r' ∧ r' < size ∧ ∃ Lr, stage1 g2 g3 colloc size r' procs axes = .ok Lr ∧
            InBlock (Lr.dir.map Dir.nodeLstart) (Lr.dir.map Dir.nodeLwidth) x) → r' = r := by
  have hw := (stage1_all hr h).1
  exact lift hr h Dir.nodeLstart Dir.nodeLwidth Axis.nnp
    (fun ax ha P hP hN => node_tiles colloc (hw ax ha) hP hN (fun e => hfirst e ax ha))

/-- **C20** for the control points of the geometry: the same with the control-point grid (`m - p` points in a
direction with knots `U 0 … U m`), provided the first and last knot intervals of the domain are not empty. -/
theorem C20_owned_geometry_partition_partial (g2 : Guess2) (g3 : Guess3) (colloc : Bool) (size rank : Int)
    (procs : List Int) (axes : List (Axis K)) (L : Layout K) (hr : ∀ ax ∈ axes, Reached ax)
    (h : stage1 g2 g3 colloc size rank procs axes = .ok L)
    (hends : colloc = false → ∀ ax ∈ L.axes, ax.U ax.p < ax.U (ax.p+1) ∧ ax.U (ax.m-ax.p-1) < ax.U (ax.m-ax.p)) :
    (∀ r, 0 ≤ r → r < size → ∃ Lr, stage1 g2 g3 colloc size r procs axes = .ok Lr ∧ Lr.axes = L.axes ∧
      Lr.procs = L.procs ∧
      Blocks (L.axes.map fun ax => ax.m - ax.p) (Lr.dir.map Dir.geomLstart) (Lr.dir.map Dir.geomLwidth)) ∧
    ∀ x, InBox (L.axes.map fun ax => ax.m - ax.p) x →
      ∃ r, (0 ≤ r ∧ r < size ∧ ∃ Lr, stage1 g2 g3 colloc size r procs axes = .ok Lr ∧
            InBlock (Lr.dir.map Dir.geomLstart) (Lr.dir.map Dir.geomLwidth) x) ∧
        ∀ r', (0 ≤ r' ∧ r' < size ∧ ∃ Lr, stage1 g2 g3 colloc size r' procs axes = .ok Lr ∧
            InBlock (Lr.dir.map Dir.geomLstart) (Lr.dir.map Dir.geomLwidth) x) → r' = r := by
  have hw := (stage1_all hr h).1
  exact lift hr h Dir.geomLstart Dir.geomLwidth _
    (fun ax ha P hP hN => geom_tiles colloc (hw ax ha) hP hN (fun e => hends e ax ha))

/-- The hypotheses on the end intervals hold for every clamped knot vector, in particular for everything built by
`IGAAxisInitBreaks` and `IGAAxisInitUniform` on a non-periodic axis. -/
theorem C20_clamped_ends (p m : Int) (U : Int → K) (h : LegalKnots p m U) :
    (U 1 = U p → U p < U (p+1)) ∧ (U (m-p) = U (m-1) → U (m-p-1) < U (m-p)) := by
  have := h.degree; have := h.enough
  constructor
  · intro e
    have := h.mult 1 (by omega) (by omega)
    rw [add_comm 1 p] at this
    rw [← e]; exact this
  · intro e
    have := h.mult (m-p-1) (by omega) (by omega)
    rw [show m - p - 1 + p = m - 1 by ring, ← e] at this
    exact this

/-- The part of a layout that can be compared. -/
def summary : Res (Layout K) → Res (List Dir × List (Int × Int × Int))
  | .ok L => .ok (L.dir, L.axes.map fun ax => (ax.p, ax.m, ax.nnp))
  | .err e => .err e
  | .ub => .ub

theorem summary_ok {x : Res (Layout K)} {d : List Dir} {a : List (Int × Int × Int)} (h : summary x = .ok (d, a)) :
    ∃ L, x = .ok L ∧ L.dir = d ∧ L.axes.map (fun ax => (ax.p, ax.m, ax.nnp)) = a := by
  cases x with
  | ok L => simp only [summary, Res.ok.injEq, Prod.mk.injEq] at h; exact ⟨L, rfl, h⟩
  | err e => simp [summary] at h
  | ub => simp [summary] at h

/-- A user-supplied knot vector of degree 2, `0 0 1 1 2 3 3 3`. -/
def exFirst (i : Int) : Rat := if i ≤ 1 then 0 else if i ≤ 3 then 1 else if i ≤ 4 then 2 else 3

/-- The axis obtained from it. -/
def exFirstAx : Axis Rat := (Ax.step (Ax.step (Ax.create fun _ => 0) (.setDegree 2)).2 (.setKnots 7 exFirst)).2

theorem exFirstAx_reached : Reached exFirstAx :=
  .step _ _ (.step _ _ (.create _) (by decide +kernel)) (by decide +kernel)

/-- **C20 fails** as stated: a knot vector accepted by `IGAAxisSetKnots` whose first domain interval is empty is
accepted by the setup, on one process, and leaves node 0 owned by no process. -/
theorem C20_first_interval_refuted :
    ∃ (ax : Axis Rat), Reached ax ∧ ∀ (g2 : Guess2) (g3 : Guess3),
      (∃ L, stage1 g2 g3 false 1 0 [-1] [ax] = .ok L ∧ InBox (L.axes.map Axis.nnp) [0]) ∧
      ∀ r Lr, 0 ≤ r → r < 1 → stage1 g2 g3 false 1 r [-1] [ax] = .ok Lr →
        ¬ InBlock (Lr.dir.map Dir.nodeLstart) (Lr.dir.map Dir.nodeLwidth) [0] := by
  refine ⟨exFirstAx, exFirstAx_reached, ?_⟩
  intro g2 g3
  have e : ∃ ax', stage1 g2 g3 false 1 0 [-1] [exFirstAx] = .ok ⟨[ax'], [1], [0],
      [⟨2, 0, 2, 5, 1, 4, 1, 4, 0, 5, 1, 4, 1, 4⟩]⟩ ∧ ax'.nnp = 5 := by
    exact ⟨(Ax.setUp exFirstAx).2, rfl, by decide +kernel⟩
  obtain ⟨ax', e1, e2⟩ := e
  refine ⟨⟨_, e1, ?_⟩, ?_⟩
  · simp only [List.map_cons, List.map_nil, e2]; exact .cons (by decide) .nil
  · intro r Lr h0 h1 hs
    obtain rfl : r = 0 := by omega
    rw [e1] at hs
    simp only [Res.ok.injEq] at hs
    subst hs
    intro hb
    cases hb with
    | cons a _ => simp at a

/-- A concrete two-dimensional case on four processes that meets the hypotheses of C20 and C21: degree 2 with six
periodic elements, times degree 1 with two elements. -/
def exAx0 : Axis Rat := (Ax.step (Ax.step (Ax.step (Ax.create fun _ => 0) (.setPeriodic true)).2 (.setDegree 2)).2
  (.initUniform (fun _ => 0) 6 0 1 1)).2
/-- See `exAx0`. -/
def exAx1 : Axis Rat := (Ax.step (Ax.step (Ax.create fun _ => 0) (.setDegree 1)).2
  (.initUniform (fun _ => 0) 2 0 1 0)).2

theorem exAx_reached : ∀ ax ∈ [exAx0, exAx1], Reached ax := by
  intro ax h
  simp only [List.mem_cons, List.not_mem_nil, or_false] at h
  rcases h with rfl | rfl
  · exact .step _ _ (.step _ _ (.step _ _ (.create _) (by decide +kernel)) (by decide +kernel)) (by decide +kernel)
  · exact .step _ _ (.step _ _ (.create _) (by decide +kernel)) (by decide +kernel)

example (g2 : Guess2) (g3 : Guess3) : ∃ L, stage1 g2 g3 false 4 3 [2,2] [exAx0, exAx1] = .ok L ∧
    L.dir.map Dir.nodeLstart = [3, 1] ∧ L.dir.map Dir.nodeLwidth = [3, 2] ∧
    ∀ ax ∈ L.axes, ax.U ax.p < ax.U (ax.p+1) ∧ ax.U (ax.m-ax.p-1) < ax.U (ax.m-ax.p) := by
  refine ⟨⟨[(Ax.setUp exAx0).2, (Ax.setUp exAx1).2], [2,2], [1,1], _⟩, rfl, by decide +kernel, by decide +kernel, ?_⟩
  intro ax h
  simp only [List.mem_cons, List.not_mem_nil, or_false] at h
  rcases h with rfl | rfl <;> decide +kernel

/-! ### C21 -/

theorem gal_next_le {ax : Axis K} (h : PreWF ax) {e : Int} (h0 : 0 ≤ e) (h1 : e + 1 < ax.nel) :
    sp ax (e+1) ≤ sp ax e + ax.p := by
  have hp := h.legal.degree
  obtain ⟨a1, a2, a3⟩ := sp_elem h (i := e) h0 (by omega)
  obtain ⟨b1, b2, b3⟩ := sp_elem h (i := e+1) (by omega) h1
  by_contra hc
  -- some interval strictly between the two spans would be non-empty
  have key : ∀ d : Nat, sp ax e + 1 + d < sp ax (e+1) + 1 → ax.U (sp ax e + 1 + d) = ax.U (sp ax e + 1) := by
    intro d
    induction d with
    | zero => intro _; simp
    | succ d ih =>
      intro hd
      push_cast at hd ⊢
      rw [← ih (by omega), ← add_assoc]
      by_contra hne
      have hs := h.legal.sorted (sp ax e + 1 + d) (by omega) (by omega)
      have hlt : ax.U (sp ax e + 1 + d) < ax.U (sp ax e + 1 + d + 1) := lt_of_le_of_ne hs (Ne.symm hne)
      obtain ⟨i, i0, i1, i2⟩ := mem_sp h (k := sp ax e + 1 + d) ⟨by omega, by omega, hlt⟩
      rcases lt_trichotomy i e with hh | hh | hh
      · have := sp_lt h i0 hh (by omega); omega
      · subst hh; omega
      · have := sp_le h (i := e+1) (j := i) (by omega) (by omega) i1; omega
  have k := key ax.p.toNat (by omega)
  have := h.legal.mult (sp ax e + 1) (by omega) (by omega)
  rw [show sp ax e + 1 + (ax.p.toNat : Int) = sp ax e + 1 + ax.p by omega] at k
  linarith

theorem wrap_mod {N i : Int} (hN : 1 ≤ N) (hi : -N ≤ i) : 0 ≤ wrap N i ∧ wrap N i < N ∧ (wrap N i - i) % N = 0 := by
  unfold wrap
  split_ifs with h1 h2
  · refine ⟨by omega, by omega, ?_⟩
    rw [show N + i - i = N by ring]; exact Int.emod_self
  · rw [Int.tmod_eq_emod_of_nonneg (by omega)]
    refine ⟨Int.emod_nonneg _ (by omega), Int.emod_lt_of_pos _ (by omega), ?_⟩
    have := Int.mul_ediv_add_emod i N
    rw [show i % N - i = N * (- (i / N)) by linarith]
    exact Int.mul_emod_right _ _
  · refine ⟨by omega, by omega, by simp⟩

/-- What C21 asks of one direction. -/
structure GhostOK (colloc : Bool) (ax : Axis K) (d : Dir) : Prop where
  /-- every owned element (collocation point) has a span `k`, and its `p+1` basis functions `k-p,…,k`
  (shifted in the collocation case) are ghosted nodes -/
  closure : ∀ e, d.elemStart ≤ e → e < d.elemStart + d.elemWidth →
    ∃ k, (if colloc then grevSpan ax (e + d.nodeShift) else spanAt ax e) = .ok k ∧
      ∀ a, k - ax.p ≤ a → a ≤ k →
        d.nodeGstart ≤ a - d.nodeShift ∧ a - d.nodeShift < d.nodeGstart + d.nodeGwidth
  /-- the control points of these basis functions are ghosted control points -/
  geometry : ∀ e, d.elemStart ≤ e → e < d.elemStart + d.elemWidth →
    ∃ k, (if colloc then grevSpan ax (e + d.nodeShift) else spanAt ax e) = .ok k ∧
      ∀ a, k - ax.p ≤ a → a ≤ k → 
        d.geomGstart ≤ a ∧ a < d.geomGstart + d.geomGwidth
  /-- owned nodes are ghosted -/
  owned : d.nodeGstart ≤ d.nodeLstart ∧ d.nodeLstart + d.nodeLwidth ≤ d.nodeGstart + d.nodeGwidth
  /-- ghosted control points exist -/
  geomRange : 0 ≤ d.geomGstart ∧ d.geomGstart + d.geomGwidth ≤ ax.m - ax.p
  /-- every ghosted index wraps to an existing node with the same index modulo the number of nodes -/
  wrapped : ∀ i, d.nodeGstart ≤ i → i < d.nodeGstart + d.nodeGwidth →
    0 ≤ wrap ax.nnp i ∧ wrap ax.nnp i < ax.nnp ∧ (wrap ax.nnp i - i) % ax.nnp = 0
  /-- without periodicity nothing wraps -/
  noWrap : ax.periodic = false → ∀ i, d.nodeGstart ≤ i → i < d.nodeGstart + d.nodeGwidth → wrap ax.nnp i = i

theorem gal_ghost {ax : Axis K} (h : WF ax) {P r : Int} (hP : 1 ≤ P) (hN : P ≤ ax.nel) (h0 : 0 ≤ r) (h1 : r < P)
    (hl : ax.U (ax.m-ax.p-1) < ax.U (ax.m-ax.p)) : GhostOK false ax (galDir ax P r) := by
  obtain ⟨a, b, c, d, e⟩ := bal_range hP hN h0 h1
  have hp := h.legal.degree
  have hm := h.legal.enough
  obtain ⟨n1, n2, n3, _⟩ := nnp_bounds h
  have hlast := sp_last h.toPreWF (by omega) hl
  have hmono := fun i j h0 hij h1 => sp_le h.toPreWF (i := i) (j := j) h0 hij h1
  obtain ⟨e1, e2, e3⟩ := sp_elem h.toPreWF (i := (dist1D P r ax.nel).2) a (by omega)
  obtain ⟨f1, f2, f3⟩ := sp_elem h.toPreWF (i := (dist1D P r ax.nel).2 + (dist1D P r ax.nel).1 - 1) (by omega) (by omega)
  have m1 := hmono (dist1D P r ax.nel).2 ((dist1D P r ax.nel).2 + (dist1D P r ax.nel).1 - 1) (by omega) (by omega) (by omega)
  constructor
  · intro x hx hx'
    dsimp only [galDir] at hx hx' ⊢
    refine ⟨sp ax x, ?_, ?_⟩
    · rw [if_neg (by simp)]; exact spanAt_ok h.toPreWF (by omega) (by omega)
    · intro i hi hi'
      have b1 := hmono (dist1D P r ax.nel).2 x (by omega) (by omega) (by omega)
      have b2 := hmono x ((dist1D P r ax.nel).2 + (dist1D P r ax.nel).1 - 1) (by omega) (by omega) (by omega)
      omega
  · intro x hx hx'
    dsimp only [galDir] at hx hx' ⊢
    refine ⟨sp ax x, ?_, ?_⟩
    · rw [if_neg (by simp)]; exact spanAt_ok h.toPreWF (by omega) (by omega)
    · intro i hi hi'
      have b1 := hmono (dist1D P r ax.nel).2 x (by omega) (by omega) (by omega)
      have b2 := hmono x ((dist1D P r ax.nel).2 + (dist1D P r ax.nel).1 - 1) (by omega) (by omega) (by omega)
      omega
  · dsimp only [galDir]
    refine ⟨le_refl _, ?_⟩
    by_cases hr : r = P - 1
    · rw [if_pos hr]
      have := e hr
      rw [this, hlast]
      omega
    · rw [if_neg hr, if_pos (by have := d (by omega); omega)]
      have := gal_next_le h.toPreWF (e := (dist1D P r ax.nel).2 + (dist1D P r ax.nel).1 - 1) (by omega) (by have := d (by omega); omega)
      rw [show (dist1D P r ax.nel).2 + (dist1D P r ax.nel).1 - 1 + 1 = (dist1D P r ax.nel).2 + (dist1D P r ax.nel).1 by ring] at this
      omega
  · dsimp only [galDir]; omega
  · intro i hi hi'
    dsimp only [galDir] at hi hi'
    exact wrap_mod (by omega) (by omega)
  · intro hper i hi hi'
    dsimp only [galDir] at hi hi'
    have := n3 hper
    unfold wrap
    rw [if_neg (by omega), if_neg (by omega)]

theorem col_ghost {ax : Axis K} (h : WF ax) {P r : Int} (hP : 1 ≤ P) (hN : P ≤ ax.nnp) (h0 : 0 ≤ r) (h1 : r < P)
    (hsh : (ax.m - ax.p - ax.nnp) / 2 ≤ ax.nnp) : GhostOK true ax (colDir ax P r) := by
  obtain ⟨a, b, c, d, e⟩ := bal_range hP hN h0 h1
  have hp := h.legal.degree
  have hm := h.legal.enough
  obtain ⟨n1, n2, n3, _⟩ := nnp_bounds h
  obtain ⟨s1, s2, s3⟩ := shift_bounds h
  obtain ⟨G1, G2⟩ := gsp_spec h.toPreWF
  have G := fun x (hx : 0 ≤ x + Int.tdiv (ax.m - ax.p - 1 + 1 - ax.nnp) 2)
    (hx' : x + Int.tdiv (ax.m - ax.p - 1 + 1 - ax.nnp) 2 ≤ ax.m - ax.p - 1) => G1 _ hx hx'
  have Gm := fun x y (hx : 0 ≤ x + Int.tdiv (ax.m - ax.p - 1 + 1 - ax.nnp) 2) (hxy : x ≤ y)
    (hy : y + Int.tdiv (ax.m - ax.p - 1 + 1 - ax.nnp) 2 ≤ ax.m - ax.p - 1) => G2 _ (y + Int.tdiv (ax.m - ax.p - 1 + 1 - ax.nnp) 2) hx (by omega) hy
  have cl : ∀ x, (colDir ax P r).elemStart ≤ x → x < (colDir ax P r).elemStart + (colDir ax P r).elemWidth →
      grevSpan ax (x + (colDir ax P r).nodeShift) = .ok (gsp ax (x + (colDir ax P r).nodeShift)) ∧
      ax.p ≤ gsp ax (x + (colDir ax P r).nodeShift) ∧ gsp ax (x + (colDir ax P r).nodeShift) ≤ ax.m - ax.p - 1 ∧
      ∀ a, gsp ax (x + (colDir ax P r).nodeShift) - ax.p ≤ a → a ≤ gsp ax (x + (colDir ax P r).nodeShift) →
        (colDir ax P r).nodeGstart ≤ a - (colDir ax P r).nodeShift ∧
        a - (colDir ax P r).nodeShift < (colDir ax P r).nodeGstart + (colDir ax P r).nodeGwidth := by
    intro x hx hx'
    dsimp only [colDir] at hx hx' ⊢
    obtain ⟨g1, g2, g3, g4, g5⟩ := G x (by omega) (by omega)
    refine ⟨g1, g2, g3, ?_⟩
    intro i hi hi'
    have m1 := Gm (dist1D P r ax.nnp).2 x (by omega) (by omega) (by omega)
    have m2 := Gm x ((dist1D P r ax.nnp).2 + (dist1D P r ax.nnp).1 - 1) (by omega) (by omega) (by omega)
    omega
  have A := G (dist1D P r ax.nnp).2 (by omega) (by omega)
  have B := G ((dist1D P r ax.nnp).2 + (dist1D P r ax.nnp).1 - 1) (by omega) (by omega)
  obtain ⟨_, A1, A2, A3, A4⟩ := A
  obtain ⟨_, B1, B2, B3, B4⟩ := B
  have M := Gm (dist1D P r ax.nnp).2 ((dist1D P r ax.nnp).2 + (dist1D P r ax.nnp).1 - 1) (by omega) (by omega) (by omega)
  constructor
  · intro x hx hx'
    obtain ⟨k1, _, _, k2⟩ := cl x hx hx'
    exact ⟨_, by rw [if_pos rfl]; exact k1, k2⟩
  · intro x hx hx'
    obtain ⟨k1, k3, k4, k2⟩ := cl x hx hx'
    refine ⟨_, by rw [if_pos rfl]; exact k1, ?_⟩
    intro i hi hi'
    have := k2 i hi hi'
    dsimp only [colDir] at *
    split_ifs <;> omega
  · dsimp only [colDir]
    omega
  · dsimp only [colDir]
    split_ifs <;> omega
  · intro i hi hi'
    dsimp only [colDir] at hi hi'
    apply wrap_mod (by omega)
    have : Int.tdiv (ax.m - ax.p - 1 + 1 - ax.nnp) 2 = (ax.m - ax.p - ax.nnp) / 2 := by
      rw [Int.tdiv_eq_ediv_of_nonneg (by omega)]; congr 1; ring
    omega
  · intro hper i hi hi'
    dsimp only [colDir] at hi hi'
    have := n3 hper
    unfold wrap
    rw [if_neg (by omega), if_neg (by omega)]

theorem mkDirs_get (colloc : Bool) : ∀ {axes : List (Axis K)} {Ps cs : List Int},
    Fits (axes.map (gridSize colloc)) Ps → InBox Ps cs → ∀ (i : Nat) ax d, axes[i]? = some ax →
    (mkDirs colloc axes Ps cs)[i]? = some d →
    ∃ P r, 1 ≤ P ∧ P ≤ gridSize colloc ax ∧ 0 ≤ r ∧ r < P ∧ d = dirAt colloc ax P r := by
  intro axes
  induction axes with
  | nil => intro Ps cs hf hb i ax d h; simp at h
  | cons a as ih =>
    intro Ps cs hf hb i ax d h h'
    cases hf with
    | cons h1 h2 =>
      cases hb with
      | cons h3 h4 =>
        cases i with
        | zero =>
          simp only [mkDirs, List.getElem?_cons_zero, Option.some.injEq] at h h'
          subst h; subst h'
          exact ⟨_, _, h1.1, h1.2, h3.1, h3.2, rfl⟩
        | succ i =>
          simp only [mkDirs, List.getElem?_cons_succ] at h h'
          exact ih h2 h4 i ax d h h'

theorem stage1_range {g2 : Guess2} {g3 : Guess3} {colloc : Bool} {size rank : Int} {procs : List Int}
    {axes : List (Axis K)} {L : Layout K} (h : stage1 g2 g3 colloc size rank procs axes = .ok L) :
    0 ≤ rank ∧ rank < size := by
  unfold stage1 at h
  simp only [Res.bind_eq_ok] at h
  obtain ⟨axes', ha, pr, hp, _⟩ := h
  have := partition_ok (n' := pr.1) (i := pr.2) hp
  omega

/-- A direction of a layout is the one computed from its axis for some process coordinate. -/
theorem stage1_get {g2 : Guess2} {g3 : Guess3} {colloc : Bool} {size rank : Int} {procs : List Int}
    {axes : List (Axis K)} {L : Layout K} (hr : ∀ ax ∈ axes, Reached ax)
    (h : stage1 g2 g3 colloc size rank procs axes = .ok L) (i : Nat) (ax : Axis K) (d : Dir)
    (h1 : L.axes[i]? = some ax) (h2 : L.dir[i]? = some d) :
    WF ax ∧ ∃ P r, 1 ≤ P ∧ P ≤ gridSize colloc ax ∧ 0 ≤ r ∧ r < P ∧ d = dirAt colloc ax P r := by
  obtain ⟨hw, hf, hp, hall, -⟩ := stage1_all hr h
  obtain ⟨r0, r1⟩ := stage1_range h
  obtain ⟨c, hb, hs⟩ := hall rank r0 r1
  rw [h] at hs
  simp only [Res.ok.injEq] at hs
  rw [hs] at h2
  exact ⟨hw ax (List.mem_of_getElem? h1), mkDirs_get colloc hf hb i ax d h1 h2⟩

/-- **C21**, provided (Galerkin) the last knot interval of the domain is not empty or (collocation) the periodic
shift does not exceed the number of nodes; both hold for non-periodic clamped axes.  See
`C21_collocation_wrap_refuted` for what happens otherwise. -/
theorem C21_ghosts_cover_closures_partial (g2 : Guess2) (g3 : Guess3) (colloc : Bool) (size rank : Int)
    (procs : List Int) (axes : List (Axis K)) (L : Layout K) (hr : ∀ ax ∈ axes, Reached ax)
    (h : stage1 g2 g3 colloc size rank procs axes = .ok L) (i : Nat) (ax : Axis K) (d : Dir)
    (h1 : L.axes[i]? = some ax) (h2 : L.dir[i]? = some d)
    (hg : colloc = false → ax.U (ax.m-ax.p-1) < ax.U (ax.m-ax.p))
    (hc : colloc = true → (ax.m - ax.p - ax.nnp) / 2 ≤ ax.nnp) :
    GhostOK colloc ax d := by
  obtain ⟨hw, P, r, hP, hN, r0, r1, rfl⟩ := stage1_get hr h i ax d h1 h2
  cases colloc
  · exact gal_ghost hw hP hN r0 r1 (hg rfl)
  · exact col_ghost hw hP hN r0 r1 (hc rfl)

example : ∃ L, stage1 exactGuess2 exactGuess3 true 4 3 [2,2] [exAx0, exAx1] = .ok L ∧
    L.dir.map Dir.nodeGstart = [2, 1] ∧ L.dir.map Dir.nodeGwidth = [5, 2] ∧
    ∀ ax ∈ L.axes, (ax.m - ax.p - ax.nnp) / 2 ≤ ax.nnp := by
  obtain ⟨L, e, hd, ha⟩ := summary_ok (x := stage1 exactGuess2 exactGuess3 true 4 3 [2,2] [exAx0, exAx1])
    (d := [⟨6, 3, 3, 8, 4, 4, 3, 5, 1, 6, 3, 3, 2, 5⟩, ⟨3, 2, 1, 3, 2, 1, 1, 2, 0, 3, 2, 1, 1, 2⟩])
    (a := [(2, 10, 6), (1, 4, 3)]) (by decide +kernel)
  refine ⟨L, e, by rw [hd]; rfl, by rw [hd]; rfl, ?_⟩
  intro ax hx
  have := List.mem_map_of_mem (f := fun ax => (ax.p, ax.m, ax.nnp)) hx
  rw [ha] at this
  simp only [List.mem_cons, Prod.mk.injEq, List.not_mem_nil, or_false] at this
  omega

/-- One periodic element of degree 4. -/
def exP4 : Axis Rat := (Ax.step (Ax.step (Ax.step (Ax.create fun _ => 0) (.setPeriodic true)).2 (.setDegree 4)).2
  (.initUniform (fun _ => 0) 1 0 1 3)).2

theorem exP4_reached : Reached exP4 :=
  .step _ _ (.step _ _ (.step _ _ (.create _) (by decide +kernel)) (by decide +kernel)) (by decide +kernel)

/-- **C21 fails** as stated: with collocation on a periodic axis of degree 4 with one element, accepted by every
call, the only process has ghosted indices that wrap to a negative node number. -/
theorem C21_collocation_wrap_refuted :
    ∃ ax : Axis Rat, Reached ax ∧ ∃ L d,
      stage1 exactGuess2 exactGuess3 true 1 0 [-1] [ax] = .ok L ∧ L.axes.map Axis.nnp = [1] ∧ L.dir = [d] ∧
      ∃ i, d.nodeGstart ≤ i ∧ i < d.nodeGstart + d.nodeGwidth ∧ wrap 1 i < 0 := by
  refine ⟨exP4, exP4_reached, ?_⟩
  obtain ⟨L, e, hd, ha⟩ := summary_ok (x := stage1 exactGuess2 exactGuess3 true 1 0 [-1] [exP4])
    (d := [⟨1, 0, 1, 5, 0, 5, 0, 5, 2, 1, 0, 1, -2, 5⟩]) (a := [(4, 9, 1)]) (by decide +kernel)
  refine ⟨L, _, e, ?_, hd, -2, by decide⟩
  have := congrArg (List.map fun x => x.2.2) ha
  simpa [List.map_map, Function.comp_def] using this

/-- The axis with knots `0 0 0 1 2 2 3 3`, degree 2: its last domain interval is empty. -/
def exLastAx : Axis Rat := (Ax.step (Ax.step (Ax.create fun _ => 0) (.setDegree 2)).2
  (.setKnots 7 fun i => 3 - exFirst (7-i))).2

theorem exLastAx_reached : Reached exLastAx :=
  .step _ _ (.step _ _ (.create _) (by decide +kernel)) (by decide +kernel)

/-- **C21 fails** as stated: with an empty last domain interval the last node is owned but not ghosted. -/
theorem C21_last_interval_refuted :
    ∃ ax : Axis Rat, Reached ax ∧ ∃ L d,
      stage1 exactGuess2 exactGuess3 false 1 0 [-1] [ax] = .ok L ∧ L.dir = [d] ∧
      ∃ i, d.nodeLstart ≤ i ∧ i < d.nodeLstart + d.nodeLwidth ∧ d.nodeGstart + d.nodeGwidth ≤ i := by
  refine ⟨exLastAx, exLastAx_reached, ?_⟩
  obtain ⟨L, e, hd, ha⟩ := summary_ok (x := stage1 exactGuess2 exactGuess3 false 1 0 [-1] [exLastAx])
    (d := [⟨2, 0, 2, 4, 0, 4, 0, 4, 0, 5, 0, 5, 0, 4⟩]) (a := [(2, 7, 5)]) (by decide +kernel)
  exact ⟨L, _, e, hd, 4, by decide⟩

end PetIGA.Lay
