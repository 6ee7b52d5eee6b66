import Verif.Props.DM
import Verif.Props.ProbeEval
/-! Property theorems about the samples made for drawing (C83). -/
set_option linter.unusedSectionVars false
namespace PetIGA.Dmda
open PetIGA.Spec PetIGA.Part PetIGA.Lay PetIGA.Ax PetIGA.Grid PetIGA.Asm PetIGA.Prb PetIGA.Elem

variable {K V : Type} [Field K] [LinearOrder K] [IsStrictOrderedRing K]

/-! ### Specification -/

/-- Sample `s` of a direction that is drawn with `q` sub-intervals per element: the point that divides element `e` in the
proportion `i : q - i`, where `s = e*q + i`. -/
def IsSample (ax : Axis K) (q s : Int) (u : K) : Prop :=
  ∃ e i k, 0 ≤ e ∧ e < ax.nel ∧ 0 ≤ i ∧ i ≤ q ∧ s = e * q + i ∧ spanOf false ax e = .ok k ∧
    u = ax.U k + (i:K) / (q:K) * (ax.U (k+1) - ax.U k)

/-- The same for all directions. -/
inductive SamplePt : List (Axis K) → List Int → List Int → List K → Prop
  | nil : SamplePt [] [] [] []
  | cons {ax : Axis K} {q s : Int} {u : K} {axs qs ss us} : IsSample ax q s u → SamplePt axs qs ss us →
      SamplePt (ax :: axs) (q :: qs) (s :: ss) (u :: us)

/-! ### The partition of the grid of a `DMDA` -/

theorem tilesAll_owner {Ns Ps : List Int} {fs : List ((Int → Int) × (Int → Int))} (T : TilesAll Ns Ps fs) {x : List Int} (hx : InBox Ns x) :
    ∃ c, (InBox Ps c ∧ x ∈ box (List.zipWith (fun (f : (Int → Int) × (Int → Int)) c => (f.1 c, f.2 c)) fs c)) ∧
      ∀ c', InBox Ps c' → x ∈ box (List.zipWith (fun (f : (Int → Int) × (Int → Int)) c => (f.1 c, f.2 c)) fs c') → c' = c := by
  simp only [mem_box]
  induction T generalizing x with
  | nil =>
    cases hx
    refine ⟨[], ⟨.nil, .nil⟩, ?_⟩
    intro c' h _
    cases h; rfl
  | @cons N P f Ns Ps fs hP h1 h2 ih =>
    cases hx with
    | @cons _ i _ is a b =>
      obtain ⟨c, ⟨c1, c2⟩, c3⟩ := ih b
      obtain ⟨r, ⟨r0, r1, r2, r3⟩, hr⟩ := tiles_owner h1 hP a.1 a.2
      refine ⟨r :: c, ⟨.cons ⟨r0, r1⟩ c1, .cons ⟨r2, r3⟩ c2⟩, ?_⟩
      intro c' h' hb'
      cases h' with
      | @cons _ r' _ rs' p1 p2 =>
        simp only [List.zipWith_cons_cons, List.map_cons] at hb'
        cases hb' with
        | cons q1 q2 =>
          rw [hr r' ⟨p1.1, p1.2, q1.1, q1.2⟩, c3 _ p2 q2]

/-! ### The `DMDA` for drawing -/

/-- First sample of a process in a direction. -/
def drawStart (colloc : Bool) (d : Dir) (q : Int) : Int := if colloc then d.nodeLstart else d.elemStart * q

/-- The pairs of functions for the directions. -/
def drawFs (colloc : Bool) : List (Axis K) → List Int → List Int → List ((Int → Int) × (Int → Int))
  | ax :: axs, P :: Ps, q :: qs => (fun r => drawStart colloc (dirAt colloc ax P r) q,
      fun r => drawWidth colloc (dirAt colloc ax P r) P r q) :: drawFs colloc axs Ps qs
  | _, _, _ => []

/-- Number of samples of a direction. -/
def drawN (colloc : Bool) (ax : Axis K) (q : Int) : Int := if colloc then ax.nnp else ax.nel * q + 1

theorem draw_tiles (colloc : Bool) {ax : Axis K} (h : WF ax) (hc : Condition colloc ax) {P q : Int} (hP : 1 ≤ P) (hN : P ≤ gridSize colloc ax) (hq : 1 ≤ q) :
    Tiles P (drawN colloc ax q) (fun r => drawStart colloc (dirAt colloc ax P r) q) (fun r => drawWidth colloc (dirAt colloc ax P r) P r q) := by
  cases colloc
  · have T := elem_tiles false (ax := ax) hP hN
    have hg : gridSize false ax = ax.nel := rfl
    rw [hg] at T
    obtain ⟨a, b, c, d⟩ := T
    refine ⟨?_, ?_, ?_, ?_⟩
    · simp [drawStart, a]
    · intro r h0 h1
      simp only [drawStart, drawWidth, Bool.false_eq_true, if_false]
      rw [b r h0 h1, if_neg (by omega)]; ring
    · simp only [drawStart, drawWidth, drawN, Bool.false_eq_true, if_false, if_true]
      rw [← c]; ring
    · intro r h0 h1
      simp only [drawWidth, Bool.false_eq_true, if_false]
      have := d r h0 h1
      split_ifs <;> nlinarith
  · exact node_tiles true h hP hN (by simp)

/-- Every resolution is at least one. -/
def Res1 (axs : List (Axis K)) (qs : List Int) : Prop := List.Forall₂ (fun _ q => 1 ≤ q) axs qs

variable {g2 : Guess2} {g3 : Guess3} {colloc : Bool} {size : Int} {procs : List Int} {axes axs : List (Axis K)}
  {Ls : List (Layout K)}

theorem drawFs_all (colloc : Bool) {axs : List (Axis K)} {Ps qs : List Int} (hf : Fits (axs.map (gridSize colloc)) Ps)
    (hq : Res1 axs qs) (hw : ∀ ax ∈ axs, WF ax) (hc : ∀ ax ∈ axs, Condition colloc ax) :
    TilesAll (List.zipWith (drawN colloc) axs qs) Ps (drawFs colloc axs Ps qs) ∧
    ∀ c, InBox Ps c →
      List.zipWith (fun (f : (Int → Int) × (Int → Int)) c => f.2 c) (drawFs colloc axs Ps qs) c = drawWidths colloc qs (⟨axs, Ps, c, mkDirs colloc axs Ps c⟩ : Layout K) ∧
      List.zipWith (fun (f : (Int → Int) × (Int → Int)) c => (f.1 c, f.2 c)) (drawFs colloc axs Ps qs) c =
        List.zip (List.zipWith (drawStart colloc) (mkDirs colloc axs Ps c) qs) (drawWidths colloc qs (⟨axs, Ps, c, mkDirs colloc axs Ps c⟩ : Layout K)) ∧
      List.zipWith (drawSize colloc) (mkDirs colloc axs Ps c) qs = List.zipWith (drawN colloc) axs qs ∧
      (mkDirs colloc axs Ps c).length = Ps.length := by
  unfold Res1 at hq
  unfold drawWidths
  dsimp only
  induction axs generalizing Ps qs with
  | nil =>
    cases hf; cases hq
    refine ⟨.nil, ?_⟩
    intro c hc'
    cases hc'
    exact ⟨rfl, rfl, rfl, rfl⟩
  | cons ax axs ih =>
    rw [List.map_cons] at hf
    cases hf with
    | cons a1 a2 => cases hq with
      | cons b1 b2 =>
        obtain ⟨i1, i2⟩ := ih a2 b2 (fun a ha => hw a (by simp [ha])) fun a ha => hc a (by simp [ha])
        refine ⟨.cons a1.1 (draw_tiles colloc (hw ax (by simp)) (hc ax (by simp)) a1.1 a1.2 b1) i1, ?_⟩
        intro c hc'
        cases hc' with
        | cons d1 d2 =>
          obtain ⟨j1, j2, j3, j4⟩ := i2 _ d2
          refine ⟨?_, ?_, ?_, by simp [mkDirs, j4]⟩
          · simp only [drawFs, mkDirs, List.zipWith_cons_cons, List.zip_cons_cons]
            rw [j1]
          · simp only [drawFs, mkDirs, List.zipWith_cons_cons, List.zip_cons_cons]
            rw [j2]
          · simp only [mkDirs, List.zipWith_cons_cons]
            rw [j3]
            congr 1
            cases colloc <;> rfl

/-- The corners of the `DMDA` for drawing on a process. -/
def drawCorners (colloc : Bool) (qs : List Int) (L : Layout K) : List (Int × Int) :=
  List.zip (List.zipWith (drawStart colloc) L.dir qs) (drawWidths colloc qs L)

/-- **C83**, the grid of samples: on every process the `DMDA` for drawing is created, with the sizes `nel*q + 1` (or the
number of nodes with collocation), and every sample is stored by exactly one process. -/
theorem C83_draw_dm (S : Setup g2 g3 colloc size procs axes axs Ls) (qs : List Int) (hq : Res1 axs qs) :
    (∀ (r : Nat) (L : Layout K), Ls[r]? = some L → List.zipWith (drawSize colloc) L.dir qs = List.zipWith (drawN colloc) axs qs ∧
      drawDM colloc qs Ls L r = .ok (drawCorners colloc qs L)) ∧
    ∀ x, InBox (List.zipWith (drawN colloc) axs qs) x →
      ∃ r, (∃ L, Ls[r]? = some L ∧ x ∈ box (drawCorners colloc qs L)) ∧
        ∀ (r' : Nat), (∃ L, Ls[r']? = some L ∧ x ∈ box (drawCorners colloc qs L)) → r' = r := by
  obtain ⟨Ps, hf, hp, hall⟩ := setup_grid S
  obtain ⟨T, hc⟩ := drawFs_all colloc hf hq (setup_wf S) S.cond
  obtain ⟨hpos, hl, hl'⟩ := tilesAll_pos T
  have hw : Ls.map (drawWidths colloc qs) = widths Ps (drawFs colloc axs Ps qs) Ls.length := by
    apply List.ext_getElem?
    intro k
    unfold widths
    rw [List.getElem?_map, List.getElem?_map]
    by_cases hk : k < Ls.length
    · rw [List.getElem?_range hk, List.getElem?_eq_getElem hk, Option.map_some, Option.map_some]
      rw [hall k _ (List.getElem?_eq_getElem hk), (hc _ (coords_inBox hpos (by omega))).1]
    · rw [List.getElem?_eq_none (by omega : Ls.length ≤ k), List.getElem?_eq_none (by simpa using hk)]
      rfl
  have hcor : ∀ (r : Nat) (L : Layout K), Ls[r]? = some L →
      List.zipWith (fun (f : (Int → Int) × (Int → Int)) c => (f.1 c, f.2 c)) (drawFs colloc axs Ps qs) (coords Ps r) = drawCorners colloc qs L := by
    intro r L h
    rw [(hc _ (coords_inBox hpos (by omega))).2.1, hall r L h]
    rfl
  constructor
  · intro r L h
    have hlt := (List.getElem?_eq_some_iff.1 h).1
    have hb : InBox Ps (coords Ps r) := coords_inBox hpos (by omega)
    have e : List.zipWith (drawSize colloc) L.dir qs = List.zipWith (drawN colloc) axs qs := by
      rw [hall r L h]; exact (hc _ hb).2.2.1
    refine ⟨e, ?_⟩
    unfold drawDM
    rw [e, hw, ← hcor r L h]
    have h1 : L.procs = Ps := by rw [hall r L h]
    have h2 : L.dir.length = Ps.length := by rw [hall r L h]; exact (hc _ hb).2.2.2
    rw [h1]
    exact createDMDA_ok T hp (by simpa using h2) (le_refl _) hlt
  · intro x hx
    obtain ⟨c, ⟨c1, c2⟩, c3⟩ := tilesAll_owner T hx
    obtain ⟨l0, l1⟩ := lin_range c1
    have hlt : (lin Ps c).toNat < Ls.length := by omega
    refine ⟨(lin Ps c).toNat, ⟨_, List.getElem?_eq_getElem hlt, ?_⟩, ?_⟩
    · rw [← hcor _ _ (List.getElem?_eq_getElem hlt), Int.toNat_of_nonneg l0, coords_lin c1]
      exact c2
    · rintro r' ⟨L, h, hb⟩
      rw [← hcor r' L h] at hb
      have := c3 _ (coords_inBox hpos (by omega)) hb
      have h2 := lin_coords hpos (r := (r':Int)) (by omega) (by have := (List.getElem?_eq_some_iff.1 h).1; omega)
      rw [this] at h2
      omega

/-! ### Sample points -/

/-- The element of a sample. -/
def sampleElem (ax : Axis K) (q s : Int) : Int := if s / q = ax.nel then ax.nel - 1 else s / q

/-- The point of a sample. -/
def sampleAt (ax : Axis K) (q s : Int) : K :=
  ax.U (sp ax (sampleElem ax q s)) + ((s - sampleElem ax q s * q : Int) : K) / (q : K) * (ax.U (sp ax (sampleElem ax q s) + 1) - ax.U (sp ax (sampleElem ax q s)))

theorem sample_elem {ax : Axis K} (hn : 1 ≤ ax.nel) {q s : Int} (hq : 1 ≤ q) (h0 : 0 ≤ s) (h1 : s ≤ ax.nel * q) :
    0 ≤ sampleElem ax q s ∧ sampleElem ax q s < ax.nel ∧ 0 ≤ s - sampleElem ax q s * q ∧ s - sampleElem ax q s * q ≤ q ∧
    (s - sampleElem ax q s * q = q → sampleElem ax q s = ax.nel - 1) ∧
    (s / q = ax.nel → s - sampleElem ax q s * q = q ∧ s % q = 0) ∧
    (s / q ≠ ax.nel → sampleElem ax q s = s / q ∧ s - sampleElem ax q s * q = s % q) := by
  have hd := Int.mul_ediv_add_emod s q
  have hm0 := Int.emod_nonneg s (by omega : q ≠ 0)
  have hm1 := Int.emod_lt_of_pos s (by omega : 0 < q)
  have hd0 : 0 ≤ s / q := Int.ediv_nonneg h0 (by omega)
  have hd1 : s / q ≤ ax.nel := by
    by_contra hc
    push_neg at hc
    nlinarith
  unfold sampleElem
  split_ifs with h
  · have : s = ax.nel * q := by rw [h] at hd; nlinarith
    rw [h] at hd
    refine ⟨by omega, by omega, by nlinarith, by nlinarith, fun _ => rfl, fun _ => ⟨by nlinarith, by nlinarith⟩, fun h' => absurd h h'⟩
  · refine ⟨hd0, by omega, by nlinarith, by nlinarith, ?_, fun h' => absurd h' h, fun _ => ⟨rfl, by nlinarith⟩⟩
    intro h'
    exfalso
    nlinarith

theorem lagrange_ok {ax : Axis K} (h : WF ax) (hn : 1 ≤ ax.nel) {q s : Int} (hq : 1 ≤ q) (h0 : 0 ≤ s) (h1 : s ≤ ax.nel * q) :
    lagrangePoint s q ax = .ok (sampleAt ax q s) ∧ IsSample ax q s (sampleAt ax q s) := by
  obtain ⟨a, b, c, d, e, f, g⟩ := sample_elem hn hq h0 h1
  have hp := h.legal.degree
  have hspan := spanAt_ok h.toPreWF a b
  constructor
  · unfold lagrangePoint
    rw [if_neg (by omega), if_neg (by omega), Int.tdiv_eq_ediv_of_nonneg h0, Int.tmod_eq_emod_of_nonneg h0]
    dsimp only
    by_cases hc : s / q = ax.nel
    · obtain ⟨f1, f2⟩ := f hc
      have : sampleElem ax q s = ax.nel - 1 := by unfold sampleElem; rw [if_pos hc]
      rw [if_pos hc]
      dsimp only
      rw [hc, ← this, hspan]
      unfold sampleAt
      rw [f1]
      rfl
    · obtain ⟨g1, g2⟩ := g hc
      rw [if_neg hc]
      dsimp only
      rw [← g1, hspan]
      unfold sampleAt
      rw [g2]
      rfl
  · refine ⟨_, _, sp ax (sampleElem ax q s), a, b, c, d, by ring, ?_, rfl⟩
    unfold spanOf
    rw [if_neg (by simp)]
    exact hspan

/-- The interval of a sample is the one of its element. -/
theorem sample_span {ax : Axis K} (h : WF ax) (hn : 1 ≤ ax.nel)
    (hc : ax.U ax.p < ax.U (ax.p+1) ∧ ax.U (ax.m-ax.p-1) < ax.U (ax.m-ax.p)) {q s : Int} (hq : 1 ≤ q) (h0 : 0 ≤ s) (h1 : s ≤ ax.nel * q) :
    SpanOf ax (sampleAt ax q s) (sp ax (sampleElem ax q s)) ∧
    ax.U ax.p ≤ sampleAt ax q s ∧ sampleAt ax q s ≤ ax.U (ax.m - ax.p) := by
  obtain ⟨a, b, c, d, e, -, -⟩ := sample_elem hn hq h0 h1
  have hel := sp_elem h.toPreWF a b
  obtain ⟨e1, e2, e3⟩ := hel
  have hs := h.legal.sorted
  have hp := h.legal.degree
  have hm := h.legal.enough
  have lo : ax.U ax.p ≤ ax.U (sp ax (sampleElem ax q s)) := sorted_mono hs (by omega) e1 (by omega)
  have hi : ax.U (sp ax (sampleElem ax q s) + 1) ≤ ax.U (ax.m - ax.p) := sorted_mono hs (by omega) (by omega) (by omega)
  have hq' : (0:K) < (q:K) := by exact_mod_cast (by omega : (0:Int) < q)
  have ht0 : (0:K) ≤ ((s - sampleElem ax q s * q : Int) : K) / (q:K) := div_nonneg (by exact_mod_cast c) hq'.le
  have ht1 : ((s - sampleElem ax q s * q : Int) : K) / (q:K) ≤ 1 := by
    rw [div_le_one hq']; exact_mod_cast d
  have x0 : ax.U (sp ax (sampleElem ax q s)) ≤ sampleAt ax q s := by
    unfold sampleAt; nlinarith
  have x1 : sampleAt ax q s ≤ ax.U (sp ax (sampleElem ax q s) + 1) := by
    unfold sampleAt; nlinarith
  refine ⟨⟨⟨e1, e2, e3⟩, ?_, ?_, ?_⟩, le_trans lo x0, le_trans x1 hi⟩
  · intro _ hlt
    refine ⟨x0, lt_of_le_of_ne x1 ?_⟩
    intro heq
    have ht : ((s - sampleElem ax q s * q : Int) : K) / (q:K) = 1 := by
      unfold sampleAt at heq
      have hne : ax.U (sp ax (sampleElem ax q s) + 1) - ax.U (sp ax (sampleElem ax q s)) ≠ 0 := by
        have : 0 < ax.U (sp ax (sampleElem ax q s) + 1) - ax.U (sp ax (sampleElem ax q s)) := by linarith
        exact ne_of_gt this
      have : ((s - sampleElem ax q s * q : Int) : K) / (q:K) * (ax.U (sp ax (sampleElem ax q s) + 1) - ax.U (sp ax (sampleElem ax q s))) =
          1 * (ax.U (sp ax (sampleElem ax q s) + 1) - ax.U (sp ax (sampleElem ax q s))) := by linarith
      exact mul_right_cancel₀ hne this
    rw [div_eq_one_iff_eq (ne_of_gt hq')] at ht
    have he := e (by exact_mod_cast ht)
    rw [he, sp_last h.toPreWF hn hc.2, show ax.m - ax.p - 1 + 1 = ax.m - ax.p by ring] at heq
    exact absurd heq (ne_of_lt hlt)
  · intro hlt; exact absurd (lt_of_le_of_lt (le_trans lo x0) hlt) (lt_irrefl _)
  · intro hge
    have heq : ax.U (sp ax (sampleElem ax q s) + 1) = ax.U (ax.m - ax.p) := le_antisymm hi (le_trans hge x1)
    by_contra hne
    have := sorted_mono hs (i := sp ax (sampleElem ax q s) + 1) (j := ax.m - ax.p - 1) (by omega) (by omega) (by omega)
    rw [heq] at this
    exact absurd hc.2 (not_lt_of_ge this)

/-- **C83**, the samples of a direction: they start at the beginning of the domain, end at its end, and increase. -/
theorem C83_samples_increasing {ax : Axis K} (h : WF ax) (hn : 1 ≤ ax.nel)
    (hc : ax.U ax.p < ax.U (ax.p+1) ∧ ax.U (ax.m-ax.p-1) < ax.U (ax.m-ax.p)) {q : Int} (hq : 1 ≤ q) :
    lagrangePoint 0 q ax = .ok (ax.U ax.p) ∧ lagrangePoint (ax.nel * q) q ax = .ok (ax.U (ax.m - ax.p)) ∧
    ∀ (s : Int) (u v : K), 0 ≤ s → s < ax.nel * q → lagrangePoint s q ax = .ok u → lagrangePoint (s+1) q ax = .ok v → u < v := by
  have hnq : 0 ≤ ax.nel * q := by positivity
  have hq' : (0:K) < (q:K) := by exact_mod_cast (by omega : (0:Int) < q)
  refine ⟨?_, ?_, ?_⟩
  · rw [(lagrange_ok h hn hq (le_refl _) hnq).1]
    have : sampleElem ax q 0 = 0 := by unfold sampleElem; rw [Int.zero_ediv, if_neg (by omega)]
    unfold sampleAt
    rw [this, sp_first h.toPreWF hn hc.1]
    simp
  · rw [(lagrange_ok h hn hq hnq (le_refl _)).1]
    have : sampleElem ax q (ax.nel * q) = ax.nel - 1 := by
      unfold sampleElem; rw [Int.mul_ediv_cancel _ (by omega), if_pos rfl]
    unfold sampleAt
    rw [this, sp_last h.toPreWF hn hc.2, show ax.nel * q - (ax.nel - 1) * q = q by ring, div_self (ne_of_gt hq')]
    rw [show ax.m - ax.p - 1 + 1 = ax.m - ax.p by ring]
    congr 1; ring
  · intro s u v h0 h1 hu hv
    rw [(lagrange_ok h hn hq h0 h1.le).1] at hu
    rw [(lagrange_ok h hn hq (by omega) (by omega)).1] at hv
    simp only [Res.ok.injEq] at hu hv
    rw [← hu, ← hv]
    obtain ⟨a, b, c, d, e, f, g⟩ := sample_elem hn hq h0 h1.le
    obtain ⟨a', b', c', d', e', f', g'⟩ := sample_elem (s := s+1) hn hq (by omega) (by omega)
    have hel := sp_elem h.toPreWF a b
    have hel' := sp_elem h.toPreWF a' b'
    have hs := h.legal.sorted
    have hd := Int.mul_ediv_add_emod s q
    have hm0 := Int.emod_nonneg s (by omega : q ≠ 0)
    have hm1 := Int.emod_lt_of_pos s (by omega : 0 < q)
    have hne : s / q ≠ ax.nel := by
      intro hh
      rw [hh] at hd
      nlinarith
    obtain ⟨g1, g2⟩ := g hne
    have hlt : ((s - sampleElem ax q s * q : Int) : K) / (q:K) < 1 := by
      rw [div_lt_one hq']; exact_mod_cast (by omega : s - sampleElem ax q s * q < q)
    by_cases hsame : sampleElem ax q (s+1) = sampleElem ax q s
    · unfold sampleAt
      rw [hsame]
      have hpos : 0 < ax.U (sp ax (sampleElem ax q s) + 1) - ax.U (sp ax (sampleElem ax q s)) := by linarith [hel.2.2]
      have : ((s - sampleElem ax q s * q : Int) : K) / (q:K) < ((s + 1 - sampleElem ax q s * q : Int) : K) / (q:K) := by
        rw [div_lt_div_iff_of_pos_right hq']; exact_mod_cast (by omega)
      nlinarith
    · have hgt : sampleElem ax q s < sampleElem ax q (s+1) := by
        rcases lt_trichotomy (sampleElem ax q s) (sampleElem ax q (s+1)) with h' | h' | h'
        · exact h'
        · exact absurd h'.symm hsame
        · exfalso
          have : sampleElem ax q (s+1) * q + q ≤ sampleElem ax q s * q := by nlinarith
          omega
      have k1 := sp_lt h.toPreWF a hgt b'
      have k2 := sorted_mono hs (i := sp ax (sampleElem ax q s) + 1) (j := sp ax (sampleElem ax q (s+1)))
        (by have := hel.1; have := h.legal.degree; omega) (by omega) (by have := hel'.2.1; have := h.legal.degree; omega)
      have hpos : 0 < ax.U (sp ax (sampleElem ax q s) + 1) - ax.U (sp ax (sampleElem ax q s)) := by linarith [hel.2.2]
      have hpos' : 0 < ax.U (sp ax (sampleElem ax q (s+1)) + 1) - ax.U (sp ax (sampleElem ax q (s+1))) := by linarith [hel'.2.2]
      have t0 : (0:K) ≤ ((s + 1 - sampleElem ax q (s+1) * q : Int) : K) / (q:K) := div_nonneg (by exact_mod_cast c') hq'.le
      unfold sampleAt
      nlinarith

/-- **C83**: the sizes of the `DMDA` give back the resolution it was made with. -/
theorem C83_step (d : Dir) (h : 1 ≤ d.elemSize) (q : Int) : drawStep false d q = q := by
  unfold drawStep drawSize
  rw [if_neg (by simp), add_sub_cancel_right]
  exact Int.mul_tdiv_cancel_left _ (by omega)

/-- **C83**: the resolution without an explicit one is the degree, and it is never below one. -/
theorem C83_resolution (ax : Axis K) (h : 1 ≤ ax.p) (res : Option Int) :
    1 ≤ resolution ax res ∧ resolution ax none = ax.p ∧ ∀ q, 1 ≤ q → resolution ax (some q) = q := by
  unfold resolution
  refine ⟨le_max_right _ _, max_eq_left h, fun q hq => max_eq_left hq⟩

/-! ### The loop -/

theorem drawLoop_ok (debug : Bool) (ds : List (PDir K)) (arrays : List (Nat × List V)) (value : Bool → List K → List Int → List (List V) → List V)
    (point : List Int → Res (List K)) (u : List Int → List K) (k : List Int → List Int) (vals : List Int → List (List V)) : ∀ (xs : List (List Int)) (old : List (List V)),
    (∀ x ∈ xs, point x = .ok (u x) ∧ spans ds (u x) = .ok (k x) ∧ ∀ old, localPoint debug ds arrays old (u x) = .ok (false, vals x)) →
    drawLoop debug ds arrays value point xs old = .ok (xs.flatMap fun x => value false (u x) (k x) (vals x))
  | [], _, _ => rfl
  | x :: xs, old, h => by
    obtain ⟨a, b, c⟩ := h x (by simp)
    rw [drawLoop, a]
    show (localPoint debug ds arrays old (u x)).bind _ = _
    rw [c old]
    show (spans ds (u x)).bind _ = _
    rw [b]
    show (drawLoop debug ds arrays value point xs (vals x)).bind _ = _
    rw [drawLoop_ok debug ds arrays value point u k vals xs _ fun y hy => h y (by simp [hy])]
    rfl

/-- A process has the closure of the intervals of its elements. -/
theorem own_closure (S : Setup g2 g3 colloc size procs axes axs Ls) {r : Nat} {L : Layout K} (h : Ls[r]? = some L) {ks e : List Int}
    (he : InBlock (L.dir.map Dir.elemStart) (L.dir.map Dir.elemWidth) e)
    (hk : List.Forall₂ (fun (ax : Axis K) (ke : Int × Int) => spanOf colloc ax ke.2 = .ok ke.1) axs (List.zip ks e))
    (hl : axs.length = ks.length) : off (pdirs axs L.dir) ks = false := by
  have hd := Blk.setup_dirs S h (R := DirP colloc) (fun ax P r a b c d e f => dirP a b c d e f)
  generalize L.dir = ds at hd he
  clear h S
  unfold off pdirs
  induction hd generalizing ks e with
  | nil => rfl
  | @cons ax d axs ds h1 h2 ih =>
    simp only [List.map_cons] at he
    cases he with
    | @cons _ _ i _ _ is b1 b2 =>
      cases ks with
      | nil => simp at hl
      | cons k ks =>
        rw [List.zip_cons_cons] at hk
        cases hk with
        | cons c1 c2 =>
          simp only [List.zipWith_cons_cons, List.any_cons, id, Bool.or_eq_false_iff]
          refine ⟨?_, ih c2 (by simpa using hl) b2⟩
          obtain ⟨k', q1, q2, q3⟩ := h1.geometry i b1.1 b1.2
          dsimp only at c1
          rw [c1] at q1
          simp only [Res.ok.injEq] at q1
          subst q1
          exact offDir_false.2 ⟨q2, q3⟩

theorem inRange_ok {axs : List (Axis K)} {ds : List Dir} (hd : List.Forall₂ (DirP colloc) axs ds) {us : List K} (hu : InDomain axs us) :
    (List.zipWith inRange (pdirs axs ds) us).any not = false := by
  unfold pdirs InDomain at *
  induction hd generalizing us with
  | nil => cases hu; rfl
  | cons h1 h2 ih =>
    cases hu with
    | cons b1 b2 =>
      simp only [List.zipWith_cons_cons, List.any_cons, Bool.or_eq_false_iff]
      refine ⟨?_, ih b2⟩
      unfold inRange pdir
      dsimp only
      rw [h1.size]
      simp [b1.1, b1.2]

/-- The samples of a process: their points, their intervals, and the elements they belong to. -/
theorem draw_points {axs : List (Axis K)} {Ps qs c x : List Int} (hf : Fits (axs.map (gridSize false)) Ps) (hq : Res1 axs qs) (hw : ∀ ax ∈ axs, WF ax)
    (hc : ∀ ax ∈ axs, Condition false ax) (hb : InBox Ps c)
    (hx : x ∈ box (List.zip (List.zipWith (drawStart false) (mkDirs false axs Ps c) qs) (drawWidths false qs (⟨axs, Ps, c, mkDirs false axs Ps c⟩ : Layout K)))) :
    ∃ us ks e, Blk.sequence (List.zipWith (fun (ad : Axis K × Dir) (is : Int × Int) => samplePoint false (is.1 + ad.2.nodeShift) is.2 ad.1)
        (List.zip axs (mkDirs false axs Ps c)) (List.zip x qs)) = .ok us ∧
      SamplePt axs qs x us ∧ PointSpans axs us ks ∧ InDomain axs us ∧
      InBlock ((mkDirs false axs Ps c).map Dir.elemStart) ((mkDirs false axs Ps c).map Dir.elemWidth) e ∧
      List.Forall₂ (fun (ax : Axis K) (ke : Int × Int) => spanOf false ax ke.2 = .ok ke.1) axs (List.zip ks e) := by
  rw [mem_box] at hx
  unfold drawWidths at hx
  unfold Res1 at hq
  dsimp only at hx
  induction axs generalizing Ps qs c x with
  | nil =>
    cases hf; cases hq; cases hb; cases hx
    exact ⟨[], [], [], rfl, .nil, .nil, .nil, .nil, .nil⟩
  | cons ax axs ih =>
    rw [List.map_cons] at hf
    cases hf with
    | @cons _ P _ Ps a1 a2 => cases hq with
      | @cons _ q _ qs b1 b2 => cases hb with
        | @cons _ j _ js d1 d2 =>
          simp only [mkDirs, List.zipWith_cons_cons, List.zip_cons_cons, List.map_cons] at hx
          cases hx with
          | @cons _ _ i _ _ is e1 e2 =>
            obtain ⟨us, ks, e, i1, i2, i3, i4, i5, i6⟩ := ih a2 b2 (fun a ha => hw a (by simp [ha])) (fun a ha => hc a (by simp [ha])) d2 e2
            have hwf := hw ax (by simp)
            have hends := (hc ax (by simp)).1 rfl
            have hN : P ≤ ax.nel := a1.2
            have hn : 1 ≤ ax.nel := by omega
            have T := elem_tiles false (ax := ax) a1.1 a1.2
            obtain ⟨t0, t1, t2⟩ := tiles_range T d1.1 d1.2
            have hlast := T.last
            rw [show gridSize false ax = ax.nel from rfl] at t2 hlast
            simp only [drawStart, drawWidth, Bool.false_eq_true, if_false] at e1
            have hi0 : 0 ≤ i := le_trans (by positivity) e1.1
            have hi1 : i ≤ ax.nel * q := by
              by_cases hj : j = P - 1
              · rw [if_pos hj] at e1
                rw [← hj] at hlast
                nlinarith [e1.2]
              · rw [if_neg hj] at e1
                nlinarith [e1.2]
            obtain ⟨l1, l2⟩ := lagrange_ok hwf hn b1 hi0 hi1
            obtain ⟨s1, s2, s3⟩ := sample_span hwf hn hends b1 hi0 hi1
            obtain ⟨m1, m2, m3, m4, m5, m6, m7⟩ := sample_elem hn b1 hi0 hi1
            have hblk : (dirAt false ax P j).elemStart ≤ sampleElem ax q i ∧
                sampleElem ax q i < (dirAt false ax P j).elemStart + (dirAt false ax P j).elemWidth := by
              constructor
              · by_contra hlt
                push_neg at hlt
                have : (sampleElem ax q i + 1) * q ≤ (dirAt false ax P j).elemStart * q := by nlinarith
                have heq : i - sampleElem ax q i * q = q := by nlinarith [e1.1]
                have := m5 heq
                omega
              · by_cases hj : j = P - 1
                · rw [← hj] at hlast; omega
                · rw [if_neg hj] at e1
                  by_contra hge
                  push_neg at hge
                  have : ((dirAt false ax P j).elemStart + (dirAt false ax P j).elemWidth) * q ≤ sampleElem ax q i * q := by nlinarith
                  nlinarith [e1.2]
            refine ⟨sampleAt ax q i :: us, sp ax (sampleElem ax q i) :: ks, sampleElem ax q i :: e, ?_, .cons l2 i2, .cons s1 i3, .cons ⟨s2, s3⟩ i4,
              .cons hblk i5, ?_⟩
            · simp only [mkDirs, List.zip_cons_cons, List.zipWith_cons_cons, Blk.sequence]
              rw [i1]
              have : samplePoint false (i + (dirAt false ax P j).nodeShift) q ax = .ok (sampleAt ax q i) := by
                unfold samplePoint
                rw [if_neg (by simp), show (dirAt false ax P j).nodeShift = 0 from rfl, add_zero, l1]
              rw [this]
              rfl
            · rw [List.zip_cons_cons]
              refine .cons ?_ i6
              show spanOf false ax (sampleElem ax q i) = _
              unfold spanOf
              rw [if_neg (by simp), spanAt_ok hwf.toPreWF m1 m2]

/-- **C83**.  After any successful setup (not collocation), for every resolution and whatever the copies of the probe
contained, every process writes one entry per sample of its part of the grid of samples, in order, without reading
outside an array; each entry is what the probe reports with the data of the process itself (`offprocess` is false) at
the sample point, from the values at the functions that are not zero on the element of the sample. -/
theorem C83_samples (S : Setup g2 g3 false size procs axes axs Ls) (qs : List Int) (hq : Res1 axs qs) (debug : Bool)
    (specs : List (Nat × (List Int → Nat → V))) (arr : Nat → List (Nat × List V)) (hst : AllStore Ls arr specs)
    (value : Bool → List K → List Int → List (List V) → List V) (old : List (List V)) (r : Nat) (L : Layout K) (h : Ls[r]? = some L) :
    ∃ (u : List Int → List K) (k : List Int → List Int),
      drawRank debug false qs qs Ls L r (arr r) value old =
        .ok ((box (drawCorners false qs L)).flatMap fun x => value false (u x) (k x) (specs.map fun s => closureVals axs (k x) s.1 s.2)) ∧
      ∀ x ∈ box (drawCorners false qs L), SamplePt axs qs x (u x) ∧ PointSpans axs (u x) (k x) := by
  obtain ⟨Ps, hf, hp, hall⟩ := setup_grid S
  obtain ⟨hpos, -, -⟩ := tilesAll_pos (drawFs_all false hf hq (setup_wf S) S.cond).1
  have hb : InBox Ps (coords Ps r) := coords_inBox hpos (by omega)
  have hL := hall r L h
  have hpt : ∀ x, x ∈ box (drawCorners false qs L) → ∃ us ks e, drawPoint false qs L x = .ok us ∧ SamplePt axs qs x us ∧ PointSpans axs us ks ∧
      InDomain axs us ∧ InBlock (L.dir.map Dir.elemStart) (L.dir.map Dir.elemWidth) e ∧
      List.Forall₂ (fun (ax : Axis K) (ke : Int × Int) => spanOf false ax ke.2 = .ok ke.1) axs (List.zip ks e) := by
    intro x hx
    rw [hL] at hx ⊢
    exact draw_points hf hq (setup_wf S) S.cond hb hx
  have hpt' : ∀ x, ∃ us ks e, x ∈ box (drawCorners false qs L) → drawPoint false qs L x = .ok us ∧ SamplePt axs qs x us ∧ PointSpans axs us ks ∧
      InDomain axs us ∧ InBlock (L.dir.map Dir.elemStart) (L.dir.map Dir.elemWidth) e ∧
      List.Forall₂ (fun (ax : Axis K) (ke : Int × Int) => spanOf false ax ke.2 = .ok ke.1) axs (List.zip ks e) := by
    intro x
    by_cases hx : x ∈ box (drawCorners false qs L)
    · obtain ⟨us, ks, e, hh⟩ := hpt x hx
      exact ⟨us, ks, e, fun _ => hh⟩
    · exact ⟨[], [], [], fun hh => absurd hh hx⟩
  choose u k e huk using hpt'
  refine ⟨u, k, ?_, fun x hx => ⟨(huk x hx).2.1, (huk x hx).2.2.1⟩⟩
  unfold drawRank
  rw [((C83_draw_dm S qs hq).1 r L h).2]
  have hd := Blk.setup_dirs S h (R := DirP false) (fun ax P r a b c d e f => dirP a b c d e f)
  obtain ⟨-, hax, -, -⟩ := S.get h
  obtain ⟨l1, l3⟩ := setup_len S
  show drawLoop debug (pdirs L.axes L.dir) (arr r) value _ _ old = _
  rw [hax]
  apply drawLoop_ok
  intro x hx
  obtain ⟨c1, c2, c3, c4, c5, c6⟩ := huk x hx
  obtain ⟨ks', s1, s2⟩ := gal_spans (colloc := false) (setup_wf S) (fun ax ha => (S.cond ax ha).1 rfl) (us := u x) (spans_len c3).2.symm
  have hkk : ks' = k x := by
    have hends := fun ax ha => (S.cond ax ha).1 rfl
    have hwf := setup_wf S
    clear * - s1 c3 hends hwf
    generalize k x = ks at c3
    generalize u x = us at c3 s1
    induction s1 generalizing ks with
    | nil => cases c3; rfl
    | @cons ax w kk axs us ks' a b ih =>
      cases c3 with
      | @cons _ _ kk' _ _ ks2 a' b' =>
        rw [ih (fun a ha => hends a (by simp [ha])) (fun a ha => hwf a (by simp [ha])) ks2 b']
        congr 1
        have hs := (hwf ax (by simp)).legal.sorted
        have hp := (hwf ax (by simp)).legal.degree
        rcases lt_or_ge w (ax.U ax.p) with h1 | h1
        · rw [a.left h1, a'.left h1]
        · rcases lt_or_ge w (ax.U (ax.m - ax.p)) with h2 | h2
          · obtain ⟨p1, p2⟩ := a.inside h1 h2
            obtain ⟨q1, q2⟩ := a'.inside h1 h2
            have r1 := a.elem
            have r2 := a'.elem
            by_contra hne
            rcases lt_or_gt_of_ne hne with hlt | hlt
            · have := sorted_mono hs (i := kk + 1) (j := kk') (by have := r1.1; omega) (by omega) (by have := r2.2.1; omega)
              linarith
            · have := sorted_mono hs (i := kk' + 1) (j := kk) (by have := r2.1; omega) (by omega) (by have := r1.2.1; omega)
              linarith
          · rw [a.right h2, a'.right h2]
  subst hkk
  refine ⟨c1, s2 _ hd, ?_⟩
  intro old'
  have hoff := own_closure S h c5 c6 (spans_len c3).1
  have := local_ok (fun a ha => by have := (setup_wf S a ha).legal.degree; omega) l1 l3 hd.length_eq (spans_len c3).1 debug
    (fun _ => inRange_ok hd c4) (s2 _ hd) specs (arr r) old' (hst r L h)
  rw [this, hoff]
  rfl

/-! ### Collocation -/

/-- The samples of a process with collocation: Greville points of its nodes. -/
theorem greville_points {axs : List (Axis K)} {Ps qs st c x : List Int} (hf : Fits (axs.map (gridSize true)) Ps) (hq : Res1 axs qs) (hs : st.length = axs.length) (hw : ∀ ax ∈ axs, WF ax)
    (hb : InBox Ps c)
    (hx : x ∈ box (List.zip (List.zipWith (drawStart true) (mkDirs true axs Ps c) qs) (drawWidths true qs (⟨axs, Ps, c, mkDirs true axs Ps c⟩ : Layout K)))) :
    ∃ ks, Blk.sequence (List.zipWith (fun (ad : Axis K × Dir) (is : Int × Int) => samplePoint true (is.1 + ad.2.nodeShift) is.2 ad.1)
        (List.zip axs (mkDirs true axs Ps c)) (List.zip x st)) = .ok (List.zipWith (fun (ax : Axis K) i => greville (i + shiftOf true ax) ax.p ax.U) axs x) ∧
      (∀ ds, List.Forall₂ (DirP true) axs ds → spans (pdirs axs ds) (List.zipWith (fun (ax : Axis K) i => greville (i + shiftOf true ax) ax.p ax.U) axs x) = .ok ks) ∧
      InBlock ((mkDirs true axs Ps c).map Dir.elemStart) ((mkDirs true axs Ps c).map Dir.elemWidth) x ∧ axs.length = ks.length ∧
      List.Forall₂ (fun (ax : Axis K) (ke : Int × Int) => spanOf true ax ke.2 = .ok ke.1) axs (List.zip ks x) := by
  rw [mem_box] at hx
  unfold drawWidths at hx
  unfold Res1 at hq
  dsimp only at hx
  induction axs generalizing Ps qs st c x with
  | nil =>
    cases hf; cases hq; cases hb; cases hx
    refine ⟨[], rfl, ?_, .nil, rfl, .nil⟩
    intro ds h
    cases h
    rfl
  | cons ax axs ih =>
    rw [List.map_cons] at hf
    cases st with
    | nil => simp at hs
    | cons q' st =>
      cases hf with
      | @cons _ P _ Ps a1 a2 => cases hq with
        | @cons _ q _ qs b1 b2 => cases hb with
          | @cons _ j _ js d1 d2 =>
            simp only [mkDirs, List.zipWith_cons_cons, List.zip_cons_cons, List.map_cons] at hx
            cases hx with
            | @cons _ _ i _ _ is e1 e2 =>
              obtain ⟨ks, i1, i2, i5, i6, i7⟩ := ih a2 b2 (st := st) (by simpa using hs) (fun a ha => hw a (by simp [ha])) d2 e2
              have hwf := hw ax (by simp)
              simp only [drawStart, drawWidth, if_true] at e1
              have hN : P ≤ ax.nnp := a1.2
              have T := col_node_tiles (ax := ax) a1.1 hN
              obtain ⟨t0, t1, t2⟩ := tiles_range T d1.1 d1.2
              have e1' : (colDir ax P j).nodeLstart ≤ i ∧ i < (colDir ax P j).nodeLstart + (colDir ax P j).nodeLwidth := e1
              obtain ⟨s1, s2, s3⟩ := shift_bounds hwf
              have hsh := tdiv_shift hwf
              obtain ⟨G1, -⟩ := gsp_spec hwf.toPreWF
              have hso : shiftOf true ax = (ax.m - ax.p - ax.nnp) / 2 := rfl
              obtain ⟨g1, -⟩ := G1 (i + shiftOf true ax) (by omega) (by omega)
              refine ⟨gsp ax (i + shiftOf true ax) :: ks, ?_, ?_, .cons e1' i5, by simp [i6], ?_⟩
              · simp only [mkDirs, List.zip_cons_cons, List.zipWith_cons_cons, Blk.sequence]
                rw [i1]
                have hp := hwf.legal.degree
                have hns : (dirAt true ax P j).nodeShift = shiftOf true ax := by
                  show Int.tdiv (ax.m - ax.p - 1 + 1 - ax.nnp) 2 = _
                  rw [hso, ← hsh]
                have : samplePoint true (i + (dirAt true ax P j).nodeShift) q' ax = .ok (greville (i + shiftOf true ax) ax.p ax.U) := by
                  unfold samplePoint grevillePoint
                  rw [if_pos rfl, if_neg (by omega), hns]
                rw [this]
                rfl
              · intro ds hd
                cases hd with
                | @cons _ d _ ds c1 c2 =>
                  unfold pdirs
                  simp only [List.zipWith_cons_cons, spans]
                  have : span (pdir ax d) (greville (i + shiftOf true ax) ax.p ax.U) = .ok (gsp ax (i + shiftOf true ax)) := by
                    unfold span pdir
                    dsimp only
                    rw [c1.size, show ax.m - ax.p + ax.p + 1 = ax.m + 1 by ring]
                    exact g1
                  rw [this]
                  show (spans (pdirs _ _) _).bind _ = _
                  rw [i2 _ c2]
                  rfl
              · rw [List.zip_cons_cons]
                refine .cons ?_ i7
                show spanOf true ax i = _
                unfold spanOf
                rw [if_pos rfl]
                exact g1

/-- With clamped knots the Greville points are in the domain. -/
theorem greville_domain {ax : Axis K} (h : WF ax) (h0 : ax.U 0 = ax.U ax.p) (h1 : ax.U ax.m = ax.U (ax.m - ax.p)) {i : Int} (hi : 0 ≤ i) (hm : i < ax.m - ax.p) :
    ax.U ax.p ≤ greville i ax.p ax.U ∧ greville i ax.p ax.U ≤ ax.U (ax.m - ax.p) := by
  have hs := h.legal.sorted
  have hp := h.legal.degree
  obtain ⟨a, b, -, -⟩ := C15_greville_in_support i ax.p ax.m ax.U hs hp hi (by omega)
  rw [← h0, ← h1]
  have c := sorted_mono hs (i := 0) (j := i + 1) (by omega) (by omega) (by omega)
  have d := sorted_mono hs (i := i + ax.p) (j := ax.m) (by omega) (by omega) (by omega)
  exact ⟨by linarith, by linarith⟩

/-- **C83** with collocation: the samples are the Greville points of the nodes (provided, in a build with error checking,
that they are in the domain, as for clamped knots), one entry per node owned by the process, from its own data. -/
theorem C83_collocation (S : Setup g2 g3 true size procs axes axs Ls) (qs steps : List Int) (hq : Res1 axs qs) (hsl : steps.length = axs.length) (debug : Bool)
    (specs : List (Nat × (List Int → Nat → V))) (arr : Nat → List (Nat × List V)) (hst : AllStore Ls arr specs)
    (value : Bool → List K → List Int → List (List V) → List V) (old : List (List V)) (r : Nat) (L : Layout K) (h : Ls[r]? = some L)
    (hdom : debug = true → ∀ x, InBox (axs.map Axis.nnp) x → InDomain axs (List.zipWith (fun (ax : Axis K) i => greville (i + shiftOf true ax) ax.p ax.U) axs x)) :
    ∃ (k : List Int → List Int),
      drawRank debug true qs steps Ls L r (arr r) value old =
        .ok ((box (L.dir.map fun d => (d.nodeLstart, d.nodeLwidth))).flatMap fun x =>
          value false (List.zipWith (fun (ax : Axis K) i => greville (i + shiftOf true ax) ax.p ax.U) axs x) (k x)
            (specs.map fun s => closureVals axs (k x) s.1 s.2)) ∧
      ∀ x ∈ box (L.dir.map fun d => (d.nodeLstart, d.nodeLwidth)),
        List.Forall₂ (fun (ax : Axis K) (ke : Int × Int) => spanOf true ax ke.2 = .ok ke.1) axs (List.zip (k x) x) := by
  obtain ⟨Ps, hf, hp, hall⟩ := setup_grid S
  obtain ⟨hpos, -, -⟩ := tilesAll_pos (drawFs_all true hf hq (setup_wf S) S.cond).1
  have hb : InBox Ps (coords Ps r) := coords_inBox hpos (by omega)
  have hL := hall r L h
  have hcor : drawCorners true qs L = L.dir.map fun d => (d.nodeLstart, d.nodeLwidth) := by
    rw [hL]
    generalize coords Ps r = c at hb
    clear * - hf hq hb
    unfold drawCorners drawWidths
    dsimp only
    unfold Res1 at hq
    induction axs generalizing Ps qs c with
    | nil => cases hf; cases hq; cases hb; rfl
    | cons ax axs ih =>
      rw [List.map_cons] at hf
      cases hf with
      | @cons _ P _ Ps a1 a2 => cases hq with
        | @cons _ q _ qs b1 b2 => cases hb with
          | @cons _ j _ js d1 d2 =>
            simp only [mkDirs, List.zipWith_cons_cons, List.zip_cons_cons, List.map_cons]
            rw [ih _ b2 _ a2 _ d2]
            rfl
  rw [← hcor]
  have hpt : ∀ x, ∃ ks, x ∈ box (drawCorners true qs L) →
      drawPoint true steps L x = .ok (List.zipWith (fun (ax : Axis K) i => greville (i + shiftOf true ax) ax.p ax.U) axs x) ∧
      (∀ ds, List.Forall₂ (DirP true) axs ds → spans (pdirs axs ds) (List.zipWith (fun (ax : Axis K) i => greville (i + shiftOf true ax) ax.p ax.U) axs x) = .ok ks) ∧
      InBlock (L.dir.map Dir.elemStart) (L.dir.map Dir.elemWidth) x ∧ axs.length = ks.length ∧
      List.Forall₂ (fun (ax : Axis K) (ke : Int × Int) => spanOf true ax ke.2 = .ok ke.1) axs (List.zip ks x) := by
    intro x
    by_cases hx : x ∈ box (drawCorners true qs L)
    · rw [hL] at hx ⊢
      obtain ⟨ks, hh⟩ := greville_points hf hq hsl (setup_wf S) hb hx
      exact ⟨ks, fun _ => hh⟩
    · exact ⟨[], fun hh => absurd hh hx⟩
  choose k hk using hpt
  refine ⟨k, ?_, fun x hx => (hk x hx).2.2.2.2⟩
  unfold drawRank
  rw [((C83_draw_dm S qs hq).1 r L h).2]
  have hd := Blk.setup_dirs S h (R := DirP true) (fun ax P r a b c d e f => dirP a b c d e f)
  obtain ⟨-, hax, -, -⟩ := S.get h
  obtain ⟨l1, l3⟩ := setup_len S
  show drawLoop debug (pdirs L.axes L.dir) (arr r) value _ _ old = _
  rw [hax]
  apply drawLoop_ok
  intro x hx
  obtain ⟨c1, c2, c3, c4, c5⟩ := hk x hx
  refine ⟨c1, c2 _ hd, ?_⟩
  intro old'
  have hoff := own_closure S h c3 c5 c4
  have := local_ok (fun a ha => by have := (setup_wf S a ha).legal.degree; omega) l1 l3 hd.length_eq c4 debug
    (fun hdb => inRange_ok hd (hdom hdb x ?_)) (c2 _ hd) specs (arr r) old' (hst r L h)
  · rw [this, hoff]
    rfl
  · exact block_inBox (S.get h).2.2.1 c3

/-! ### Values -/

section
variable {dof : Nat} {g2 : Guess2} {g3 : Guess3} {size : Int} {procs : List Int} {axes : List (Axis ℝ)} {Ls : List (Layout ℝ)}

/-- The values `IGAProbeFormValue` (`IGAProbeEvaluate` with derivative 0) puts into the array, petigadraw.c:206-207. -/
def entries {d : Nat} : Res (List (Fin d) → Fin dof → ℝ) → List ℝ
  | .ok v => List.ofFn fun c => v [] c
  | _ => []

open PetIGA.Ker in
/-- What the probe of order 0 reports in one dimension: tables, evaluation. -/
noncomputable def value1 (J : Bsp.Junk ℝ) (ax : Axis ℝ) (p : Nat) (old : Tab ℝ 1 (Fin (p+1))) (mem : List (Fin 1) → Fin dof → ℝ) :
    Bool → List ℝ → List Int → List (List ℝ) → List ℝ
  | off, [x], [k], [vals] => entries (Prb.evaluate 0 0 true off false (tensor1 0 (table J k x p 0 ax.U) old)
      (fun c a => coef vals dof c (flat (nens [ax]) [(a.val:Int)])) mem)
  | _, _, _, _ => []

open PetIGA.Ker in
/-- The same in two dimensions. -/
noncomputable def value2 (J : Bsp.Junk ℝ) (ax bx : Axis ℝ) (p q : Nat) (old : Tab ℝ 2 (Fin (p+1) × Fin (q+1))) (mem : List (Fin 2) → Fin dof → ℝ) :
    Bool → List ℝ → List Int → List (List ℝ) → List ℝ
  | off, [x, y], [k, j], [vals] => entries (Prb.evaluate 0 0 true off false (tensor2 0 (table J k x p 0 ax.U) (table J j y q 0 bx.U) old)
      (fun c a => coef vals dof c (flat (nens [ax, bx]) [(a.1.val:Int), (a.2.val:Int)])) mem)
  | _, _, _, _ => []

open PetIGA.Ker in
/-- The same in three dimensions. -/
noncomputable def value3 (J : Bsp.Junk ℝ) (ax bx cx : Axis ℝ) (p q s : Nat) (old : Tab ℝ 3 (Fin (p+1) × Fin (q+1) × Fin (s+1))) (mem : List (Fin 3) → Fin dof → ℝ) :
    Bool → List ℝ → List Int → List (List ℝ) → List ℝ
  | off, [x, y, w], [k, j, i], [vals] => entries (Prb.evaluate 0 0 true off false
      (tensor3 0 (table J k x p 0 ax.U) (table J j y q 0 bx.U) (table J i w s 0 cx.U) old)
      (fun c a => coef vals dof c (flat (nens [ax, bx, cx]) [(a.1.val:Int), (a.2.1.val:Int), (a.2.2.val:Int)])) mem)
  | _, _, _, _ => []

/-- **C83**, drawn values in one dimension: entry `c` of sample `x` is component `c` of the spline with the coefficients
`f` at the sample point. -/
theorem C83_values_1d (ax : Axis ℝ) (S : Setup g2 g3 false size procs axes [ax] Ls) (q : Int) (hq : 1 ≤ q) (debug : Bool)
    (f : List Int → Nat → ℝ) (arr : Nat → List (Nat × List ℝ)) (hst : AllStore Ls arr [(dof, f)]) (p : Nat) (hp : ax.p = p)
    (J : Bsp.Junk ℝ) (tab : Ker.Tab ℝ 1 (Fin (p+1))) (mem : List (Fin 1) → Fin dof → ℝ) (old : List (List ℝ)) (r : Nat) (L : Layout ℝ) (h : Ls[r]? = some L) :
    ∃ (u : List Int → ℝ) (k : List Int → Int),
      drawRank debug false [q] [q] Ls L r (arr r) (value1 J ax p tab mem) old =
        .ok ((box (drawCorners false [q] L)).flatMap fun x => List.ofFn fun c : Fin dof =>
          ∑ a : Fin (p+1), f [k x - p + a.val] c * pieces ax.U (k x) p a (u x)) ∧
      ∀ x ∈ box (drawCorners false [q] L), (∃ s, x = [s] ∧ IsSample ax q s (u x)) ∧ SpanOf ax (u x) (k x) := by
  obtain ⟨u, k, h1, h2⟩ := C83_samples S [q] (.cons hq .nil) debug [(dof, f)] arr hst (value1 J ax p tab mem) old r L h
  have hw := (setup_wf S ax (by simp)).legal.sorted
  refine ⟨fun x => (u x).headD 0, fun x => (k x).headD 0, ?_, ?_⟩
  · rw [h1]
    congr 1
    rw [List.flatMap_def, List.flatMap_def]
    congr 1
    apply List.map_congr_left
    intro x hx
    obtain ⟨-, hs⟩ := h2 x hx
    dsimp only
    generalize u x = us at hs
    generalize k x = ks at hs
    cases hs with
    | cons a b => cases b with
      | nil =>
        obtain ⟨v, v1, v2⟩ := C52_value_1d J ax p hp hw a f 0 0 (by omega) (by omega) false false (by simp) tab mem
        refine Eq.trans (congrArg entries v1) ?_
        unfold entries
        dsimp only
        congr 1
        funext c
        exact v2 [] c rfl
  · intro x hx
    obtain ⟨h3, h4⟩ := h2 x hx
    dsimp only
    generalize u x = us at h3 h4
    generalize k x = ks at h4
    cases h3 with
    | cons a b => cases b with
      | nil => cases h4 with
        | cons a' b' => exact ⟨⟨_, rfl, a⟩, a'⟩

/-- **C83**, drawn values in two dimensions. -/
theorem C83_values_2d (ax bx : Axis ℝ) (S : Setup g2 g3 false size procs axes [ax, bx] Ls) (q₀ q₁ : Int) (hq₀ : 1 ≤ q₀) (hq₁ : 1 ≤ q₁) (debug : Bool)
    (f : List Int → Nat → ℝ) (arr : Nat → List (Nat × List ℝ)) (hst : AllStore Ls arr [(dof, f)]) (p q : Nat) (hp : ax.p = p) (hq : bx.p = q)
    (J : Bsp.Junk ℝ) (tab : Ker.Tab ℝ 2 (Fin (p+1) × Fin (q+1))) (mem : List (Fin 2) → Fin dof → ℝ) (old : List (List ℝ)) (r : Nat) (L : Layout ℝ) (h : Ls[r]? = some L) :
    ∃ (u v : List Int → ℝ) (k j : List Int → Int),
      drawRank debug false [q₀, q₁] [q₀, q₁] Ls L r (arr r) (value2 J ax bx p q tab mem) old =
        .ok ((box (drawCorners false [q₀, q₁] L)).flatMap fun x => List.ofFn fun c : Fin dof =>
          ∑ a : Fin (p+1) × Fin (q+1), f [k x - p + a.1.val, j x - q + a.2.val] c *
            (pieces ax.U (k x) p a.1 (u x) * pieces bx.U (j x) q a.2 (v x))) ∧
      ∀ x ∈ box (drawCorners false [q₀, q₁] L), (∃ s t, x = [s, t] ∧ IsSample ax q₀ s (u x) ∧ IsSample bx q₁ t (v x)) ∧
        SpanOf ax (u x) (k x) ∧ SpanOf bx (v x) (j x) := by
  obtain ⟨u, k, h1, h2⟩ := C83_samples S [q₀, q₁] (.cons hq₀ (.cons hq₁ .nil)) debug [(dof, f)] arr hst (value2 J ax bx p q tab mem) old r L h
  have hw := (setup_wf S ax (by simp)).legal.sorted
  have hw' := (setup_wf S bx (by simp)).legal.sorted
  refine ⟨fun x => (u x).headD 0, fun x => (u x).tail.headD 0, fun x => (k x).headD 0, fun x => (k x).tail.headD 0, ?_, ?_⟩
  · rw [h1]
    congr 1
    rw [List.flatMap_def, List.flatMap_def]
    congr 1
    apply List.map_congr_left
    intro x hx
    obtain ⟨-, hs⟩ := h2 x hx
    dsimp only
    generalize u x = us at hs
    generalize k x = ks at hs
    cases hs with
    | cons a b => cases b with
      | cons a' b' => cases b' with
        | nil =>
          obtain ⟨v, v1, v2⟩ := C52_value_2d J ax bx p q hp hq hw hw' a a' f 0 0 (by omega) (by omega) false false (by simp) tab mem
          refine Eq.trans (congrArg entries v1) ?_
          unfold entries
          dsimp only
          congr 1
          funext c
          exact v2 [] c rfl
  · intro x hx
    obtain ⟨h3, h4⟩ := h2 x hx
    dsimp only
    generalize u x = us at h3 h4
    generalize k x = ks at h4
    cases h3 with
    | cons a b => cases b with
      | cons a' b' => cases b' with
        | nil => cases h4 with
          | cons c d => cases d with
            | cons c' d' => exact ⟨⟨_, _, rfl, a, a'⟩, c, c'⟩

/-- **C83**, drawn values in three dimensions. -/
theorem C83_values_3d (ax bx cx : Axis ℝ) (S : Setup g2 g3 false size procs axes [ax, bx, cx] Ls) (q₀ q₁ q₂ : Int) (hq₀ : 1 ≤ q₀) (hq₁ : 1 ≤ q₁) (hq₂ : 1 ≤ q₂) (debug : Bool)
    (f : List Int → Nat → ℝ) (arr : Nat → List (Nat × List ℝ)) (hst : AllStore Ls arr [(dof, f)]) (p q s : Nat) (hp : ax.p = p) (hq : bx.p = q) (hs : cx.p = s)
    (J : Bsp.Junk ℝ) (tab : Ker.Tab ℝ 3 (Fin (p+1) × Fin (q+1) × Fin (s+1))) (mem : List (Fin 3) → Fin dof → ℝ) (old : List (List ℝ)) (r : Nat) (L : Layout ℝ) (h : Ls[r]? = some L) :
    ∃ (u v w : List Int → ℝ) (k j i : List Int → Int),
      drawRank debug false [q₀, q₁, q₂] [q₀, q₁, q₂] Ls L r (arr r) (value3 J ax bx cx p q s tab mem) old =
        .ok ((box (drawCorners false [q₀, q₁, q₂] L)).flatMap fun x => List.ofFn fun c : Fin dof =>
          ∑ a : Fin (p+1) × Fin (q+1) × Fin (s+1), f [k x - p + a.1.val, j x - q + a.2.1.val, i x - s + a.2.2.val] c *
            (pieces ax.U (k x) p a.1 (u x) * pieces bx.U (j x) q a.2.1 (v x) * pieces cx.U (i x) s a.2.2 (w x))) ∧
      ∀ x ∈ box (drawCorners false [q₀, q₁, q₂] L), (∃ x₀ x₁ x₂, x = [x₀, x₁, x₂] ∧ IsSample ax q₀ x₀ (u x) ∧ IsSample bx q₁ x₁ (v x) ∧ IsSample cx q₂ x₂ (w x)) ∧
        SpanOf ax (u x) (k x) ∧ SpanOf bx (v x) (j x) ∧ SpanOf cx (w x) (i x) := by
  obtain ⟨u, k, h1, h2⟩ := C83_samples S [q₀, q₁, q₂] (.cons hq₀ (.cons hq₁ (.cons hq₂ .nil))) debug [(dof, f)] arr hst (value3 J ax bx cx p q s tab mem) old r L h
  have hw := (setup_wf S ax (by simp)).legal.sorted
  have hw' := (setup_wf S bx (by simp)).legal.sorted
  have hw'' := (setup_wf S cx (by simp)).legal.sorted
  refine ⟨fun x => (u x).headD 0, fun x => (u x).tail.headD 0, fun x => (u x).tail.tail.headD 0,
    fun x => (k x).headD 0, fun x => (k x).tail.headD 0, fun x => (k x).tail.tail.headD 0, ?_, ?_⟩
  · rw [h1]
    congr 1
    rw [List.flatMap_def, List.flatMap_def]
    congr 1
    apply List.map_congr_left
    intro x hx
    obtain ⟨-, hs'⟩ := h2 x hx
    dsimp only
    generalize u x = us at hs'
    generalize k x = ks at hs'
    cases hs' with
    | cons a b => cases b with
      | cons a' b' => cases b' with
        | cons a'' b'' => cases b'' with
          | nil =>
            obtain ⟨v, v1, v2⟩ := C52_value_3d J ax bx cx p q s hp hq hs hw hw' hw'' a a' a'' f 0 0 (by omega) (by omega) false false (by simp) tab mem
            refine Eq.trans (congrArg entries v1) ?_
            unfold entries
            dsimp only
            congr 1
            funext c
            exact v2 [] c rfl
  · intro x hx
    obtain ⟨h3, h4⟩ := h2 x hx
    dsimp only
    generalize u x = us at h3 h4
    generalize k x = ks at h4
    cases h3 with
    | cons a b => cases b with
      | cons a' b' => cases b' with
        | cons a'' b'' => cases b'' with
          | nil => cases h4 with
            | cons c d => cases d with
              | cons c' d' => cases d' with
                | cons c'' d'' => exact ⟨⟨_, _, _, rfl, a, a', a''⟩, c, c', c''⟩

end

/-! ### Concrete cases -/

/-- Two processes, resolution 3: the hypotheses are met. -/
example : ∃ cs, drawDM false [3] [Blk.exB0, Blk.exB1] Blk.exB1 1 = .ok cs :=
  ⟨_, ((C83_draw_dm Blk.exSetupB [3] (.cons (by omega) .nil)).1 1 _ rfl).2⟩

/-- Four processes in two directions, one of them periodic: the samples of all of them, for every field. -/
example (g2 : Guess2) (g3 : Guess3) (f : List Int → Nat → Rat) : ∃ Ls arr, Setup g2 g3 false 4 [2,2] [exAx0, exAx1] exAxs Ls ∧
    Res1 exAxs [2, 1] ∧ AllStore Ls arr [(1, f)] := by
  obtain ⟨Ls, S⟩ := exSetup g2 g3
  refine ⟨Ls, fun r => match Ls[r]? with
    | some L => [(1, (List.range (Spec.prod (L.dir.map Dir.geomGwidth)).toNat).map fun (n : Nat) => f (plus (L.dir.map Dir.geomGstart) (coords (L.dir.map Dir.geomGwidth) n)) 0)]
    | none => [], S, .cons (by omega) (.cons (by omega) .nil), ?_⟩
  intro r L h
  dsimp only
  rw [h]
  refine .cons ⟨rfl, ?_⟩ .nil
  intro y c hy hc
  obtain rfl : c = 0 := by omega
  have hb := rel_inBox hy
  obtain ⟨f0, f1⟩ := flat_range hb
  dsimp only
  rw [List.getElem?_map, List.getElem?_range (by omega), Option.map_some]
  rw [Int.toNat_of_nonneg (by omega), show flat (L.dir.map Dir.geomGwidth) (rel (L.dir.map Dir.geomGstart) y) * ((1:Nat):Int) + ((0:Nat):Int) =
    lin (L.dir.map Dir.geomGwidth) (rel (L.dir.map Dir.geomGstart) y) by rw [flat_eq_lin]; push_cast; ring, coords_lin hb]
  congr 2
  clear hb f0 f1 h
  generalize L.dir.map Dir.geomGwidth = w at hy
  generalize L.dir.map Dir.geomGstart = s at hy ⊢
  induction hy with
  | nil => rfl
  | cons a b ih =>
    unfold plus rel at *
    simp only [List.zipWith_cons_cons, ih]
    congr 1
    ring

/-- With collocation, one direction periodic: all Greville points are in the domain. -/
example : ∃ Ls, Setup exactGuess2 exactGuess3 true 4 [2,2] [exAx0, exAx1] exAxs Ls ∧ Res1 exAxs [2, 1] ∧
    ∀ x, InBox (exAxs.map Axis.nnp) x → InDomain exAxs (List.zipWith (fun (ax : Axis Rat) i => greville (i + shiftOf true ax) ax.p ax.U) exAxs x) := by
  obtain ⟨Ls, S⟩ := exSetupC
  refine ⟨Ls, S, .cons (by omega) (.cons (by omega) .nil), ?_⟩
  intro x hx
  unfold exAxs at *
  simp only [List.map_cons, List.map_nil] at hx
  cases hx with
  | @cons _ i _ is a b => cases b with
    | @cons _ j _ js c d =>
      cases d
      refine .cons ?_ (.cons ?_ .nil)
      · have h6 : i < 6 := lt_of_lt_of_le a.2 (by decide +kernel)
        have h0 : 0 ≤ i := a.1
        clear * - h0 h6
        interval_cases i <;> decide +kernel
      · have h3 : j < 3 := lt_of_lt_of_le c.2 (by decide +kernel)
        have h0 : 0 ≤ j := c.1
        clear * - h0 h3
        interval_cases j <;> decide +kernel

end PetIGA.Dmda
