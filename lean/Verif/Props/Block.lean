import Verif.Model.Block
import Verif.Lemmas.Assemble
import Verif.Props.Assemble
import Mathlib.Data.List.Nodup
import Mathlib.Tactic.Ring
import Mathlib.Tactic.Linarith
/-! Property theorems about the index sets of the block preconditioners (C60). -/
set_option linter.unusedSectionVars false
namespace PetIGA.Blk
open PetIGA.Spec PetIGA.Part PetIGA.Lay PetIGA.Ax PetIGA.Grid PetIGA.Asm

/-- Node `y` differs from node `a` by at most the overlap in every direction. -/
inductive Near : List Int → List Int → List Int → Prop
  | nil : Near [] [] []
  | cons {o a y : Int} {os as ys : List Int} : a - o ≤ y ∧ y ≤ a + o → Near os as ys → Near (o :: os) (a :: as) (y :: ys)

theorem mem_boxRev : ∀ (l : List (Int × Int)) (x : List Int), x ∈ boxRev l ↔ InBlock (l.map Prod.fst) (l.map Prod.snd) x
  | [], x => by
    simp only [boxRev, List.mem_singleton, List.map_nil]
    constructor
    · rintro rfl; exact .nil
    · intro h; cases h; rfl
  | (s, w) :: l, x => by
    simp only [boxRev, List.mem_flatMap, List.mem_range, List.mem_map, List.map_cons]
    constructor
    · rintro ⟨k, hk, is, his, rfl⟩
      exact .cons (by omega) ((mem_boxRev l is).1 his)
    · intro h
      cases h with
      | @cons _ _ i _ _ is h1 h2 =>
        exact ⟨(i - s).toNat, by omega, is, (mem_boxRev l is).2 h2, by
          rw [show s + ((i - s).toNat : Int) = i by omega]⟩

theorem nodup_boxRev : ∀ (l : List (Int × Int)), (boxRev l).Nodup
  | [] => by simp [boxRev]
  | (s, w) :: l => by
    unfold boxRev
    rw [List.nodup_flatMap]
    constructor
    · intro k _
      rw [List.nodup_map_iff_inj_on (nodup_boxRev l)]
      intro a _ b _ h
      simpa using h
    · rw [List.pairwise_iff_getElem]
      intro a b ha hb hab
      simp only [Function.onFun, List.disjoint_left, List.mem_map, List.getElem_range]
      rintro x ⟨u, _, rfl⟩ ⟨v, _, h⟩
      simp only [List.cons.injEq] at h
      omega

theorem length_boxRev : ∀ (w : List (Int × Int)) (ovs A : List Int), w.length = ovs.length → A.length = ovs.length →
    (∀ o ∈ ovs, 0 ≤ o) → ((boxRev (ranges w ovs A)).length : Int) ≤ prod (ovs.map fun o => 2 * o + 1)
  | [], [], [], _, _, _ => by simp [ranges, boxRev, prod]
  | (s, v) :: w, o :: os, a :: as, h1, h2, h => by
    have ih := length_boxRev w os as (by simpa using h1) (by simpa using h2) (fun q hq => h q (by simp [hq]))
    have h0 := h o (by simp)
    simp only [ranges, boxRev, List.map_cons, prod]
    rw [List.length_flatMap]
    simp only [List.length_map, List.map_const', List.sum_replicate, List.length_range, smul_eq_mul]
    push_cast
    apply mul_le_mul _ ih (by omega) (by omega)
    omega

theorem near_length {o a y : List Int} (h : Near o a y) : y.length = o.length ∧ a.length = o.length := by
  induction h with
  | nil => simp
  | cons _ _ ih => simp [ih]

theorem mem_ranges : ∀ (w : List (Int × Int)) (ovs A x : List Int), w.length = ovs.length → A.length = ovs.length →
    (x ∈ boxRev (ranges w ovs A) ↔ Near ovs A x ∧ InBlock (w.map Prod.fst) (w.map Prod.snd) x)
  | [], [], [], x, _, _ => by
    simp only [ranges, boxRev, List.mem_singleton, List.map_nil]
    constructor
    · rintro rfl; exact ⟨.nil, .nil⟩
    · rintro ⟨_, h⟩; cases h; rfl
  | (s, v) :: w, o :: os, a :: as, x, h1, h2 => by
    have ih := fun x => mem_ranges w os as x (by simpa using h1) (by simpa using h2)
    rw [mem_boxRev]
    simp only [ranges, List.map_cons]
    constructor
    · intro h
      cases h with
      | @cons _ _ i _ _ is b1 b2 =>
        rw [← mem_boxRev, ih] at b2
        exact ⟨.cons (by omega) b2.1, .cons (by omega) b2.2⟩
    · rintro ⟨h, h'⟩
      cases h with
      | cons b1 b2 =>
        cases h' with
        | cons c1 c2 =>
          refine .cons (by omega) ?_
          rw [← mem_boxRev, ih]
          exact ⟨b2, c2⟩

theorem bufferSize_eq (bs : Nat) (ovs : List Int) : bufferSize bs ovs = bs * prod (ovs.map fun o => 2 * o + 1) := by
  unfold bufferSize
  rw [← foldl_mul, List.foldl_map]

/-- The loop over local nodes, `nodes` any list of positions in the map. -/
theorem entries {α : Type} (lg : List Int) (bs : Nat) (a0 a1 : Int) (nodes : List α) (at_ : α → Int) (glob : α → Int)
    (h : ∀ x ∈ nodes, 0 ≤ at_ x ∧ lg[(at_ x).toNat]? = some (glob x)) (hd : nodes.Nodup) :
    ∃ idx : List Int, collect (nodes.map fun x => entry lg bs a0 a1 (at_ x)) = .ok idx ∧
      idx.length ≤ bs * nodes.length ∧
      (∀ i, i ∈ idx ↔ ∃ x ∈ nodes, ∃ c : Nat, c < bs ∧ (a0 ≤ glob x ∧ glob x < a1) ∧ i = bs * glob x + c) ∧
      ((∀ x ∈ nodes, ∀ y ∈ nodes, a0 ≤ glob x → glob x < a1 → glob x = glob y → x = y) → idx.Nodup) := by
  have hc := collect_ok (fun x => entry lg bs a0 a1 (at_ x))
    (fun x => if glob x < a0 ∨ glob x ≥ a1 then [] else (List.range bs).map fun (c : Nat) => (c:Int) + bs * glob x) nodes (by
      intro x hx
      obtain ⟨h0, h1⟩ := h x hx
      unfold entry
      rw [if_neg (by omega), h1]
      dsimp only
      split_ifs <;> rfl)
  refine ⟨_, hc, ?_, ?_, ?_⟩
  · clear hc hd h
    induction nodes with
    | nil => simp
    | cons x l ih =>
      rw [List.flatMap_cons, List.length_append, List.length_cons]
      have : (if glob x < a0 ∨ glob x ≥ a1 then [] else (List.range bs).map fun (c : Nat) => (c:Int) + bs * glob x).length ≤ bs := by
        split_ifs <;> simp
      rw [Nat.mul_succ]
      omega
  · intro i
    rw [List.mem_flatMap]
    constructor
    · rintro ⟨x, hx, hi⟩
      split_ifs at hi with hh
      · simp at hi
      · simp only [List.mem_map, List.mem_range] at hi
        obtain ⟨c, hc', rfl⟩ := hi
        exact ⟨x, hx, c, hc', by omega, by ring⟩
    · rintro ⟨x, hx, c, hc', hr, rfl⟩
      refine ⟨x, hx, ?_⟩
      rw [if_neg (by omega)]
      simp only [List.mem_map, List.mem_range]
      exact ⟨c, hc', by ring⟩
  · intro inj
    rw [List.nodup_flatMap]
    constructor
    · intro x _
      split_ifs
      · simp
      · rw [List.nodup_map_iff_inj_on List.nodup_range]
        intro a _ b _ hab; omega
    · refine List.Pairwise.imp_of_mem ?_ hd
      intro x y hx hy hxy
      simp only [Function.onFun, List.disjoint_left]
      intro i hi hi'
      split_ifs at hi with h1
      · simp at hi
      · split_ifs at hi' with h2
        · simp at hi'
        · simp only [List.mem_map, List.mem_range] at hi hi'
          obtain ⟨c, hc1, rfl⟩ := hi
          obtain ⟨c', hc2, he⟩ := hi'
          have := block_inj hc1 hc2 (b := glob x) (b' := glob y) (by linarith)
          exact hxy (inj x hx y hy (by omega) (by omega) this.1)

section
variable {Ns : List Int} {W : World}

theorem index_eq (g : List GDir) (x : List Int) : index (gbox g) x = pos (gbox g) x := by
  unfold index pos
  rw [natural_one]; rfl

/-- **C60**, one block.  `W` is any decomposition of the node grid, `g'` any window of ghosted nodes that wraps into
the grid.  The block of node `A` on process `r` never reads outside the map nor writes outside the index array; it
consists of the unknowns of the nodes of the window within the overlap of `A` that this process owns; no unknown is
repeated unless two nodes of that box wrap to the same owned node. -/
theorem C60_block (D : Decomposed Ns W) (hNs : ∀ n ∈ Ns, 1 ≤ n) (bs : Nat) (r : Nat) (hr : r < W.length)
    (g' : List GDir) (hs : sizes g' = Ns) (hw : ∀ y, InBlock (g'.map GDir.gstart) (g'.map GDir.gwidth) y → InBox Ns (wrapAll Ns y))
    (ovs A : List Int) (ho : ∀ o ∈ ovs, 0 ≤ o) (hl : g'.length = ovs.length) (hA : A.length = ovs.length) :
    ∃ idx : List Int, computeOverlap (lgmap W g') bs (offset W r) (offset W (r+1)) (gbox g') ovs A (bufferSize bs ovs) = .ok idx ∧
      (∀ i : Int, i ∈ idx ↔ ∃ (y : List Int) (c : Nat), Near ovs A y ∧
        InBlock (g'.map GDir.gstart) (g'.map GDir.gwidth) y ∧ InBlock (ownStart W r) (ownWidth W r) (wrapAll Ns y) ∧
        c < bs ∧ i = bs * appToPetsc W (flat Ns (wrapAll Ns y)) + c) ∧
      ((∀ y y', Near ovs A y → Near ovs A y' → InBlock (g'.map GDir.gstart) (g'.map GDir.gwidth) y →
        InBlock (g'.map GDir.gstart) (g'.map GDir.gwidth) y' → InBlock (ownStart W r) (ownWidth W r) (wrapAll Ns y) →
        wrapAll Ns y = wrapAll Ns y' → y = y') → idx.Nodup) := by
  obtain ⟨-, inj, -, own, -, -, -⟩ := C26_global_numbering _ _ D hNs
  have hlg : (gbox g').length = ovs.length := by unfold gbox; rw [List.length_map, hl]
  have hmem : ∀ x, x ∈ boxRev (ranges (gbox g') ovs A) ↔ Near ovs A x ∧ InBlock (g'.map GDir.gstart) (g'.map GDir.gwidth) x := by
    intro x
    rw [mem_ranges _ _ _ _ hlg hA, gbox_fst, gbox_snd]
  obtain ⟨idx, h1, h2, h3, h4⟩ := entries (lgmap W g') bs (offset W r) (offset W (r+1)) (boxRev (ranges (gbox g') ovs A))
    (index (gbox g')) (fun y => appToPetsc W (flat Ns (wrapAll Ns y))) (by
      intro x hx
      have hb := ((hmem x).1 hx).2
      obtain ⟨p0, p1⟩ := pos_get (l := gbox g') (x := x) (by rw [mem_box, gbox_fst, gbox_snd]; exact hb)
      rw [index_eq]
      refine ⟨p0, ?_⟩
      unfold lgmap
      rw [ghostIndices_one, List.map_map, List.getElem?_map, p1, hs]
      rfl) (nodup_boxRev _)
  refine ⟨idx, ?_, ?_, ?_⟩
  · unfold computeOverlap
    rw [h1]
    have hb := length_boxRev (gbox g') ovs A hlg hA ho
    show store _ idx = _
    unfold store
    rw [if_pos]
    rw [bufferSize_eq]
    calc (idx.length : Int) ≤ ((bs * (boxRev (ranges (gbox g') ovs A)).length : Nat) : Int) := by exact_mod_cast h2
      _ ≤ _ := by push_cast; exact mul_le_mul_of_nonneg_left hb (by omega)
  · intro i
    rw [h3]
    constructor
    · rintro ⟨x, hx, c, hc, hr', rfl⟩
      obtain ⟨n1, n2⟩ := (hmem x).1 hx
      exact ⟨x, c, n1, n2, (own r _ hr (hw x n2)).2 hr', hc, rfl⟩
    · rintro ⟨y, c, n1, n2, n3, hc, rfl⟩
      exact ⟨y, (hmem y).2 ⟨n1, n2⟩, c, hc, (own r _ hr (hw y n2)).1 n3, rfl⟩
  · intro hi
    apply h4
    intro x hx y hy g0 g1 he
    obtain ⟨n1, n2⟩ := (hmem x).1 hx
    obtain ⟨m1, m2⟩ := (hmem y).1 hy
    exact hi x y n1 m1 n2 m2 ((own r _ hr (hw x n2)).2 ⟨g0, g1⟩) (inj _ _ (hw x n2) (hw y m2) he)

end


/-! ### After a setup -/

/-- The effective overlap is half the degree (rounded down) when a negative one is requested, and otherwise the
smaller of the request and the degree. -/
theorem C60_overlap (req p : Int) (hp : 1 ≤ p) :
    (req < 0 → 2 * overlapOf req p ≤ p ∧ p ≤ 2 * overlapOf req p + 1) ∧
    (0 ≤ req → overlapOf req p ≤ req ∧ overlapOf req p ≤ p ∧ (overlapOf req p = req ∨ overlapOf req p = p)) ∧
    0 ≤ overlapOf req p ∧ overlapOf req p ≤ p := by
  unfold overlapOf
  rw [Int.tdiv_eq_ediv_of_nonneg (by omega)]
  split_ifs <;> omega

section
variable {K : Type} [Field K] [LinearOrder K] [IsStrictOrderedRing K]
variable {g2 : Guess2} {g3 : Guess3} {colloc : Bool} {size : Int} {procs : List Int} {axes axs : List (Axis K)}
  {Ls : List (Layout K)}

/-- What the layout of a direction provides, with the position of the owned range. -/
structure DirW (colloc : Bool) (ax : Axis K) (d : Dir) : Prop where
  ok : DirOK' colloc ax d
  own : 0 ≤ d.nodeLstart ∧ 1 ≤ d.nodeLwidth ∧ d.nodeLstart + d.nodeLwidth ≤ ax.nnp
  gal : colloc = false → d.nodeGstart = d.nodeLstart

theorem dirW {ax : Axis K} {P r : Int} (h : WF ax) (hc : Condition colloc ax) (hP : 1 ≤ P)
    (hN : P ≤ gridSize colloc ax) (h0 : 0 ≤ r) (h1 : r < P) : DirW colloc ax (dirAt colloc ax P r) := by
  refine ⟨dirOK' colloc ax P r h hc hP hN h0 h1, ?_, ?_⟩
  · have T := node_tiles colloc h hP hN (fun e => (hc.1 e).1)
    exact tiles_range T h0 h1
  · rintro rfl; rfl

/-- Properties of the directions of any process. -/
theorem setup_dirs (S : Setup g2 g3 colloc size procs axes axs Ls) {r : Nat} {L : Layout K} (h : Ls[r]? = some L)
    {R : Axis K → Dir → Prop} (hR : ∀ ax P r, WF ax → Condition colloc ax → 1 ≤ P → P ≤ gridSize colloc ax → 0 ≤ r → r < P →
      R ax (dirAt colloc ax P r)) : List.Forall₂ R axs L.dir := by
  have h1 := S.ranks.2 r L h
  have h2 := stage1_axes h1 S.set
  obtain ⟨hw, hf, hp, hall, huniq⟩ := stage1_all S.reached h1
  have hlt := (List.getElem?_eq_some_iff.1 h).1
  have hlen := S.ranks.1
  obtain ⟨c, hb, hs⟩ := hall r (by omega) (by omega)
  rw [h1] at hs
  simp only [Res.ok.injEq] at hs
  have hd : L.dir = mkDirs colloc L.axes L.procs c := by
    have := congrArg Layout.dir hs
    simpa using this
  rw [hd]
  rw [h2] at hw hf hd ⊢
  exact mkDirs_all colloc (Q := Condition colloc) (fun ax P r a b c d e f => hR ax P r a b c d e f) (fun ax ha => ⟨hw ax ha, S.cond ax ha⟩) hf hb

/-- The overlaps used on a process. -/
def overlaps (req : List Int) (axs : List (Axis K)) : List Int := List.zipWith overlapOf req (axs.map Axis.p)

theorem window_wraps {ax : Axis K} {d : Dir} (h : DirW colloc ax d) {ov i : Int}
    (hi : (window (gdir d) ov).1 ≤ i) :
    0 ≤ wrap ax.nnp i ∧ wrap ax.nnp i < ax.nnp := by
  obtain ⟨o1, o2, o3⟩ := h.own
  have hw := h.ok.ok.ghost.wrapped i
  have ho := h.ok.ok.ghost.owned
  by_cases hn : 0 ≤ i
  · unfold wrap
    rw [if_neg (by omega)]
    split_ifs with hge
    · rw [Int.tmod_eq_emod_of_nonneg hn]
      exact ⟨Int.emod_nonneg _ (by omega), Int.emod_lt_of_pos _ (by omega)⟩
    · omega
  · have : d.nodeGstart ≤ i := by
      unfold window gdir at hi
      dsimp only at hi
      split_ifs at hi <;> omega
    have := hw this (by omega)
    omega

/-- Without periodicity an index of the window that wraps to an owned node is that node. -/
theorem window_noWrap {ax : Axis K} {d : Dir} (h : DirW colloc ax d) (hper : ax.periodic = false) {ov : Int} (h0 : 0 ≤ ov) {i : Int}
    (hi : (window (gdir d) ov).1 ≤ i) (hi' : i < (window (gdir d) ov).1 + (window (gdir d) ov).2)
    (hw0 : d.nodeLstart ≤ wrap ax.nnp i) : wrap ax.nnp i = i := by
  obtain ⟨o1, o2, o3⟩ := h.own
  have hn := h.ok.ok.ghost.noWrap hper
  have ho := h.ok.ok.ghost.owned
  have hsz := h.ok.ok.size
  have g0 : 0 ≤ d.nodeGstart := by
    have := hn d.nodeGstart (le_refl _) (by omega)
    have := (h.ok.ok.ghost.wrapped d.nodeGstart (le_refl _) (by omega)).1
    omega
  have g1 : d.nodeGstart + d.nodeGwidth ≤ ax.nnp := by
    have := hn (d.nodeGstart + d.nodeGwidth - 1) (by omega) (by omega)
    have := (h.ok.ok.ghost.wrapped (d.nodeGstart + d.nodeGwidth - 1) (by omega) (by omega)).2.1
    omega
  have hi0 : 0 ≤ i := by
    unfold window gdir at hi
    dsimp only at hi
    split_ifs at hi <;> omega
  by_contra hne
  have hge : ax.nnp ≤ i := by
    by_contra hlt
    apply hne
    unfold wrap
    rw [if_neg (by omega), if_neg (by omega)]
  have hlt2 : i < 2 * ax.nnp ∧ i < ax.nnp + d.nodeLstart := by
    unfold window gdir at hi hi'
    dsimp only at hi hi'
    split_ifs at hi hi' <;> omega
  have : wrap ax.nnp i = i - ax.nnp := by
    unfold wrap
    rw [if_neg (by omega), if_pos hge, Int.tmod_eq_emod_of_nonneg hi0]
    rw [Int.emod_eq_sub_self_emod, Int.emod_eq_of_lt (by omega) (by omega)]
  omega

/-- The window of a direction covers the owned nodes: the process is not the last one in that direction, or fewer nodes
than the overlap precede it, or its ghosted range has room for the overlap. -/
def Reaches (d : Dir) (ov : Int) : Prop :=
  d.nodeLstart < ov ∨ d.nodeLstart + d.nodeLwidth < d.nodeSize ∨ d.nodeLwidth + ov ≤ d.nodeGwidth

theorem window_covers {ax : Axis K} {d : Dir} (h : DirW colloc ax d) (hper : colloc = true → ax.periodic = false) {ov : Int} (h0 : 0 ≤ ov)
    (hr : Reaches d ov) : (window (gdir d) ov).1 ≤ d.nodeLstart ∧
      d.nodeLstart + d.nodeLwidth ≤ (window (gdir d) ov).1 + (window (gdir d) ov).2 := by
  obtain ⟨o1, o2, o3⟩ := h.own
  have ho := h.ok.ok.ghost.owned
  have hsz := h.ok.ok.size
  have g0 : 0 ≤ d.nodeGstart := by
    cases colloc
    · rw [h.gal rfl]; exact o1
    · have hn := h.ok.ok.ghost.noWrap (hper rfl)
      have := hn d.nodeGstart (le_refl _) (by omega)
      have := (h.ok.ok.ghost.wrapped d.nodeGstart (le_refl _) (by omega)).1
      omega
  unfold Reaches at hr
  unfold window gdir
  dsimp only
  split_ifs <;> omega


theorem win_wraps {axs : List (Axis K)} {ds : List Dir} (h : List.Forall₂ (DirW colloc) axs ds) :
    ∀ {ovs y : List Int}, InBlock ((bbbGrid (ds.map gdir) ovs).map GDir.gstart) ((bbbGrid (ds.map gdir) ovs).map GDir.gwidth) y →
      ovs.length = axs.length → InBox (axs.map Axis.nnp) (wrapAll (axs.map Axis.nnp) y) := by
  induction h with
  | nil => intro ovs y hy _; cases hy; exact .nil
  | cons h1 h2 ih =>
    intro ovs y hy hl
    match ovs, hl with
    | o :: os, hl =>
      simp only [bbbGrid, List.map_cons, List.zipWith_cons_cons] at hy
      cases hy with
      | cons b1 b2 =>
        unfold wrapAll
        rw [List.map_cons, List.zipWith_cons_cons]
        exact .cons (window_wraps h1 b1.1) (ih b2 (by simpa using hl))

theorem win_noWrap {axs : List (Axis K)} {ds : List Dir} (h : List.Forall₂ (DirW colloc) axs ds) :
    ∀ {ovs y : List Int}, (∀ ax ∈ axs, ax.periodic = false) → (∀ o ∈ ovs, 0 ≤ o) →
      InBlock ((bbbGrid (ds.map gdir) ovs).map GDir.gstart) ((bbbGrid (ds.map gdir) ovs).map GDir.gwidth) y →
      ovs.length = axs.length →
      InBlock (ds.map Dir.nodeLstart) (ds.map Dir.nodeLwidth) (wrapAll (axs.map Axis.nnp) y) → wrapAll (axs.map Axis.nnp) y = y := by
  induction h with
  | nil => intro ovs y _ _ hy _ _; cases hy; rfl
  | @cons ax d axs ds h1 h2 ih =>
    intro ovs y hp ho hy hl hw
    match ovs, hl with
    | o :: os, hl =>
      simp only [bbbGrid, List.map_cons, List.zipWith_cons_cons] at hy
      cases hy with
      | cons b1 b2 =>
        unfold wrapAll at hw ⊢
        simp only [List.map_cons, List.zipWith_cons_cons] at hw ⊢
        cases hw with
        | cons c1 c2 =>
          rw [window_noWrap h1 (hp ax (by simp)) (ho o (by simp)) b1.1 b1.2 c1.1]
          congr 1
          exact ih (fun a ha => hp a (by simp [ha])) (fun a ha => ho a (by simp [ha])) b2 (by simpa using hl) c2

theorem win_covers {axs : List (Axis K)} {ds : List Dir} (h : List.Forall₂ (DirW colloc) axs ds) :
    ∀ {ovs y : List Int}, (∀ ax ∈ axs, colloc = true → ax.periodic = false) → (∀ o ∈ ovs, 0 ≤ o) → List.Forall₂ Reaches ds ovs →
      InBlock (ds.map Dir.nodeLstart) (ds.map Dir.nodeLwidth) y →
      InBlock ((bbbGrid (ds.map gdir) ovs).map GDir.gstart) ((bbbGrid (ds.map gdir) ovs).map GDir.gwidth) y := by
  induction h with
  | nil => intro ovs y _ _ hr hy; cases hr; cases hy; exact .nil
  | @cons ax d axs ds h1 h2 ih =>
    intro ovs y hp ho hr hy
    cases hr with
    | cons r1 r2 =>
      simp only [List.map_cons] at hy
      cases hy with
      | cons b1 b2 =>
        simp only [bbbGrid, List.map_cons, List.zipWith_cons_cons]
        refine .cons ?_ (ih (fun a ha => hp a (by simp [ha])) (fun a ha => ho a (by simp [ha])) r2 b2)
        have := window_covers h1 (hp ax (by simp)) (ho _ (by simp)) r1
        omega

theorem wrapAll_own {axs : List (Axis K)} {ds : List Dir} (h : List.Forall₂ (DirW colloc) axs ds) : ∀ {y : List Int},
    InBlock (ds.map Dir.nodeLstart) (ds.map Dir.nodeLwidth) y → wrapAll (axs.map Axis.nnp) y = y := by
  induction h with
  | nil => intro y hy; cases hy; rfl
  | cons h1 h2 ih =>
    intro y hy
    simp only [List.map_cons] at hy
    cases hy with
    | @cons _ _ i _ _ is b1 b2 =>
      unfold wrapAll at ih ⊢
      rw [List.map_cons, List.zipWith_cons_cons, ih b2]
      have := h1.own
      congr 1
      unfold wrap
      rw [if_neg (by omega), if_neg (by omega)]

theorem near_self {y : List Int} : ∀ {ovs : List Int}, (∀ o ∈ ovs, 0 ≤ o) → y.length = ovs.length → Near ovs y y := by
  induction y with
  | nil => intro ovs _ hl; cases ovs with
    | nil => exact .nil
    | cons => simp at hl
  | cons i is ih =>
    intro ovs ho hl
    cases ovs with
    | nil => simp at hl
    | cons o os =>
      have := ho o (by simp)
      exact .cons (by omega) (ih (fun a ha => ho a (by simp [ha])) (by simpa using hl))

theorem overlaps_ok {axs : List (Axis K)} (hp : ∀ ax ∈ axs, 1 ≤ ax.p) : ∀ {req : List Int}, req.length = axs.length →
    (overlaps req axs).length = axs.length ∧ ∀ o ∈ overlaps req axs, 0 ≤ o := by
  induction axs with
  | nil => intro req hl; simp [overlaps]
  | cons ax axs ih =>
    intro req hl
    cases req with
    | nil => simp at hl
    | cons q qs =>
      obtain ⟨a, b⟩ := ih (fun a ha => hp a (by simp [ha])) (req := qs) (by simpa using hl)
      unfold overlaps at a b ⊢
      rw [List.map_cons, List.zipWith_cons_cons]
      refine ⟨by simp [a], ?_⟩
      intro o ho
      rcases List.mem_cons.1 ho with rfl | ho
      · exact (C60_overlap q ax.p (hp ax (by simp))).2.2.1
      · exact b o ho

theorem sequence_ok {α β : Type} (f : β → Res α) (v : β → α) : ∀ (l : List β), (∀ b ∈ l, f b = .ok (v b)) →
    sequence (l.map f) = .ok (l.map v)
  | [], _ => rfl
  | b :: l, h => by
    rw [List.map_cons, sequence, h b (by simp), sequence_ok f v l (fun c hc => h c (by simp [hc]))]
    rfl

/-- Everything the theorems below need about process `r`. -/
theorem bbb_setup (S : Setup g2 g3 colloc size procs axes axs Ls) {r : Nat} {L : Layout K} (h : Ls[r]? = some L)
    (req : List Int) (hq : req.length = axs.length) :
    List.Forall₂ (DirW colloc) axs L.dir ∧ (world (appWorld Ls))[r]? = some (L.dir.map gdir) ∧
    ownStart (world (appWorld Ls)) r = L.dir.map Dir.nodeLstart ∧ ownWidth (world (appWorld Ls)) r = L.dir.map Dir.nodeLwidth ∧
    sizes (bbbGrid (L.dir.map gdir) (overlaps req axs)) = axs.map Axis.nnp ∧
    (bbbGrid (L.dir.map gdir) (overlaps req axs)).length = axs.length ∧
    (overlaps req axs).length = axs.length ∧ ∀ o ∈ overlaps req axs, 0 ≤ o := by
  have hd := setup_dirs S h (R := DirW colloc) (fun ax P r a b c d e f => dirW a b c d e f)
  obtain ⟨-, -, -, hg⟩ := S.get h
  have hp : ∀ ax ∈ axs, 1 ≤ ax.p := by
    intro ax ha
    obtain ⟨i, hi⟩ := List.getElem?_of_mem ha
    have hlt := (List.getElem?_eq_some_iff.1 hi).1
    have := (List.forall₂_iff_get.1 hd).2 i hlt (by rw [← hd.length_eq]; exact hlt)
    have e : axs.get ⟨i, hlt⟩ = ax := by simpa using (List.getElem?_eq_some_iff.1 hi).2
    rw [e] at this
    exact this.ok.deg
  obtain ⟨o1, o2⟩ := overlaps_ok hp hq
  refine ⟨hd, hg, ?_, ?_, ?_, ?_, o1, o2⟩
  · rw [(own_get hg).1, List.map_map]; rfl
  · rw [(own_get hg).2.1, List.map_map]; rfl
  · have key : ∀ (axs : List (Axis K)) (ds : List Dir), List.Forall₂ (DirW colloc) axs ds → ∀ ovs : List Int, ovs.length = axs.length →
        sizes (bbbGrid (ds.map gdir) ovs) = axs.map Axis.nnp := by
      intro axs ds hf
      induction hf with
      | nil => intro ovs _; simp [bbbGrid, sizes]
      | cons h1 h2 ih =>
        intro ovs hl
        match ovs, hl with
        | o :: os, hl =>
          have := ih os (by simpa using hl)
          unfold sizes bbbGrid at this ⊢
          simp only [List.map_cons, List.zipWith_cons_cons]
          rw [this, h1.ok.ok.size.symm]
          rfl
    exact key _ _ hd _ o1
  · unfold bbbGrid
    rw [List.length_zipWith, List.length_map, o1, ← hd.length_eq]; simp

/-- The blocks of a process as a function of the node. -/
theorem bbb_block (S : Setup g2 g3 colloc size procs axes axs Ls) {r : Nat} {L : Layout K} (h : Ls[r]? = some L)
    (bs : Nat) (req : List Int) (hq : req.length = axs.length) (A : List Int) (hA : A.length = axs.length) :
    ∃ idx : List Int, bbbBlock (world (appWorld Ls)) bs (L.dir.map gdir) req (axs.map Axis.p) r A = .ok idx ∧
      (∀ i : Int, i ∈ idx ↔ ∃ (y : List Int) (c : Nat), Near (overlaps req axs) A y ∧
        InBlock ((bbbGrid (L.dir.map gdir) (overlaps req axs)).map GDir.gstart) ((bbbGrid (L.dir.map gdir) (overlaps req axs)).map GDir.gwidth) y ∧
        InBlock (L.dir.map Dir.nodeLstart) (L.dir.map Dir.nodeLwidth) (wrapAll (axs.map Axis.nnp) y) ∧
        c < bs ∧ i = bs * appToPetsc (world (appWorld Ls)) (flat (axs.map Axis.nnp) (wrapAll (axs.map Axis.nnp) y)) + c) ∧
      ((∀ ax ∈ axs, ax.periodic = false) → idx.Nodup) := by
  obtain ⟨hd, hg, os, ow, hs, hl, o1, o2⟩ := bbb_setup S h req hq
  obtain ⟨D, hNs⟩ := S.grid
  have := C60_block D hNs bs r (rank_lt hg) (bbbGrid (L.dir.map gdir) (overlaps req axs)) hs
    (fun y hy => win_wraps hd hy o1) (overlaps req axs) A o2 (by rw [hl, o1]) (by rw [hA, o1])
  rw [os, ow] at this
  obtain ⟨idx, h1, h2, h3⟩ := this
  refine ⟨idx, h1, h2, fun hper => h3 ?_⟩
  intro y y' _ _ w1 w2 b1 he
  have e1 := win_noWrap hd hper o2 w1 o1 b1
  have e2 := win_noWrap hd hper o2 w2 o1 (he ▸ b1)
  rw [← e1, ← e2, he]

theorem inBlock_len {s w x : List Int} (h : InBlock s w x) : x.length = s.length := inBlock_length h

/-- The blocks of a process, one per owned node in loop order, and what each one contains. -/
theorem bbb_blocks (S : Setup g2 g3 colloc size procs axes axs Ls) {r : Nat} {L : Layout K} (h : Ls[r]? = some L)
    (bs : Nat) (req : List Int) (hq : req.length = axs.length) :
    ∃ block : List Int → List Int,
      bbbBlocks (world (appWorld Ls)) bs (L.dir.map gdir) req (axs.map Axis.p) r =
        .ok ((box (L.dir.map fun d => (d.nodeLstart, d.nodeLwidth))).map block) ∧
      ∀ A, InBlock (L.dir.map Dir.nodeLstart) (L.dir.map Dir.nodeLwidth) A →
        (∀ i : Int, i ∈ block A ↔ ∃ (y : List Int) (c : Nat), Near (overlaps req axs) A y ∧
          InBlock ((bbbGrid (L.dir.map gdir) (overlaps req axs)).map GDir.gstart) ((bbbGrid (L.dir.map gdir) (overlaps req axs)).map GDir.gwidth) y ∧
          InBlock (L.dir.map Dir.nodeLstart) (L.dir.map Dir.nodeLwidth) (wrapAll (axs.map Axis.nnp) y) ∧
          c < bs ∧ i = bs * appToPetsc (world (appWorld Ls)) (flat (axs.map Axis.nnp) (wrapAll (axs.map Axis.nnp) y)) + c) ∧
        ((∀ ax ∈ axs, ax.periodic = false) → (block A).Nodup) := by
  obtain ⟨hd, -⟩ := bbb_setup S h req hq
  have hlen : ∀ A, InBlock (L.dir.map Dir.nodeLstart) (L.dir.map Dir.nodeLwidth) A → A.length = axs.length := by
    intro A hA
    rw [inBlock_length hA, List.length_map, hd.length_eq]
  have hb := fun A hA => bbb_block S h bs req hq A (hlen A hA)
  classical
  let block : List Int → List Int := fun A =>
    if hA : InBlock (L.dir.map Dir.nodeLstart) (L.dir.map Dir.nodeLwidth) A then (hb A hA).choose else []
  have hblock : ∀ A hA, block A = (hb A hA).choose := fun A hA => dif_pos hA
  have hbox : lbox (L.dir.map gdir) = L.dir.map fun d => (d.nodeLstart, d.nodeLwidth) := by
    unfold lbox; rw [List.map_map]; rfl
  refine ⟨block, ?_, ?_⟩
  · unfold bbbBlocks
    rw [hbox]
    apply sequence_ok
    intro A hA
    rw [mem_box, List.map_map, List.map_map] at hA
    rw [hblock A hA]
    exact (hb A hA).choose_spec.1
  · intro A hA
    rw [hblock A hA]
    exact (hb A hA).choose_spec.2

/-- The owned nodes in the order of the loops over them (first direction fastest). -/
def ownedNodes (L : Layout K) : List (List Int) := box (L.dir.map fun d => (d.nodeLstart, d.nodeLwidth))

/-- `i` is unknown number `c` of the node `x`. -/
def unknown (Ls : List (Layout K)) (axs : List (Axis K)) (bs : Nat) (x : List Int) (c : Nat) : Int :=
  bs * appToPetsc (world (appWorld Ls)) (flat (axs.map Axis.nnp) x) + c

/-- **C60**, legality: after any successful setup, Galerkin or collocation, periodic or not, and for every requested
overlap, the preconditioner computes one block per owned node without reading outside its map or writing outside its
index array, and every entry of every block is an unknown of a node the process owns. -/
theorem C60_legal (S : Setup g2 g3 colloc size procs axes axs Ls) {r : Nat} {L : Layout K} (h : Ls[r]? = some L)
    (bs : Nat) (req : List Int) (hq : req.length = axs.length) :
    ∃ block : List Int → List Int,
      bbbBlocks (world (appWorld Ls)) bs (L.dir.map gdir) req (axs.map Axis.p) r = .ok ((ownedNodes L).map block) ∧
      (∀ A, A ∈ ownedNodes L ↔ InBlock (L.dir.map Dir.nodeLstart) (L.dir.map Dir.nodeLwidth) A) ∧ (ownedNodes L).Nodup ∧
      ∀ A ∈ ownedNodes L, ∀ i ∈ block A, ∃ (x : List Int) (c : Nat),
        InBlock (L.dir.map Dir.nodeLstart) (L.dir.map Dir.nodeLwidth) x ∧ c < bs ∧ i = unknown Ls axs bs x c := by
  obtain ⟨block, h1, h2⟩ := bbb_blocks S h bs req hq
  have hm : ∀ A, A ∈ ownedNodes L ↔ InBlock (L.dir.map Dir.nodeLstart) (L.dir.map Dir.nodeLwidth) A := by
    intro A
    unfold ownedNodes
    rw [mem_box, List.map_map, List.map_map]; rfl
  refine ⟨block, h1, hm, nodup_box _, ?_⟩
  intro A hA i hi
  obtain ⟨y, c, -, -, h3, h4, h5⟩ := ((h2 A ((hm A).1 hA)).1 i).1 hi
  exact ⟨_, c, h3, h4, h5⟩

/-- **C60**, content, for a process whose window reaches its owned nodes (`Reaches`) and, with collocation, without
periodic directions: the block of an owned node `A` contains all unknowns of every owned node within the overlap of
`A` – in particular of `A` itself.  Without periodic directions it contains nothing else, and nothing twice.
(Missing: with periodic directions a block may also contain nodes at the other end of the direction, and may contain
one twice when the direction has no more than twice as many nodes as the overlap.) -/
theorem C60_after_setup_partial (S : Setup g2 g3 colloc size procs axes axs Ls) {r : Nat} {L : Layout K} (h : Ls[r]? = some L)
    (bs : Nat) (req : List Int) (hq : req.length = axs.length) (hcol : ∀ ax ∈ axs, colloc = true → ax.periodic = false)
    (hR : List.Forall₂ Reaches L.dir (overlaps req axs)) :
    ∃ block : List Int → List Int,
      bbbBlocks (world (appWorld Ls)) bs (L.dir.map gdir) req (axs.map Axis.p) r = .ok ((ownedNodes L).map block) ∧
      ∀ A, InBlock (L.dir.map Dir.nodeLstart) (L.dir.map Dir.nodeLwidth) A →
        (∀ x c, InBlock (L.dir.map Dir.nodeLstart) (L.dir.map Dir.nodeLwidth) x → Near (overlaps req axs) A x → c < bs →
          unknown Ls axs bs x c ∈ block A) ∧
        (∀ c, c < bs → unknown Ls axs bs A c ∈ block A) ∧
        ((∀ ax ∈ axs, ax.periodic = false) → (block A).Nodup ∧ ∀ i : Int, i ∈ block A ↔
          ∃ (x : List Int) (c : Nat), InBlock (L.dir.map Dir.nodeLstart) (L.dir.map Dir.nodeLwidth) x ∧
            Near (overlaps req axs) A x ∧ c < bs ∧ i = unknown Ls axs bs x c) := by
  obtain ⟨hd, -, -, -, -, -, o1, o2⟩ := bbb_setup S h req hq
  obtain ⟨block, h1, h2⟩ := bbb_blocks S h bs req hq
  refine ⟨block, h1, ?_⟩
  intro A hA
  obtain ⟨h3, h4⟩ := h2 A hA
  have hin : ∀ x c, InBlock (L.dir.map Dir.nodeLstart) (L.dir.map Dir.nodeLwidth) x → Near (overlaps req axs) A x → c < bs →
      unknown Ls axs bs x c ∈ block A := by
    intro x c hx hn hc
    rw [h3]
    refine ⟨x, c, hn, win_covers hd hcol o2 hR hx, ?_, hc, ?_⟩
    · rw [wrapAll_own hd hx]; exact hx
    · rw [wrapAll_own hd hx]; rfl
  have hlen : A.length = (overlaps req axs).length := by
    rw [inBlock_length hA, List.length_map, o1, hd.length_eq]
  refine ⟨hin, fun c hc => hin A c hA (near_self o2 hlen) hc, fun hper => ⟨h4 hper, fun i => ?_⟩⟩
  constructor
  · intro hi
    obtain ⟨y, c, n1, n2, n3, n4, n5⟩ := (h3 i).1 hi
    have e := win_noWrap hd hper o2 n2 o1 n3
    rw [e] at n3 n5
    exact ⟨y, c, n3, n1, n4, n5⟩
  · rintro ⟨x, c, hx, hn, hc, rfl⟩
    exact hin x c hx hn hc

theorem win_misses {axs : List (Axis K)} {ds : List Dir} (h : List.Forall₂ (DirW colloc) axs ds) :
    ∀ {ovs y : List Int} (k : Nat) (d : Dir) (o : Int), InBlock ((bbbGrid (ds.map gdir) ovs).map GDir.gstart) ((bbbGrid (ds.map gdir) ovs).map GDir.gwidth) y →
      ds[k]? = some d → ovs[k]? = some o → ¬ Reaches d o → ∃ v, y[k]? = some v ∧ v < d.nodeLstart + d.nodeLwidth - 1 := by
  induction h with
  | nil => intro ovs y k d o _ h; simp at h
  | @cons ax d axs ds h1 h2 ih =>
    intro ovs y k d' o hy hk ho hr
    cases ovs with
    | nil => simp at ho
    | cons o' os =>
      simp only [bbbGrid, List.map_cons, List.zipWith_cons_cons] at hy
      cases hy with
      | @cons _ _ i _ _ is b1 b2 =>
        cases k with
        | zero =>
          simp only [List.getElem?_cons_zero, Option.some.injEq] at hk ho
          subst hk; subst ho
          refine ⟨i, rfl, ?_⟩
          have hsz := h1.ok.ok.size
          have hown := h1.own
          unfold Reaches at hr
          unfold window gdir at b1
          dsimp only at b1
          split_ifs at b1 <;> omega
        | succ k =>
          simp only [List.getElem?_cons_succ] at hk ho ⊢
          exact ih k d' o b2 hk ho hr

/-- The last owned node. -/
def lastNode (L : Layout K) : List Int := L.dir.map fun d => d.nodeLstart + d.nodeLwidth - 1

theorem lastNode_own {axs : List (Axis K)} {ds : List Dir} (h : List.Forall₂ (DirW colloc) axs ds) :
    InBlock (ds.map Dir.nodeLstart) (ds.map Dir.nodeLwidth) (ds.map fun d => d.nodeLstart + d.nodeLwidth - 1) := by
  induction h with
  | nil => exact .nil
  | cons h1 h2 ih =>
    have := h1.own
    exact .cons (by dsimp only; omega) ih

/-- **C60**, refuted otherwise: without periodic directions, on a process whose window does not reach its owned nodes in
some direction, the last owned node is in no block at all – not even in the one centred at it –, so the preconditioner
matrix has a zero row and column there. -/
theorem C60_refuted (S : Setup g2 g3 colloc size procs axes axs Ls) {r : Nat} {L : Layout K} (h : Ls[r]? = some L)
    (bs : Nat) (req : List Int) (hq : req.length = axs.length) (hper : ∀ ax ∈ axs, ax.periodic = false)
    (k : Nat) (d : Dir) (o : Int) (hd : L.dir[k]? = some d) (ho : (overlaps req axs)[k]? = some o) (hR : ¬ Reaches d o) :
    InBlock (L.dir.map Dir.nodeLstart) (L.dir.map Dir.nodeLwidth) (lastNode L) ∧
    ∃ B : List (List Int), bbbBlocks (world (appWorld Ls)) bs (L.dir.map gdir) req (axs.map Axis.p) r = .ok B ∧
      ∀ idx ∈ B, ∀ c, c < bs → unknown Ls axs bs (lastNode L) c ∉ idx := by
  obtain ⟨hD, hg, -, -, -, -, o1, o2⟩ := bbb_setup S h req hq
  obtain ⟨block, h1, h2⟩ := bbb_blocks S h bs req hq
  have hlast := lastNode_own hD
  refine ⟨hlast, _, h1, ?_⟩
  intro idx hidx c hc hmem
  rw [List.mem_map] at hidx
  obtain ⟨A, hA, rfl⟩ := hidx
  rw [mem_box, List.map_map, List.map_map] at hA
  obtain ⟨y, c', n1, n2, n3, n4, n5⟩ := ((h2 A hA).1 _).1 hmem
  have e := win_noWrap hD hper o2 n2 o1 n3
  rw [e] at n3 n5
  obtain ⟨D, hNs⟩ := S.grid
  obtain ⟨-, inj, -⟩ := C26_global_numbering _ _ D hNs
  have hbl := own_blocks D hg
  rw [List.map_map, List.map_map] at hbl
  have := (block_inj (bs := bs) hc n4 (by unfold unknown at n5; exact n5)).1
  have e2 := inj _ _ (inBlock_inBox hbl hlast) (inBlock_inBox hbl n3) this
  obtain ⟨v, hv, hlt⟩ := win_misses hD k d o n2 hd ho hR
  rw [← e2, List.getElem?_map, hd] at hv
  simp only [Option.map_some, Option.some.injEq] at hv
  omega

/-- When the window fails: Galerkin without periodicity, the last process in a direction, with an effective overlap of
at least one and at most the number of nodes that precede the process. -/
theorem C60_last_process (S : Setup g2 g3 false size procs axes axs Ls) {r : Nat} {L : Layout K} (h : Ls[r]? = some L)
    (hper : ∀ ax ∈ axs, ax.periodic = false) (k : Nat) (d : Dir) (o : Int) (hd : L.dir[k]? = some d)
    (hlast : d.nodeLstart + d.nodeLwidth = d.nodeSize) (h1 : 1 ≤ o) (h2 : o ≤ d.nodeLstart) : ¬ Reaches d o := by
  have hD := setup_dirs S h (R := DirW false) (fun ax P r a b c d e f => dirW a b c d e f)
  have hk := (List.getElem?_eq_some_iff.1 hd).1
  have hd' := (List.getElem?_eq_some_iff.1 hd).2
  have hk' : k < axs.length := by rw [hD.length_eq]; exact hk
  have hw := (List.forall₂_iff_get.1 hD).2 k hk' hk
  simp only [List.get_eq_getElem] at hw
  rw [hd'] at hw
  have hn := hw.ok.ok.ghost.noWrap (hper _ (List.getElem_mem hk'))
  have ho := hw.ok.ok.ghost.owned
  have hown := hw.own
  have e := hn (d.nodeGstart + d.nodeGwidth - 1) (by omega) (by omega)
  have e2 := (hw.ok.ok.ghost.wrapped (d.nodeGstart + d.nodeGwidth - 1) (by omega) (by omega)).2.1
  have e3 := hw.gal rfl
  have e4 := hw.ok.ok.size
  unfold Reaches
  omega

/-! Non-vacuity: degree 2, four elements, six nodes on two processes (nodes 0–1 and 2–5), default overlap 1. -/

def exAxB : Axis Rat := (Ax.step (Ax.step (Ax.create fun _ => 0) (.setDegree 2)).2 (.initUniform (fun _ => 0) 4 0 1 1)).2

theorem exAxB_reached : ∀ ax ∈ [exAxB], Reached ax := by
  intro ax h
  simp only [List.mem_cons, List.not_mem_nil, or_false] at h
  subst h
  exact .step _ _ (.step _ _ (.create _) (by decide +kernel)) (by decide +kernel)

/-- The layout in a successful result. -/
def lay : Res (Layout Rat) → Layout Rat
  | .ok L => L
  | _ => ⟨[], [], [], []⟩

def exB0 : Layout Rat := lay (stage1 exactGuess2 exactGuess3 false 2 0 [2] [exAxB])
def exB1 : Layout Rat := lay (stage1 exactGuess2 exactGuess3 false 2 1 [2] [exAxB])

theorem exB_dir : exB0.dir = [⟨4, 0, 2, 6, 0, 2, 0, 4, 0, 6, 0, 2, 0, 4⟩] ∧ exB1.dir = [⟨4, 2, 2, 6, 2, 4, 2, 4, 0, 6, 2, 4, 2, 4⟩] := by
  decide +kernel

theorem exSetupB : Setup exactGuess2 exactGuess3 false 2 [2] [exAxB] [(Ax.setUp exAxB).2] [exB0, exB1] := by
  have hL0 : stage1 exactGuess2 exactGuess3 false 2 0 [2] [exAxB] = .ok exB0 := rfl
  have hL1 : stage1 exactGuess2 exactGuess3 false 2 1 [2] [exAxB] = .ok exB1 := rfl
  refine ⟨exAxB_reached, by simp, rfl, by omega, ⟨rfl, ?_⟩, ?_⟩
  · intro r L h
    match r, h with
    | 0, h => simp only [List.getElem?_cons_zero, Option.some.injEq] at h; rw [← h]; exact hL0
    | 1, h => simp only [List.getElem?_cons_succ, List.getElem?_cons_zero, Option.some.injEq] at h; rw [← h]; exact hL1
    | (n+2), h => simp at h
  · intro ax h
    simp only [List.mem_cons, List.not_mem_nil, or_false] at h
    subst h
    exact ⟨fun _ => by decide +kernel, by simp⟩

/-- The first process meets the hypotheses of `C60_after_setup_partial`, the second those of `C60_refuted`. -/
theorem C60_example :
    Setup exactGuess2 exactGuess3 false 2 [2] [exAxB] [(Ax.setUp exAxB).2] [exB0, exB1] ∧
    (∀ ax ∈ [(Ax.setUp exAxB).2], ax.periodic = false) ∧
    List.Forall₂ Reaches exB0.dir (overlaps [-1] [(Ax.setUp exAxB).2]) ∧
    ¬ List.Forall₂ Reaches exB1.dir (overlaps [-1] [(Ax.setUp exAxB).2]) ∧
    bbbBlocks (world (appWorld [exB0, exB1])) 1 (exB0.dir.map gdir) [-1] [2] 0 = .ok [[0, 1], [0, 1]] ∧
    bbbBlocks (world (appWorld [exB0, exB1])) 1 (exB1.dir.map gdir) [-1] [2] 1 = .ok [[2, 3], [2, 3, 4], [3, 4], [4]] := by
  obtain ⟨h0, h1⟩ := exB_dir
  have eo : overlaps [-1] [(Ax.setUp exAxB).2] = [1] := by decide +kernel
  have ew : world (appWorld [exB0, exB1]) = [[⟨6, 0, 2, 0, 4⟩], [⟨6, 2, 4, 2, 4⟩]] := by
    simp only [world, appWorld, List.map_cons, List.map_nil, h0, h1]; rfl
  refine ⟨exSetupB, ?_, ?_, ?_, ?_, ?_⟩
  · intro ax h
    simp only [List.mem_cons, List.not_mem_nil, or_false] at h
    subst h; decide +kernel
  · rw [h0, eo]; exact .cons (by unfold Reaches; dsimp only; omega) .nil
  · rw [h1, eo]
    intro h
    cases h with
    | cons h _ => unfold Reaches at h; dsimp only at h; omega
  · rw [ew, h0]; decide +kernel
  · rw [ew, h1]; decide +kernel

end

end PetIGA.Blk
